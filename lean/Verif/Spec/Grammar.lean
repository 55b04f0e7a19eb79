import Verif.Eval
/-!
# A declarative reading of the grammar

What it means for a grammar expression to be recognised between two points, leaving out how the parser finds out: alternatives are
unordered, and failures, the failure log and fuel do not occur.  `den toks Φ g` is the meaning of `g` when `Φ` is the meaning
of the nonterminals; `Proofs/Den.lean` shows that the parser only succeeds according to this reading, for every `Φ` that is
closed under the rules.
-/

namespace Verif

/-- A point the parser may be at: at a token, and if part of the token is already taken then the rest can be produced. -/
def ValidPt (toks : List Token) (p : Pt) : Prop :=
  ∃ t, toks[p.off]? = some t ∧ ∀ n, p.sub = some n → (split t n).isSome

/-- Points in order, as numbers (for valid points, as at most two characters of a token are split off). -/
def Pt.key (p : Pt) : Nat := 4 * p.off + p.subw

/-- Two valid points, in order. -/
def Btw (toks : List Token) (p q : Pt) : Prop := ValidPt toks p ∧ ValidPt toks q ∧ p.key ≤ q.key

/-- What is left of the token at a point. -/
def current (toks : List Token) (p : Pt) : Option Token :=
  match toks[p.off]? with
  | none => none
  | some t =>
    match p.sub with
    | some n => (split t n).map (·.2)
    | none => some t

/-- One token is read: all that is left of it, or only its first character when the whole is not wanted but the first
character is. -/
inductive TokStep {α : Type} (toks : List Token) (conv : Token → Option α) : Pt → Pt → α → Prop
  | whole {pt t v} : current toks pt = some t → conv t = some v → TokStep toks conv pt (pt.advanceBy 1) v
  | part {pt o t h r v} : toks[pt.off]? = some o → current toks pt = some t → conv t = none →
      split o pt.subw = some (h, r) → conv h = some v → TokStep toks conv pt ⟨pt.off, some pt.subw⟩ v

/-- Any number of `R`s in a row. -/
inductive Star {α : Type} (toks : List Token) (R : Pt → Pt → α → Prop) : Pt → Pt → List α → Prop
  | nil {p} : ValidPt toks p → Star toks R p p []
  | cons {p q r v vs} : R p q v → Star toks R q r vs → Star toks R p r (v :: vs)

/-- Where something was found missing: the lists go on from the point where the parser of it failed.  With `early`, that is the
point where it started. -/
def Gap (toks : List Token) (early : Bool) (p q : Pt) : Prop := Btw toks p q ∧ (early = true → q = p)

/-- Elements `R` with separators `S`, from a list already read to the complete list.  The list may end at any point where an
element or a separator was found missing; `es` and `er` say that separators and elements only fail where they start. -/
inductive TailR {α : Type} (toks : List Token) (es er : Bool) (S : Pt → Pt → Prop) (R : Pt → Pt → α → Prop) :
    Pt → P.Tailed α → Pt → P.Tailed α → Prop
  | stop {p q t} : Gap toks er p q → TailR toks es er S R p t q t
  | last {p m q t v} : R p m v → Gap toks es m q →
      TailR toks es er S R p t q { t with values := t.values ++ [v], lastHadSeparator := false }
  | more {p m m' q t v t'} : R p m v → S m m' →
      TailR toks es er S R m' ⟨t.values ++ [v], t.separatorCount + 1, true⟩ q t' → TailR toks es er S R p t q t'

/-- The same with elements that need no separator after them. -/
inductive ImplR {α : Type} (toks : List Token) (es er : Bool) (impl : α → Bool) (S : Pt → Pt → Prop) (R : Pt → Pt → α → Prop) :
    Pt → P.Tailed α → Pt → P.Tailed α → Prop
  | stop {p q t} : Gap toks er p q → ImplR toks es er impl S R p t q t
  | last {p m q t v} : R p m v → impl v = false → Gap toks es m q →
      ImplR toks es er impl S R p t q { t with values := t.values ++ [v] }
  | implicit {p m m' q t v t'} : R p m v → impl v = true → Gap toks es m m' →
      ImplR toks es er impl S R m' ⟨t.values ++ [v], t.separatorCount + 1, false⟩ q t' → ImplR toks es er impl S R p t q t'
  | more {p m m' q t v t'} : R p m v → S m m' →
      ImplR toks es er impl S R m' ⟨t.values ++ [v], t.separatorCount + 1, true⟩ q t' → ImplR toks es er impl S R p t q t'

/-- At least one element. -/
inductive TailR1 {α : Type} (toks : List Token) (es er : Bool) (S : Pt → Pt → Prop) (R : Pt → Pt → α → Prop) :
    Pt → Pt → P.Tailed α → Prop
  | one {p m q v} : R p m v → Gap toks es m q → TailR1 toks es er S R p q { values := [v] }
  | more {p m m' q v t} : R p m v → S m m' → TailR toks es er S R m' { values := [v], separatorCount := 1 } q t →
      TailR1 toks es er S R p q t

/-- The parser functions that never fail. -/
def NT.total : NT → Bool
  | .function_qualifiers | .trait_bounds | .enum_variant_body => true
  | _ => false

/-- The parser functions that, when they fail, fail where they started. -/
def NT.early : NT → Bool
  | .function_qualifiers | .function_qualifier_extern | .ident | .generic_declaration_lifetime
  | .generic_declaration_lifetime_bounds | .generic_declaration_type | .generic_declaration_type_bounds
  | .self_argument_qualifier | .trait_bounds | .trait_bound_lifetime | .statement | .statement_empty
  | .character_literal | .string_literal | .number_literal | .path_component | .pattern_tuple_member
  | .pattern_slice_member | .pattern_byte | .pattern_char | .pattern_byte_string | .pattern_string
  | .range_inclusive_operator | .enum_variant | .enum_variant_body | .visibility | .visibility_public
  | .trait_impl_function_body | .p_impl_kind | .p_impl_of_inherent | .type_or_wildcard | .extern_block_function_argument
  | .extern_block_function_argument_variadic | .path_member | .use_tail_ident | .use_tail_glob | .module_body_or_not
  | .typ | .typ_single | .typ_kind | .typ_reference_kind | .typ_pointer_kind | .typ_additional | .typ_named_component
  | .typ_generics_angle_member | .associated_type_value | .associated_type_value_bound | .typ_function_argument_variadic
  | .lifetime | .operator_prefix_reference | .field_name | .field_name_number | .expr_byte | .expr_byte_string
  | .expr_return | .expr_continue | .expr_break | .expr_value_struct_literal_field => true
  | _ => false

/-- Grammar expressions that never fail. -/
def G.total : G → Bool
  | .eps | .opt _ | .many _ | .tailed .. | .resume .. | .implTailed .. => true
  | .tok _ | .number | .simpleNumber | .nested .. | .notMaximum _ => false
  | .r n => n.total
  | .seq a b | .ifAmbiguous a b => a.total && b.total
  | .alt a b => a.total || b.total
  | .tailed1Values _ a | .ext a | .drop a | .map _ a | .build _ a | .nodeEmpty _ a | .mapErr _ a | .peek a | .amb _ a =>
    a.total

/-- Grammar expressions that, when they fail, fail where they started. -/
def G.early : G → Bool
  | .eps | .tok _ | .number | .simpleNumber | .opt _ | .many _ | .tailed .. | .resume .. | .implTailed .. | .nested ..
  | .peek _ => true
  | .r n => n.early
  | .seq a b => a.early && b.total
  | .alt _ b => b.early
  | .ifAmbiguous a b => a.early && b.early
  | .tailed1Values _ a | .ext a | .drop a | .map _ a | .build _ a | .nodeEmpty _ a | .mapErr _ a | .amb _ a
  | .notMaximum a => a.early

/-- The meaning of a parser function: mode, start, end, values. -/
abbrev Rel := Amb → Pt → Pt → List V → Prop

/-- The meaning of a grammar expression. -/
def den (toks : List Token) (Φ : NT → Rel) : G → Rel
  | .eps, _, p, q, vs => ValidPt toks p ∧ q = p ∧ vs = []
  | .tok k, _, p, q, vs => Btw toks p q ∧ ∃ e, TokStep toks (convTK k) p q e ∧ vs = [.ext e]
  | .number, _, p, q, vs => Btw toks p q ∧ ∃ n, TokStep toks convNumber p q n ∧ vs = [convertNumber n]
  | .simpleNumber, _, p, q, vs =>
    Btw toks p q ∧ ∃ n e, TokStep toks convNumber p q n ∧ n.intoSimple = some e ∧ vs = [.ext e]
  | .r n, am, p, q, vs => Btw toks p q ∧ Φ n am p q vs
  | .seq a b, am, p, q, vs => ∃ m v w, den toks Φ a am p m v ∧ den toks Φ b am m q w ∧ vs = v ++ w
  | .alt a b, am, p, q, vs => den toks Φ a am p q vs ∨ den toks Φ b am p q vs
  | .opt a, am, p, q, vs =>
    (∃ v, den toks Φ a am p q v ∧ vs = [.list v]) ∨ (ValidPt toks p ∧ q = p ∧ vs = [.list []])
  | .many a, am, p, q, vs => ∃ vss, Star toks (den toks Φ a am) p q vss ∧ vs = [.list vss.flatten]
  | .tailed k sep a, am, p, q, vs =>
    ∃ t, TailR toks sep.early a.early (fun p q => ∃ w, den toks Φ sep am p q w) (den toks Φ a am) p {} q t ∧ vs = k.out t
  | .tailed1Values sep a, am, p, q, vs =>
    ∃ t, TailR1 toks sep.early a.early (fun p q => ∃ w, den toks Φ sep am p q w) (den toks Φ a am) p q t ∧ vs = TailK.out .values t
  | .resume sep a, am, p, q, vs =>
    (Gap toks sep.early p q ∧ vs = [.list []]) ∨
    ∃ m w t, den toks Φ sep am p m w ∧
      TailR1 toks sep.early a.early (fun p q => ∃ w, den toks Φ sep am p q w) (den toks Φ a am) m q t ∧ vs = [.list t.values.flatten]
  | .implTailed k i sep a, am, p, q, vs =>
    ∃ t, ImplR toks sep.early a.early i.app (fun p q => ∃ w, den toks Φ sep am p q w) (den toks Φ a am) p {} q t ∧ vs = k.out t
  | .nested o c, _, p, q, vs =>
    ∃ m e0 e, Btw toks p m ∧ TokStep toks (convTK o) p m e0 ∧ Btw toks m q ∧
      q = m.advanceBy (nestedLen (isTK o) (isTK c) 0 (toks.drop m.off)) ∧ ex toks m q = some e ∧ vs = [.ext e]
  | .ext a, am, p, q, vs => ∃ v e, den toks Φ a am p q v ∧ ex toks p q = some e ∧ vs = [.ext e]
  | .drop a, am, p, q, vs => ∃ v, den toks Φ a am p q v ∧ vs = []
  | .map f a, am, p, q, vs => ∃ v, den toks Φ a am p q v ∧ vs = f.app v
  | .build m a, am, p, q, vs => ∃ v e, den toks Φ a am p q v ∧ ex toks p q = some e ∧ vs = m.app e v
  | .nodeEmpty k a, am, p, q, vs =>
    ∃ v e, den toks Φ a am p q v ∧ ex toks p p = some e ∧ vs = [.node k e [] v]
  | .mapErr _ a, am, p, q, vs => den toks Φ a am p q vs
  | .peek a, am, p, q, vs => ValidPt toks p ∧ q = p ∧ ∃ m, den toks Φ a am p m vs
  | .amb level a, _, p, q, vs => den toks Φ a level p q vs
  | .ifAmbiguous a b, am, p, q, vs => if am.isAmbiguous then den toks Φ a am p q vs else den toks Φ b am p q vs
  | .notMaximum a, am, p, q, vs => am ≠ .Maximum ∧ den toks Φ a am p q vs

section expr
variable (toks : List Token) (Φ : NT → Rel)

/-- An entry of an operator table is recognised. -/
def TableR {α : Type} (t : (α × G) × List (α × G)) (am : Amb) (p q : Pt) (op : α) (payload : List V) : Prop :=
  ∃ g, (op, g) ∈ t.1 :: t.2 ∧ den toks Φ g am p q payload

/-- Attributes, then something else. -/
def AttrR (R : Pt → Pt → Prop) (am : Amb) (p q : Pt) (e : Extent) (attrs : List V) : Prop :=
  ∃ m vss, Star toks (den toks Φ (.r .attribute) am) p m vss ∧ R m q ∧ ex toks p q = some e ∧ attrs = vss.flatten

/-- A prefix operator with its attributes. -/
def PrefixR (am : Amb) (p q : Pt) (e : Extent) (attrs : List V) (op : PrefixOp) (payload : List V) : Prop :=
  AttrR toks Φ (fun m q => TableR toks Φ prefixTable am m q op payload) am p q e attrs

/-- An atom with its attributes. -/
def AtomR (am : Amb) (p q : Pt) (v : V) : Prop :=
  ∃ e attrs vs, AttrR toks Φ (fun m q => den toks Φ (.r .expression_atom) am m q vs) am p q e attrs ∧
    v = .node .AttributedExpression e [] (.list attrs :: vs)

/-- Prefix operators and then an atom: the operators apply from right to left.  The first of them is read in mode `am`, the
others in mode `a`. -/
inductive OperandR (a : Amb) : Amb → Pt → Pt → V → Prop
  | atom {am p q v} : AtomR toks Φ am p q v → OperandR a am p q v
  | pre {am p m q e attrs op payload v inner} : PrefixR toks Φ am p m e attrs op payload → OperandR a a m q v →
      ex toks p q = some inner →
      OperandR a am p q (mkAttributed ⟨e.s, inner.e⟩ attrs (op.mk payload inner (some v)))

/-- Prefix operators without an atom; the last of them is a range. -/
inductive OpenRangeR (a : Amb) : Pt → Pt → V → Prop
  | last {p q e attrs op payload inner} : PrefixR toks Φ a p q e attrs op payload → op.isRange = true →
      ex toks p q = some inner → OpenRangeR a p q (mkAttributed ⟨e.s, inner.e⟩ attrs (op.mk payload inner none))
  | pre {p m q e attrs op payload v inner} : PrefixR toks Φ a p m e attrs op payload → OpenRangeR a m q v →
      ex toks p q = some inner →
      OpenRangeR a p q (mkAttributed ⟨e.s, inner.e⟩ attrs (op.mk payload inner (some v)))

/-- The mode in which the right operand of an infix operator is read. -/
def rhsMode (a : Amb) (op : InfixOp) : Amb := if a.isAmbiguous && op.isRange then .Maximum else a

/-- Operands joined by infix operators and followed by postfix operators, applied strictly from left to right.  At the start of a
statement, an expression that may end a statement is only continued by the operators of `limitedTable`. -/
inductive LeftR (stmt : Bool) (a : Amb) : Pt → Pt → V → Prop
  | operand {p q v} : OperandR toks Φ a a p q v → LeftR stmt a p q v
  | post {p m q v op payload e} : LeftR stmt a p m v → (stmt = true → mayTerminateAttributed v = false) →
      TableR toks Φ postfixTable a m q op payload → ex toks p q = some e → LeftR stmt a p q (op.mk payload e v)
  | limited {p m q v op payload e} : LeftR stmt a p m v → TableR toks Φ limitedTable a m q op payload →
      ex toks p q = some e → LeftR stmt a p q (op.mk payload e v)
  | infix {p m m' q l op payload r e} : LeftR stmt a p m l → (stmt = true → mayTerminateAttributed l = false) →
      TableR toks Φ infixTable a m m' op payload → OperandR toks Φ a (rhsMode a op) m' q r →
      ex toks p q = some e → LeftR stmt a p q (op.mk payload e l (some r))

/-- An expression. -/
inductive ExprR (stmt : Bool) (a : Amb) : Pt → Pt → V → Prop
  | left {p q v} : LeftR toks Φ stmt a p q v → ExprR stmt a p q v
  /-- a range without an end -/
  | openInfix {p m q l op payload e} : LeftR toks Φ stmt a p m l → (stmt = true → mayTerminateAttributed l = false) →
      TableR toks Φ infixTable a m q op payload → op.isRange = true → ex toks p q = some e →
      ExprR stmt a p q (op.mk payload e l none)
  /-- a range with neither start nor end, possibly after other prefix operators -/
  | openPrefix {p q v} : OpenRangeR toks Φ a p q v → ExprR stmt a p q v

end expr

/-- The meaning of a rule. -/
def denRule (toks : List Token) (Φ : NT → Rel) : Rule → Rel
  | .g g, am, p, q, vs => den toks Φ g am p q vs
  | .expr stmt, am, p, q, vs => ∃ v, Btw toks p q ∧ ExprR toks Φ stmt am p q v ∧ vs = [v]

/-- `Φ` allows whatever the rules build. -/
def Closed (toks : List Token) (Φ : NT → Rel) : Prop :=
  ∀ nt am p q vs, Btw toks p q → denRule toks Φ (rules nt) am p q vs → Φ nt am p q vs

end Verif
