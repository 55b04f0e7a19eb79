import Verif.Proofs.Wall
/-!
# The parsers stay within brackets
-/

namespace Verif

/-- The level that matters in a state: inside of brackets, only they do. -/
def innerLevel (l : Nat) : Bool → Nat
  | true => 0
  | false => l

/-- Whether a grammar expression stays before the walls of a level.  The state is whether the parser is inside of brackets it has read the
first of. -/
def G.stay (lvl : NT → Nat) (l : Nat) : G → Bool → Option Bool
  | .eps, st => some st
  | .tok k, st =>
    if k.opens then (if st || k.wall l then Option.none else some true)
    else if k.closes then (if st then some false else Option.none)
    else if k.wall (innerLevel l st) then Option.none else some st
  | .number, st => some st
  | .simpleNumber, st => some st
  | .r n, st => if (innerLevel l st) ≤ lvl n then some st else Option.none
  | .seq a b, st => (a.stay lvl l st).bind (b.stay lvl l)
  | .alt a b, st | .ifAmbiguous a b, st => if a.stay lvl l st = b.stay lvl l st then a.stay lvl l st else Option.none
  | .opt a, st | .many a, st | .peek a, st =>
    if a.stay lvl (innerLevel l st) false = some false then some st else Option.none
  | .tailed _ s a, st | .tailed1Values s a, st | .resume s a, st | .implTailed _ _ s a, st =>
    if s.stay lvl (innerLevel l st) false = some false ∧ a.stay lvl (innerLevel l st) false = some false then some st
    else Option.none
  | .nested o c, st => if st || !o.opens || o.wall l || c != o.other then Option.none else some true
  | .ext a, st | .drop a, st | .map _ a, st | .build _ a, st | .nodeEmpty _ a, st | .mapErr _ a, st | .amb _ a, st | .notMaximum a, st =>
    a.stay lvl l st

/-- Before which walls the parser functions stay. -/
def NT.lvl : NT → Nat
  | .item | .statement | .statement_empty | .item_macro_call | .item_macro_call_args | .item_macro_call_paren
  | .item_macro_call_square | .p_struct | .struct_defn_body | .struct_defn_body_tuple | .trait_impl_member
  | .trait_member_function | .trait_member_type | .trait_member_const | .trait_impl_function_body | .impl_member | .impl_type
  | .impl_const | .p_const | .p_static | .extern_crate | .extern_block_member | .extern_block_static | .extern_block_type
  | .extern_block_member_function | .p_use | .type_alias | .«module» | .module_body_or_not => 0
  | .expression | .statement_expression | .function | .function_argument | .block | .item_macro_call_curly | .pattern
  | .pattern_kind | .pattern_tuple_member | .pattern_slice_member | .pattern_struct | .pattern_struct_field
  | .pattern_struct_field_long | .pattern_reference | .pattern_box | .pattern_macro_call | .struct_defn_body_brace
  | .struct_defn_body_brace_only | .p_union | .p_enum | .enum_variant | .enum_variant_body | .enum_discriminant | .p_trait
  | .trait_member_const_value | .trait_impl_function_argument | .trait_impl_function_argument_name | .p_impl | .impl_function
  | .extern_block | .extern_block_function_argument | .extern_block_function_argument_named | .use_path | .use_tail
  | .use_tail_multi | .module_body | .expression_atom | .expr_macro_call | .expr_macro_call_args | .expr_macro_call_curly
  | .expr_let | .expr_let_rhs | .expr_if | .expr_if_else_if | .expr_if_else_end | .expr_followed_by_block | .expr_for_loop
  | .expr_loop | .expr_if_let | .expr_while | .expr_while_let | .expr_match | .match_arm | .match_arm_guard | .match_arm_hand
  | .expr_closure | .expr_closure_arg | .expr_closure_return | .expr_closure_return_explicit | .expr_closure_return_body
  | .expr_closure_return_inferred | .expr_return | .expr_break | .expr_block | .expr_unsafe_block | .expr_async_block
  | .expr_value | .expr_value_struct_literal | .expr_value_struct_literal_field | .expr_value_struct_literal_field_value
  | .expr_value_struct_literal_splat => 1
  | _ => 2

theorem rules_stay : ∀ nt, (match rules nt with
    | .g g => g.stay NT.lvl nt.lvl false = some false
    | .expr _ => nt.lvl ≤ 1) := by
  have h : NT.all.all (fun nt => match rules nt with
    | .g g => decide (g.stay NT.lvl nt.lvl false = some false)
    | .expr _ => decide (nt.lvl ≤ 1)) = true := by decide +kernel
  intro nt
  have := List.all_eq_true.mp h nt (NT.mem_all nt)
  revert this
  cases rules nt <;> simp

section
variable {toks : List Token} {N : Nat}

theorem Stays.neutral {α : Type} {p : P α} {l i k : Nat} {st : Bool} (hz : Zone toks N l i k)
    (h : ∀ j m, Zone toks N (innerLevel l st) j m → Stays j m p) : Keeps i k (InSt toks N i k st) (InSt toks N i k st) p := by
  cases st with
  | false => exact h i k hz
  | true => exact (Stays.inside h).up (by omega)

theorem stay_tok {l i k : Nat} (hc : AllClosed toks N) (hz : Zone toks N l i k) {lvl : NT → Nat} {o : TK} {st st' : Bool} {err : PErr}
    (h : (G.tok o).stay lvl l st = some st') :
    Keeps i k (InSt toks N i k st) (InSt toks N i k st') (token toks (convTK o) err) := by
  simp only [G.stay] at h
  split at h
  · rename_i ho
    split at h
    · cases h
    · rename_i h1
      simp at h1
      cases h
      rw [h1.1]
      exact (Keeps.openTok ho (hz.opens hc ho h1.2)).mono fun q hq => hq.inside ho
  · split at h
    · rename_i ho
      split at h
      · rename_i h1; subst h1; cases h
        exact ((Keeps.closeTok ho).up (by omega)).mono fun q hq => hq.1
      · cases h
    · split at h
      · cases h
      · rename_i h1
        cases h
        refine Stays.neutral hz fun j m hz' => ?_
        refine Stays.token hz' ?_
        intro t v kk h2 h3
        rw [convTK_kind h2] at h3; cases h3
        simpa using h1

/-- A grammar expression stays within brackets. -/
theorem evalG_stay (hc : AllClosed toks N) {lvl : NT → Nat} {rec : NT → P (List V)}
    (hr : ∀ n j m, Zone toks N (lvl n) j m → Stays j m (rec n)) (g : G) : ∀ l i k st st', Zone toks N l i k →
      g.stay lvl l st = some st' → Keeps i k (InSt toks N i k st) (InSt toks N i k st') (evalG toks rec g) := by
  have neu : ∀ {g : G} {l i k st}, (∀ l i k st st', Zone toks N l i k →
      g.stay lvl l st = some st' → Keeps i k (InSt toks N i k st) (InSt toks N i k st') (evalG toks rec g)) → Zone toks N l i k →
      g.stay lvl (innerLevel l st) false = some false → ∀ j m, Zone toks N (innerLevel l st) j m →
      Stays j m (evalG toks rec g) := fun ih hz h j m hz' => ih _ j m false false hz' h
  induction g with
  | eps => intro l i k st st' hz h; cases h; exact .pure fun _ h => h
  | tok o => intro l i k st st' hz h; exact .map (stay_tok hc hz h)
  | number =>
    intro l i k st st' hz h; cases h
    refine .map (Stays.neutral hz fun j m hz' => Stays.token hz' ?_)
    intro t v kk h1 h2; cases t <;> simp [convNumber, Token.kind?] at h1 h2
  | simpleNumber => intro l i k st st' hz h; cases h; exact Stays.neutral hz fun j m hz' => Stays.fieldNameNumber hz'
  | r n =>
    intro l i k st st' hz h
    simp only [G.stay] at h
    split at h
    · rename_i h1
      cases h
      exact Stays.neutral hz fun j m hz' => hr n j m (hz'.mono h1)
    · cases h
  | seq a b iha ihb =>
    intro l i k st st' hz h
    simp only [G.stay] at h
    cases h1 : a.stay lvl l st with
    | none => rw [h1] at h; cases h
    | some s => rw [h1] at h; exact .bind (iha l i k st s hz h1) fun _ => .map (ihb l i k s st' hz h)
  | alt a b iha ihb =>
    intro l i k st st' hz h
    simp only [G.stay] at h
    split at h
    · rename_i h1
      exact .orElse (iha l i k st st' hz h) (ihb l i k st st' hz (h1 ▸ h))
    · cases h
  | ifAmbiguous a b iha ihb =>
    intro l i k st st' hz h am pt hp
    simp only [G.stay] at h
    split at h
    · rename_i h1
      simp only [evalG]
      split
      · exact iha l i k st st' hz h am pt hp
      · exact ihb l i k st st' hz (h1 ▸ h) am pt hp
    · cases h
  | opt a ih =>
    intro l i k st st' hz h
    simp only [G.stay] at h
    split at h
    · rename_i h1; cases h; exact .map (Stays.neutral hz fun j m hz' => .optional (neu ih hz h1 j m hz'))
    · cases h
  | many a ih =>
    intro l i k st st' hz h
    simp only [G.stay] at h
    split at h
    · rename_i h1; cases h; exact .map (Stays.neutral hz fun j m hz' => .zeroOrMore (neu ih hz h1 j m hz') _)
    · cases h
  | peek a ih =>
    intro l i k st st' hz h
    simp only [G.stay] at h
    split at h
    · rename_i h1; cases h; exact (Stays.neutral hz fun j m hz' => .peek (neu ih hz h1 j m hz'))
    · cases h
  | tailed x s a ihs iha =>
    intro l i k st st' hz h
    simp only [G.stay] at h
    split at h
    · rename_i h1; cases h
      exact .map (Stays.neutral hz fun j m hz' => .zeroOrMoreTailedAppend (neu ihs hz h1.1 j m hz') (neu iha hz h1.2 j m hz') _ _)
    · cases h
  | tailed1Values s a ihs iha =>
    intro l i k st st' hz h
    simp only [G.stay] at h
    split at h
    · rename_i h1; cases h
      exact .map (Stays.neutral hz fun j m hz' => .oneOrMoreTailed (neu ihs hz h1.1 j m hz') (neu iha hz h1.2 j m hz') _)
    · cases h
  | resume s a ihs iha =>
    intro l i k st st' hz h
    simp only [G.stay] at h
    split at h
    · rename_i h1; cases h
      exact .map (Stays.neutral hz fun j m hz' => .resume (neu ihs hz h1.1 j m hz') (neu iha hz h1.2 j m hz') _)
    · cases h
  | implTailed x y s a ihs iha =>
    intro l i k st st' hz h
    simp only [G.stay] at h
    split at h
    · rename_i h1; cases h
      exact .map (Stays.neutral hz fun j m hz' => .implTailed (neu ihs hz h1.1 j m hz') (neu iha hz h1.2 j m hz') _ _)
    · cases h
  | nested o c =>
    intro l i k st st' hz h
    simp only [G.stay] at h
    split at h
    · cases h
    · rename_i h1
      simp at h1
      obtain ⟨⟨⟨rfl, h2⟩, h3⟩, rfl⟩ := h1
      cases h
      exact .bind (Keeps.openTok h2 (hz.opens hc h2 h3)) fun _ => .map ((Keeps.nested h2).up (by omega))
  | ext a ih => intro l i k st st' hz h; exact .map (.spanned (ih l i k st st' hz h))
  | drop a ih => intro l i k st st' hz h; exact .map (ih l i k st st' hz h)
  | map f a ih => intro l i k st st' hz h; exact .map (ih l i k st st' hz h)
  | build m a ih => intro l i k st st' hz h; exact .map (.spanned (ih l i k st st' hz h))
  | nodeEmpty m a ih => intro l i k st st' hz h; exact .map (.spannedEmpty (ih l i k st st' hz h))
  | mapErr e a ih => intro l i k st st' hz h; exact .mapErr (ih l i k st st' hz h)
  | amb x a ih => intro l i k st st' hz h; exact .setAmbiguityLevel (ih l i k st st' hz h)
  | notMaximum a ih =>
    intro l i k st st' hz h am pt hp
    simp only [evalG]
    split
    · exact ⟨by simp, fun q e h => by cases h; exact hp.in, by simp⟩
    · exact ih l i k st st' hz h am pt hp

theorem tableP_stay {α : Type} (hc : AllClosed toks N) {lvl : NT → Nat} {rec : NT → P (List V)}
    (hr : ∀ n j m, Zone toks N (lvl n) j m → Stays j m (rec n)) {l i k : Nat} (hz : Zone toks N l i k) (t : (α × G) × List (α × G))
    (h : ∀ x ∈ t.1 :: t.2, x.2.stay lvl l false = some false) : Stays i k (tableP toks rec t) := by
  have one : ∀ x ∈ t.1 :: t.2, Stays i k ((evalG toks rec x.2).map fun vs => (x.1, vs)) := fun x hx =>
    .map (evalG_stay hc hr x.2 l i k false false hz (h x hx))
  unfold tableP
  have : ∀ (ys : List (α × G)) (p : P (α × List V)), Stays i k p → (∀ x ∈ ys, x ∈ t.1 :: t.2) →
      Stays i k (ys.foldl (fun p x => p.orElse ((evalG toks rec x.2).map fun vs => (x.1, vs))) p) := by
    intro ys
    induction ys with
    | nil => intro p hp _; exact hp
    | cons y ys ih =>
      intro p hp hy
      exact ih _ (.orElse hp (one y (hy y (by simp)))) fun x hx => hy x (by simp [hx])
  exact this t.2 _ (one t.1 (by simp)) fun x hx => by simp [hx]

theorem tables_stay : (∀ x ∈ prefixTable.1 :: prefixTable.2, x.2.stay NT.lvl 1 false = some false) ∧
    (∀ x ∈ infixTable.1 :: infixTable.2, x.2.stay NT.lvl 1 false = some false) ∧
    (∀ x ∈ postfixTable.1 :: postfixTable.2, x.2.stay NT.lvl 1 false = some false) ∧
    (∀ x ∈ limitedTable.1 :: limitedTable.2, x.2.stay NT.lvl 1 false = some false) := by
  decide +kernel

theorem attributedP_stay {α : Type} {rec : NT → P (List V)} {i k : Nat} (h1 : Stays i k (rec .attribute)) {p : P α} (hp : Stays i k p) :
    Stays i k (attributedP toks rec p) :=
  .spanned (.bind (.zeroOrMore h1 _) fun _ => .map hp)

attribute [local irreducible] G.stay NT.lvl prefixTable infixTable postfixTable limitedTable tableP attributedP

theorem shuntingYard_stays {ps : ExprParsers} {i k : Nat} {stmt : Bool} {n : Nat} (h : Stays i k ps.prefixOrAtom ∧
    Stays i k ps.infixOrPostfix ∧ Stays i k ps.limitedPostfix) : Stays i k (shuntingYard toks ps stmt n) :=
  shuntLoop_stays h.1 h.2.1 h.2.2 n {} .Prefix ⟨by simp, by simp⟩

theorem exprParsers_stay (hc : AllClosed toks N) {rec : NT → P (List V)}
    (hr : ∀ (n : NT) j m, Zone toks N n.lvl j m → Stays j m (rec n)) {i k : Nat} (hz : Zone toks N 1 i k)
    (ha : Stays i k (rec .attribute)) (hx : Stays i k (rec .expression_atom)) :
    Stays i k (exprParsers toks rec).prefixOrAtom ∧ Stays i k (exprParsers toks rec).infixOrPostfix ∧
      Stays i k (exprParsers toks rec).limitedPostfix := by
  have h1 := tableP_stay (lvl := NT.lvl) hc hr hz prefixTable tables_stay.1
  have h2 := tableP_stay (lvl := NT.lvl) hc hr hz infixTable tables_stay.2.1
  have h3 := tableP_stay (lvl := NT.lvl) hc hr hz postfixTable tables_stay.2.2.1
  have h4 := tableP_stay (lvl := NT.lvl) hc hr hz limitedTable tables_stay.2.2.2
  unfold exprParsers
  exact ⟨.orElse (.map (attributedP_stay ha h1)) (.map (attributedP_stay ha hx)), .orElse (.map h2) (.map h3), h4⟩

/-- The parser functions stay within brackets, and before the walls of their level. -/
theorem eval_stay (hc : AllClosed toks N) (n : Nat) : ∀ nt i k, Zone toks N nt.lvl i k → Stays i k (eval toks n nt) := by
  induction n with
  | zero => intro nt i k _; exact .hang
  | succ n ih =>
    intro nt i k hz
    have h := rules_stay nt
    unfold eval evalRule
    split
    · rename_i g hg
      rw [hg] at h
      exact evalG_stay hc ih g _ i k false false hz h
    · rename_i stmt hg
      rw [hg] at h
      have hz1 := hz.mono h
      have ha : Stays i k (eval toks n .attribute) := ih .attribute i k (hz1.mono (by decide +kernel))
      have hx : Stays i k (eval toks n .expression_atom) := ih .expression_atom i k (hz1.mono (by decide +kernel))
      generalize eval toks n = rec at ih ha hx ⊢
      exact .map (shuntingYard_stays (exprParsers_stay hc ih hz1 ha hx))

end

end Verif
