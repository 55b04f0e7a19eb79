import Verif.Proofs.Extents
import Verif.Proofs.Loop
import Verif.Proofs.Mono
/-!
# Where the nodes of a tree come from

Every struct in a tree returned by the parser was built by one of the constructs of the grammar, from values that the
construct produced.
-/

namespace Verif

/-- A grammar expression and the expressions in it. -/
def G.parts : G → List G
  | .seq a b => .seq a b :: (a.parts ++ b.parts)
  | .alt a b => .alt a b :: (a.parts ++ b.parts)
  | .ifAmbiguous a b => .ifAmbiguous a b :: (a.parts ++ b.parts)
  | .tailed k s a => .tailed k s a :: (s.parts ++ a.parts)
  | .tailed1Values s a => .tailed1Values s a :: (s.parts ++ a.parts)
  | .resume s a => .resume s a :: (s.parts ++ a.parts)
  | .implTailed k i s a => .implTailed k i s a :: (s.parts ++ a.parts)
  | .opt a => .opt a :: a.parts
  | .many a => .many a :: a.parts
  | .ext a => .ext a :: a.parts
  | .drop a => .drop a :: a.parts
  | .map f a => .map f a :: a.parts
  | .build m a => .build m a :: a.parts
  | .nodeEmpty k a => .nodeEmpty k a :: a.parts
  | .mapErr e a => .mapErr e a :: a.parts
  | .peek a => .peek a :: a.parts
  | .amb l a => .amb l a :: a.parts
  | .notMaximum a => .notMaximum a :: a.parts
  | .eps => [.eps]
  | .tok k => [.tok k]
  | .number => [.number]
  | .simpleNumber => [.simpleNumber]
  | .r n => [.r n]
  | .nested o c => [.nested o c]

theorem G.self_mem_parts (g : G) : g ∈ g.parts := by cases g <;> simp [G.parts]

/-- The grammar expressions the parser consists of: an item of the file, the rules, the operators. -/
def allG : List G :=
  itemG :: NT.all.filterMap (fun nt => match rules nt with | .g x => some x | .expr _ => none) ++
    (prefixTable.1 :: prefixTable.2).map (·.2) ++ (infixTable.1 :: infixTable.2).map (·.2) ++
    (postfixTable.1 :: postfixTable.2).map (·.2) ++ (limitedTable.1 :: limitedTable.2).map (·.2)

def allParts : List G := allG.flatMap G.parts

/-- The kinds of structs made by closures. -/
def Fn.makes : Fn → K → Bool
  | .ident, k => k = .Ident
  | .lifetime, k => k = .Lifetime || k = .Ident
  | .character, k => k = .Character
  | .string, k => k = .String
  | .byte, k => k = .Byte || k = .Character
  | .byteString, k => k = .ByteString || k = .String
  | .copyExtent k', k => k = k'
  | .into, k => k = .AttributedExpression
  | .fieldValue, k => k = .AttributedExpression || k = .Value || k = .PathedIdent || k = .PathComponent
  | _, _ => false

/-- The struct that `Mk.app` makes of values. -/
def Mk.node? : Mk → List V → Option (K × List V)
  | .node k, vs => some (k, vs)
  | .paren, [.enm .Expression_Parenthetical vs] => some (.Parenthetical, vs)
  | .paren, [.enm .Expression_Tuple vs] => some (.Tuple, vs)
  | .tupleBody, [fields, _] => some (.StructDefinitionBodyTuple, [fields])
  | _, _ => none

/-- How a struct `k` with extent `e` and fields `vs` comes about. -/
inductive Orig (toks : List Token) (Φ : NT → Rel) : K → Extent → List V → Prop
  | build {m g am p q v e k vs} : .build m g ∈ allParts → den toks Φ g am p q v → ex toks p q = some e →
      m.node? v = some (k, vs) → Orig toks Φ k e vs
  | empty {k g am p q e vs} : .nodeEmpty k g ∈ allParts → den toks Φ g am p q vs → ex toks p p = some e →
      Orig toks Φ k e vs
  | fn {f g am p q v k e vs} : .map f g ∈ allParts → den toks Φ g am p q v → .node k e [] vs ∈ subsL (f.app v) →
      .node k e [] vs ∉ subsL v → f.makes k = true → Orig toks Φ k e vs
  | number {p q n k e vs} : Btw toks p q → TokStep toks convNumber p q n → .node k e [] vs ∈ (convertNumber n).subs →
      Orig toks Φ k e vs
  | atom {am p q e vs} : AtomR toks Φ am p q (.node .AttributedExpression e [] vs) →
      Orig toks Φ .AttributedExpression e vs
  | pre {a am p m q e attrs op payload o inner k e' vs} : PrefixR toks Φ am p m e attrs op payload →
      (o = none ∧ op.isRange = true ∧ q = m ∨ ∃ v, o = some v ∧ (OperandR toks Φ a a m q v ∨ OpenRangeR toks Φ a m q v)) →
      ex toks p q = some inner →
      (.node k e' [] vs = mkAttributed ⟨e.s, inner.e⟩ attrs (op.mk payload inner o) ∨
        ∃ t, op.mk payload inner o = .enm t [.node k e' [] vs]) →
      Orig toks Φ k e' vs
  | post {stmt a p m q v op payload e k vs} : LeftR toks Φ stmt a p m v →
      (TableR toks Φ postfixTable a m q op payload ∨ TableR toks Φ limitedTable a m q op payload) →
      ex toks p q = some e →
      (.node k e [] vs = op.mk payload e v ∨ ∃ t, op.mk payload e v = intoAttributed t k e vs) →
      Orig toks Φ k e vs
  | inf {stmt a p m m' q l op payload o e k vs} : LeftR toks Φ stmt a p m l →
      TableR toks Φ infixTable a m m' op payload →
      (o = none ∧ op.isRange = true ∧ q = m' ∨ ∃ r, o = some r ∧ OperandR toks Φ a (rhsMode a op) m' q r) →
      ex toks p q = some e →
      (.node k e [] vs = op.mk payload e l o ∨ ∃ t, op.mk payload e l o = intoAttributed t k e vs) →
      Orig toks Φ k e vs

/-- The structs in the values of a list all come about like this, and none has whitespace yet. -/
def AllOrig (toks : List Token) (Φ : NT → Rel) (vs : List V) : Prop :=
  ∀ k e ws fs, V.node k e ws fs ∈ subsL vs → ws = [] ∧ Orig toks Φ k e fs

/-! ## Structs in values -/

@[simp] theorem subs_ext (e : Extent) : (V.ext e).subs = [.ext e] := rfl
@[simp] theorem subs_bool (b : Bool) : (V.bool b).subs = [.bool b] := rfl
@[simp] theorem subs_list (vs : List V) : (V.list vs).subs = .list vs :: subsL vs := rfl
@[simp] theorem subs_enm (t : Tag) (vs : List V) : (V.enm t vs).subs = .enm t vs :: subsL vs := rfl
@[simp] theorem subs_node (k : K) (e : Extent) (ws : List Ws) (vs : List V) :
    (V.node k e ws vs).subs = .node k e ws vs :: subsL vs := rfl
@[simp] theorem subsL_nil : subsL [] = [] := rfl
@[simp] theorem subsL_cons (v : V) (vs : List V) : subsL (v :: vs) = v.subs ++ subsL vs := rfl

theorem Fn.app_nodes (f : Fn) (vs : List V) {k e ws fs} (h : V.node k e ws fs ∈ subsL (f.app vs)) :
    V.node k e ws fs ∈ subsL vs ∨ ws = [] ∧ f.makes k = true := by
  unfold Fn.app at h
  split at h
  case h_17 v | h_18 v =>
    split at h
    · simp [mkAttributed, intoExpr] at h ⊢
      rcases h with ⟨rfl, -, rfl, -⟩ | h
      · exact .inr ⟨rfl, by simp [Fn.makes]⟩
      · exact .inl h
    · exact .inl h
  all_goals try simp [mkIdent, mkPathedIdent, intoExpr, mkAttributed, subsL_append] at h ⊢
  all_goals first
    | exact .inl h
    | (simp [Fn.makes]; grind)

theorem Mk.app_nodes (m : Mk) (e0 : Extent) (vs : List V) {k e ws fs} (h : V.node k e ws fs ∈ subsL (m.app e0 vs)) :
    V.node k e ws fs ∈ subsL vs ∨ ws = [] ∧ e = e0 ∧ m.node? vs = some (k, fs) := by
  unfold Mk.app at h
  split at h
  all_goals try simp [subsL_append] at h ⊢
  all_goals simp [Mk.node?]
  all_goals grind

theorem intoExpression_subs {v w x : V} (h : intoExpression v = some w) (hx : x ∈ w.subs) : x ∈ v.subs := by
  unfold intoExpression at h
  split at h <;> simp at h
  subst h; simp [hx]

theorem TailK.out_nodes (k : TailK) (t : P.Tailed (List V)) {k' e ws fs} (h : V.node k' e ws fs ∈ subsL (k.out t)) :
    V.node k' e ws fs ∈ subsL t.values.flatten := by
  unfold TailK.out at h
  split at h
  · simpa using h
  · split at h
    · rename_i e' h'
      split at h
      · simpa using h
      · simp only [subsL_cons, subs_list, subsL_nil, List.append_nil, List.mem_append, List.mem_cons, reduceCtorEq,
          false_or] at h
        rcases h with h | h
        · obtain ⟨v, hv, h⟩ := mem_subsL.mp h
          exact mem_subsL.mpr ⟨v, List.dropLast_subset _ hv, h⟩
        · cases hl : t.values.flatten.getLast? with
          | none => rw [hl] at h'; cases h'
          | some w =>
            rw [hl] at h'
            exact mem_subsL.mpr ⟨w, List.mem_of_getLast? hl, intoExpression_subs h' h⟩
    · simpa using h
  · split at h <;> simpa using h

theorem PrefixOp.mk_nodes (op : PrefixOp) (payload : List V) (e0 : Extent) (o : Option V) {k e ws fs}
    (h : V.node k e ws fs ∈ (op.mk payload e0 o).subs) :
    V.node k e ws fs ∈ subsL payload ∨ V.node k e ws fs ∈ subsL o.toList ∨
      ws = [] ∧ ∃ t, op.mk payload e0 o = .enm t [.node k e [] fs] := by
  cases op <;> simp [PrefixOp.mk, subsL_append] at h ⊢ <;> grind

theorem InfixOp.mk_nodes (op : InfixOp) (payload : List V) (e0 : Extent) (l : V) (o : Option V) {k e ws fs}
    (h : V.node k e ws fs ∈ (op.mk payload e0 l o).subs) :
    V.node k e ws fs ∈ subsL payload ∨ V.node k e ws fs ∈ l.subs ∨ V.node k e ws fs ∈ subsL o.toList ∨
      ws = [] ∧ e = e0 ∧ (V.node k e [] fs = op.mk payload e0 l o ∨ ∃ t, op.mk payload e0 l o = intoAttributed t k e fs) := by
  cases op <;> simp [InfixOp.mk, intoAttributed, mkAttributed, subsL_append] at h ⊢ <;> grind

theorem PostfixOp.mk_nodes (op : PostfixOp) (payload : List V) (e0 : Extent) (l : V) {k e ws fs}
    (h : V.node k e ws fs ∈ (op.mk payload e0 l).subs) :
    V.node k e ws fs ∈ subsL payload ∨ V.node k e ws fs ∈ l.subs ∨
      ws = [] ∧ e = e0 ∧ (V.node k e [] fs = op.mk payload e0 l ∨ ∃ t, op.mk payload e0 l = intoAttributed t k e fs) := by
  cases op <;> simp [PostfixOp.mk, intoAttributed, mkAttributed, subsL_append] at h ⊢ <;> grind

theorem convertNumber_nodes (n : Number) {k e ws fs} (h : V.node k e ws fs ∈ (convertNumber n).subs) : ws = [] := by
  have hn : ∀ o, V.node k e ws fs ∉ (optExt o).subs := by intro o; cases o <;> simp [optExt]
  obtain ⟨base, e0, i, fr, ex, suf, w⟩ := n
  unfold convertNumber at h
  cases base <;> simp [hn] at h <;> rcases h with ⟨-, -, h, -⟩ | ⟨-, -, h, -⟩ <;> exact h

namespace AllOrig
variable {toks : List Token} {Φ : NT → Rel} {vs ws : List V}

theorem nil : AllOrig toks Φ [] := by intro k e w fs h; simp at h

theorem append (h : AllOrig toks Φ vs) (h' : AllOrig toks Φ ws) : AllOrig toks Φ (vs ++ ws) := by
  intro k e w fs hx
  rw [subsL_append, List.mem_append] at hx
  exact hx.elim (h _ _ _ _) (h' _ _ _ _)

theorem list (h : AllOrig toks Φ vs) : AllOrig toks Φ [.list vs] := by
  intro k e w fs hx
  simp at hx
  exact h _ _ _ _ hx

theorem left (h : AllOrig toks Φ (vs ++ ws)) : AllOrig toks Φ vs :=
  fun k e w fs hx => h k e w fs (by simp [subsL_append, hx])

theorem right (h : AllOrig toks Φ (vs ++ ws)) : AllOrig toks Φ ws :=
  fun k e w fs hx => h k e w fs (by simp [subsL_append, hx])

theorem flatten {vss : List (List V)} (h : ∀ v ∈ vss, AllOrig toks Φ v) : AllOrig toks Φ vss.flatten := by
  induction vss with
  | nil => exact nil
  | cons v vss ih => exact (h v (by simp)).append (ih (fun w hw => h w (by simp [hw])))

end AllOrig

section
variable {toks : List Token} {α : Type} {S : Pt → Pt → Prop} {R : Pt → Pt → α → Prop} {P : α → Prop}
  (hR : ∀ p q v, R p q v → P v)
include hR

theorem Star.all {p q vs} (h : Star toks R p q vs) : ∀ v ∈ vs, P v := by
  induction h with
  | nil => simp
  | cons h _ ih => intro v hv; simp at hv; exact hv.elim (fun hv => hv ▸ hR _ _ _ h) (ih v)

theorem TailR.all {es er : Bool} {p t q t'} (h : TailR toks es er S R p t q t') (ht : ∀ v ∈ t.values, P v) : ∀ v ∈ t'.values, P v := by
  induction h with
  | stop => exact ht
  | last h => intro v hv; simp at hv; exact hv.elim (ht v) (fun hv => hv ▸ hR _ _ _ h)
  | more h _ _ ih =>
    exact ih (by intro v hv; simp at hv; exact hv.elim (ht v) (fun hv => hv ▸ hR _ _ _ h))

theorem ImplR.all {es er : Bool} {i p t q t'} (h : ImplR toks es er i S R p t q t') (ht : ∀ v ∈ t.values, P v) : ∀ v ∈ t'.values, P v := by
  induction h with
  | stop => exact ht
  | last h => intro v hv; simp at hv; exact hv.elim (ht v) (fun hv => hv ▸ hR _ _ _ h)
  | implicit h _ _ _ ih =>
    exact ih (by intro v hv; simp at hv; exact hv.elim (ht v) (fun hv => hv ▸ hR _ _ _ h))
  | more h _ _ ih =>
    exact ih (by intro v hv; simp at hv; exact hv.elim (ht v) (fun hv => hv ▸ hR _ _ _ h))

theorem TailR1.all {es er : Bool} {p q t} (h : TailR1 toks es er S R p q t) : ∀ v ∈ t.values, P v := by
  cases h with
  | one h => intro v hv; simp at hv; subst hv; exact hR _ _ _ h
  | more h _ h' => exact h'.all hR (by intro v hv; simp at hv; subst hv; exact hR _ _ _ h)

end

section
variable {toks : List Token} {Φ Φ0 : NT → Rel} (h0 : ∀ nt am p q vs, Φ nt am p q vs → Φ0 nt am p q vs)
  (h1 : ∀ nt am p q vs, Φ nt am p q vs → AllOrig toks Φ0 vs)
include h0 h1

theorem den_orig (g : G) : (∀ x ∈ g.parts, x ∈ allParts) → ∀ a p q vs, den toks Φ g a p q vs → AllOrig toks Φ0 vs := by
  induction g with
  | eps => rintro - a p q vs ⟨-, -, rfl⟩; exact .nil
  | tok k => rintro - a p q vs ⟨-, e, -, rfl⟩ k e ws fs h; simp at h
  | simpleNumber => rintro - a p q vs ⟨-, n, e, -, -, rfl⟩ k e ws fs h; simp at h
  | number =>
    rintro - a p q vs ⟨hb, n, ht, rfl⟩ k e ws fs h
    rw [subsL_single] at h
    have hw := convertNumber_nodes n h
    subst hw
    exact ⟨rfl, .number hb ht h⟩
  | nested o c => rintro - a p q vs ⟨m, e0, e, -, -, -, -, -, rfl⟩ k e ws fs h; simp at h
  | r n => rintro - a p q vs ⟨-, h⟩; exact h1 _ _ _ _ _ h
  | seq x y ihx ihy =>
    rintro hp a p q vs ⟨m, v, w, hx, hy, rfl⟩
    exact (ihx (fun z hz => hp z (by simp [G.parts, hz])) _ _ _ _ hx).append
      (ihy (fun z hz => hp z (by simp [G.parts, hz])) _ _ _ _ hy)
  | alt x y ihx ihy =>
    intro hp a p q vs h
    exact h.elim (ihx (fun z hz => hp z (by simp [G.parts, hz])) _ _ _ _)
      (ihy (fun z hz => hp z (by simp [G.parts, hz])) _ _ _ _)
  | ifAmbiguous x y ihx ihy =>
    intro hp a p q vs h
    simp only [den] at h
    split at h
    · exact ihx (fun z hz => hp z (by simp [G.parts, hz])) _ _ _ _ h
    · exact ihy (fun z hz => hp z (by simp [G.parts, hz])) _ _ _ _ h
  | opt x ih =>
    rintro hp a p q vs (⟨v, h, rfl⟩ | ⟨-, -, rfl⟩)
    · exact (ih (fun z hz => hp z (by simp [G.parts, hz])) _ _ _ _ h).list
    · exact AllOrig.nil.list
  | many x ih =>
    rintro hp a p q vs ⟨vss, h, rfl⟩
    exact (AllOrig.flatten (h.all (fun _ _ _ h => ih (fun z hz => hp z (by simp [G.parts, hz])) _ _ _ _ h))).list
  | tailed k s x ihs ih =>
    rintro hp a p q vs ⟨t, h, rfl⟩ k e ws fs hx
    exact AllOrig.flatten (h.all (fun _ _ _ h => ih (fun z hz => hp z (by simp [G.parts, hz])) _ _ _ _ h) (by simp))
      _ _ _ _ (TailK.out_nodes _ _ hx)
  | implTailed k i s x ihs ih =>
    rintro hp a p q vs ⟨t, h, rfl⟩ k e ws fs hx
    exact AllOrig.flatten (h.all (fun _ _ _ h => ih (fun z hz => hp z (by simp [G.parts, hz])) _ _ _ _ h) (by simp))
      _ _ _ _ (TailK.out_nodes _ _ hx)
  | tailed1Values s x ihs ih =>
    rintro hp a p q vs ⟨t, h, rfl⟩ k e ws fs hx
    exact AllOrig.flatten (h.all (fun _ _ _ h => ih (fun z hz => hp z (by simp [G.parts, hz])) _ _ _ _ h))
      _ _ _ _ (TailK.out_nodes _ _ hx)
  | resume s x ihs ih =>
    rintro hp a p q vs (⟨-, rfl⟩ | ⟨m, w, t, -, h, rfl⟩)
    · exact AllOrig.nil.list
    · exact (AllOrig.flatten (h.all (fun _ _ _ h => ih (fun z hz => hp z (by simp [G.parts, hz])) _ _ _ _ h))).list
  | ext x ih => rintro - a p q vs ⟨v, e, -, -, rfl⟩ k e ws fs h; simp at h
  | drop x ih => rintro - a p q vs ⟨v, -, rfl⟩; exact .nil
  | map f x ih =>
    rintro hp a p q vs ⟨v, h, rfl⟩ k e ws fs hx
    rcases Classical.em (V.node k e ws fs ∈ subsL v) with h' | hn
    · exact ih (fun z hz => hp z (by simp [G.parts, hz])) _ _ _ _ h _ _ _ _ h'
    rcases f.app_nodes v hx with h' | ⟨rfl, h'⟩
    · exact absurd h' hn
    · exact ⟨rfl, .fn (hp _ (by simp [G.parts])) (den_mono h0 _ _ _ _ _ h) hx hn h'⟩
  | build m x ih =>
    rintro hp a p q vs ⟨v, e, h, he, rfl⟩ k e' ws fs hx
    rcases m.app_nodes e v hx with h' | ⟨rfl, rfl, h'⟩
    · exact ih (fun z hz => hp z (by simp [G.parts, hz])) _ _ _ _ h _ _ _ _ h'
    · exact ⟨rfl, .build (hp _ (by simp [G.parts])) (den_mono h0 _ _ _ _ _ h) he h'⟩
  | nodeEmpty k x ih =>
    rintro hp a p q vs ⟨v, e, h, he, rfl⟩ k' e' ws fs hx
    simp at hx
    rcases hx with ⟨rfl, rfl, rfl, rfl⟩ | hx
    · exact ⟨rfl, .empty (hp _ (by simp [G.parts])) (den_mono h0 _ _ _ _ _ h) he⟩
    · exact ih (fun z hz => hp z (by simp [G.parts, hz])) _ _ _ _ h _ _ _ _ hx
  | mapErr e x ih => intro hp a p q vs h; exact ih (fun z hz => hp z (by simp [G.parts, hz])) _ _ _ _ h
  | peek x ih => rintro hp a p q vs ⟨-, -, m, h⟩; exact ih (fun z hz => hp z (by simp [G.parts, hz])) _ _ _ _ h
  | amb l x ih => intro hp a p q vs h; exact ih (fun z hz => hp z (by simp [G.parts, hz])) _ _ _ _ h
  | notMaximum x ih => rintro hp a p q vs ⟨-, h⟩; exact ih (fun z hz => hp z (by simp [G.parts, hz])) _ _ _ _ h

omit h0 h1 in
theorem mem_allParts {g : G} (h : g ∈ allG) : ∀ x ∈ g.parts, x ∈ allParts :=
  fun x hx => List.mem_flatMap.mpr ⟨g, h, hx⟩

omit h0 h1 in
theorem rule_mem_allG {nt : NT} {x : G} (h : rules nt = .g x) : x ∈ allG := by
  unfold allG
  simp only [List.mem_append, List.mem_cons, List.mem_filterMap]
  exact .inl (.inl (.inl (.inl (.inr ⟨nt, NT.mem_all nt, by rw [h]⟩))))

theorem TableR.orig {β : Type} {t : (β × G) × List (β × G)} (ht : ∀ x ∈ t.1 :: t.2, x.2 ∈ allG)
    {am p q op payload} (h : TableR toks Φ t am p q op payload) : AllOrig toks Φ0 payload := by
  obtain ⟨g, hg, h⟩ := h
  exact den_orig h0 h1 g (mem_allParts (ht _ hg)) _ _ _ _ h

omit h0 h1 in
theorem prefixTable_mem : ∀ x ∈ prefixTable.1 :: prefixTable.2, x.2 ∈ allG := by
  intro x hx; unfold allG; simp only [List.mem_append]
  exact .inl (.inl (.inl (.inr (List.mem_map_of_mem hx))))
omit h0 h1 in
theorem infixTable_mem : ∀ x ∈ infixTable.1 :: infixTable.2, x.2 ∈ allG := by
  intro x hx; unfold allG; simp only [List.mem_append]
  exact .inl (.inl (.inr (List.mem_map_of_mem hx)))
omit h0 h1 in
theorem postfixTable_mem : ∀ x ∈ postfixTable.1 :: postfixTable.2, x.2 ∈ allG := by
  intro x hx; unfold allG; simp only [List.mem_append]
  exact .inl (.inr (List.mem_map_of_mem hx))
omit h0 h1 in
theorem limitedTable_mem : ∀ x ∈ limitedTable.1 :: limitedTable.2, x.2 ∈ allG := by
  intro x hx; unfold allG; simp only [List.mem_append]
  exact .inr (List.mem_map_of_mem hx)

omit h0 in
theorem AttrR.orig {R : Pt → Pt → Prop} {am p q e attrs} (h : AttrR toks Φ R am p q e attrs) :
    AllOrig toks Φ0 attrs := by
  obtain ⟨m, vss, h, -, -, rfl⟩ := h
  exact .flatten (h.all (fun _ _ _ ⟨_, h⟩ => h1 _ _ _ _ _ h))

theorem PrefixR.orig {am p q e attrs op payload} (h : PrefixR toks Φ am p q e attrs op payload) :
    AllOrig toks Φ0 attrs ∧ AllOrig toks Φ0 payload := by
  refine ⟨AttrR.orig h1 h, ?_⟩
  obtain ⟨m, vss, -, h, -, -⟩ := h
  exact TableR.orig h0 h1 prefixTable_mem h

theorem AtomR.orig {am p q v} (h : AtomR toks Φ am p q v) : AllOrig toks Φ0 [v] := by
  have ha := AtomR.mono h0 h
  obtain ⟨e, attrs, vs, h, rfl⟩ := h
  intro k e' ws fs hx
  simp at hx
  rcases hx with ⟨rfl, rfl, rfl, rfl⟩ | hx | hx
  · exact ⟨rfl, .atom ha⟩
  · exact AttrR.orig h1 h _ _ _ _ hx
  · obtain ⟨m, vss, -, ⟨_, h⟩, -, -⟩ := h
    exact h1 _ _ _ _ _ h _ _ _ _ hx

theorem pre_orig {a am p m q e attrs op payload o inner} (h : PrefixR toks Φ am p m e attrs op payload)
    (ho : o = none ∧ op.isRange = true ∧ q = m ∨
      ∃ v, o = some v ∧ (OperandR toks Φ a a m q v ∨ OpenRangeR toks Φ a m q v) ∧ AllOrig toks Φ0 [v])
    (he : ex toks p q = some inner) : AllOrig toks Φ0 [mkAttributed ⟨e.s, inner.e⟩ attrs (op.mk payload inner o)] := by
  obtain ⟨h2, h3⟩ := PrefixR.orig h0 h1 h
  have h4 : o = none ∧ op.isRange = true ∧ q = m ∨
      ∃ v, o = some v ∧ (OperandR toks Φ0 a a m q v ∨ OpenRangeR toks Φ0 a m q v) :=
    ho.imp id (fun ⟨v, hv, hv', _⟩ => ⟨v, hv, hv'.imp (OperandR.mono h0) (OpenRangeR.mono h0)⟩)
  intro k e' ws fs hx
  simp only [mkAttributed, subsL_cons, subs_node, subs_list, subsL_nil, List.append_nil, List.mem_append, List.mem_cons,
    List.cons_append, reduceCtorEq, false_or, V.node.injEq] at hx
  rcases hx with ⟨rfl, rfl, rfl, rfl⟩ | hx | hx
  · exact ⟨rfl, .pre (PrefixR.mono h0 h) h4 he (.inl rfl)⟩
  · exact h2 _ _ _ _ hx
  · rcases op.mk_nodes _ _ _ hx with hx | hx | ⟨rfl, hy⟩
    · exact h3 _ _ _ _ hx
    · rcases ho with ⟨rfl, -⟩ | ⟨v, rfl, -, hv⟩
      · simp at hx
      · exact hv _ _ _ _ (by simpa using hx)
    · exact ⟨rfl, .pre (PrefixR.mono h0 h) h4 he (.inr hy)⟩

theorem OperandR.orig {a am p q v} (h : OperandR toks Φ a am p q v) : AllOrig toks Φ0 [v] := by
  induction h with
  | atom h => exact AtomR.orig h0 h1 h
  | pre h h' he ih => exact pre_orig h0 h1 h (.inr ⟨_, rfl, .inl h', ih⟩) he

theorem OpenRangeR.orig {a p q v} (h : OpenRangeR toks Φ a p q v) : AllOrig toks Φ0 [v] := by
  induction h with
  | last h hr he => exact pre_orig (a := a) h0 h1 h (.inl ⟨rfl, hr, rfl⟩) he
  | pre h h' he ih => exact pre_orig h0 h1 h (.inr ⟨_, rfl, .inr h', ih⟩) he

theorem post_orig {stmt a p m q v op payload e} (h : LeftR toks Φ stmt a p m v) (hv : AllOrig toks Φ0 [v])
    (ht : TableR toks Φ postfixTable a m q op payload ∨ TableR toks Φ limitedTable a m q op payload)
    (he : ex toks p q = some e) : AllOrig toks Φ0 [op.mk payload e v] := by
  intro k e' ws fs hx
  rw [subsL_single] at hx
  rcases op.mk_nodes _ _ _ hx with hx | hx | ⟨rfl, rfl, hx⟩
  · exact ht.elim (TableR.orig h0 h1 postfixTable_mem) (TableR.orig h0 h1 limitedTable_mem) _ _ _ _ hx
  · exact hv _ _ _ _ (by simpa using hx)
  · exact ⟨rfl, .post (LeftR.mono h0 h) (ht.imp (TableR.mono h0) (TableR.mono h0)) he hx⟩

theorem inf_orig {stmt a p m m' q l op payload o e} (h : LeftR toks Φ stmt a p m l) (hv : AllOrig toks Φ0 [l])
    (ht : TableR toks Φ infixTable a m m' op payload)
    (ho : o = none ∧ op.isRange = true ∧ q = m' ∨ ∃ r, o = some r ∧ OperandR toks Φ a (rhsMode a op) m' q r)
    (he : ex toks p q = some e) : AllOrig toks Φ0 [op.mk payload e l o] := by
  intro k e' ws fs hx
  rw [subsL_single] at hx
  rcases op.mk_nodes _ _ _ _ hx with hx | hx | hx | ⟨rfl, rfl, hx⟩
  · exact TableR.orig h0 h1 infixTable_mem ht _ _ _ _ hx
  · exact hv _ _ _ _ (by simpa using hx)
  · rcases ho with ⟨rfl, -⟩ | ⟨r, rfl, ho⟩
    · simp at hx
    · exact OperandR.orig h0 h1 ho _ _ _ _ (by simpa using hx)
  · exact ⟨rfl, .inf (LeftR.mono h0 h) (TableR.mono h0 ht)
      (ho.imp id (fun ⟨r, hr, ho⟩ => ⟨r, hr, OperandR.mono h0 ho⟩)) he hx⟩

theorem LeftR.orig {stmt a p q v} (h : LeftR toks Φ stmt a p q v) : AllOrig toks Φ0 [v] := by
  induction h with
  | operand h => exact OperandR.orig h0 h1 h
  | post h _ h' he ih => exact post_orig h0 h1 h ih (.inl h') he
  | limited h h' he ih => exact post_orig h0 h1 h ih (.inr h') he
  | «infix» h _ h' h'' he ih => exact inf_orig h0 h1 h ih h' (.inr ⟨_, rfl, h''⟩) he

theorem ExprR.orig {stmt a p q v} (h : ExprR toks Φ stmt a p q v) : AllOrig toks Φ0 [v] := by
  cases h with
  | left h => exact LeftR.orig h0 h1 h
  | openInfix h _ h' hr he => exact inf_orig h0 h1 h (LeftR.orig h0 h1 h) h' (.inl ⟨rfl, hr, rfl⟩) he
  | openPrefix h => exact OpenRangeR.orig h0 h1 h

theorem denRule_orig (nt : NT) (a : Amb) (p q : Pt) (vs : List V) (h : denRule toks Φ (rules nt) a p q vs) :
    AllOrig toks Φ0 vs := by
  cases hr : rules nt with
  | g x => rw [hr] at h; exact den_orig h0 h1 x (mem_allParts (rule_mem_allG hr)) _ _ _ _ h
  | expr s =>
    rw [hr] at h
    obtain ⟨v, -, h, rfl⟩ := h
    exact ExprR.orig h0 h1 h

end
end Verif
