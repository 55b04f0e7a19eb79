import Verif.Spec.Order
import Verif.Proofs.Nodes
/-!
# The values of a tree are in source order
-/

namespace Verif
open Spec

/-- The extent of a value itself starts no later than what is in it. -/
def Leads (x : V) : Prop := ∀ e, x.own = some e → ∀ y ∈ extsL (kids x), e.s ≤ y.s

/-- Everything in the values is in source order. -/
def Tidy (vs : List V) : Prop := ∀ x ∈ subsL vs, (unsorted x = true ∨ Sorted (kids x)) ∧ Leads x

theorem sorted_nil : Sorted [] := List.Pairwise.nil

theorem sorted_one (v : V) : Sorted [v] := by simp [Sorted]

theorem sorted_cons {v : V} {vs : List V} : Sorted (v :: vs) ↔ (∀ x ∈ v.exts, ∀ y ∈ extsL vs, x.e ≤ y.s) ∧ Sorted vs := by
  simp only [Sorted, List.pairwise_cons, extsL_cons, extsL_nil, List.append_nil]
  constructor
  · rintro ⟨h1, h2⟩
    refine ⟨fun x hx y hy => ?_, h2⟩
    obtain ⟨w, hw, hy⟩ := mem_extsL.mp hy
    exact h1 w hw x hx y hy
  · rintro ⟨h1, h2⟩
    exact ⟨fun w hw x hx y hy => h1 x hx y (mem_extsL.mpr ⟨w, hw, hy⟩), h2⟩

theorem sorted_append {vs ws : List V} : Sorted (vs ++ ws) ↔
    Sorted vs ∧ Sorted ws ∧ ∀ x ∈ extsL vs, ∀ y ∈ extsL ws, x.e ≤ y.s := by
  induction vs with
  | nil => simp [sorted_nil]
  | cons v vs ih =>
    rw [List.cons_append, sorted_cons, sorted_cons, ih]
    simp only [extsL_append, extsL_cons, List.mem_append]
    constructor
    · rintro ⟨h1, h2, h3, h4⟩
      exact ⟨⟨fun x hx y hy => h1 x hx y (.inl hy), h2⟩, h3,
        fun x hx y hy => hx.elim (fun hx => h1 x hx y (.inr hy)) (fun hx => h4 x hx y hy)⟩
    · rintro ⟨⟨h1, h2⟩, h3, h4⟩
      exact ⟨fun x hx y hy => hy.elim (h1 x hx y) (h4 x (.inl hx) y), h2, h3, fun x hx y hy => h4 x (.inr hx) y hy⟩

namespace Tidy
variable {vs ws : List V}

theorem nil : Tidy [] := by simp [Tidy, subsL]

theorem append (h : Tidy vs) (h' : Tidy ws) : Tidy (vs ++ ws) := by
  intro x hx
  rw [subsL_append, List.mem_append] at hx
  exact hx.elim (h x) (h' x)

theorem sub (h : Tidy vs) (h' : ∀ v ∈ ws, v ∈ vs) : Tidy ws := by
  intro x hx
  obtain ⟨v, hv, hx⟩ := mem_subsL.mp hx
  exact h x (mem_subsL.mpr ⟨v, h' v hv, hx⟩)

theorem cons {v : V} : Tidy (v :: vs) ↔ Tidy [v] ∧ Tidy vs :=
  ⟨fun h => ⟨h.sub (by simp), h.sub (by simp +contextual)⟩, fun h => h.1.append h.2⟩

theorem ext (e : Extent) : Tidy [.ext e] := by
  intro x hx; simp [subsL, V.subs] at hx; subst hx; exact ⟨.inr sorted_nil, by simp [Leads, kids]⟩

theorem bool (b : Bool) : Tidy [.bool b] := by
  intro x hx; simp [subsL, V.subs] at hx; subst hx; exact ⟨.inr sorted_nil, by simp [Leads, kids]⟩

theorem list : Tidy [.list vs] ↔ Sorted vs ∧ Tidy vs := by
  simp only [Tidy, subsL, V.subs, List.append_nil, List.mem_cons, forall_eq_or_imp, unsorted, kids]
  simp [Leads, V.own]

theorem enm {t : Tag} : Tidy [.enm t vs] ↔ Sorted vs ∧ Tidy vs := by
  simp only [Tidy, subsL, V.subs, List.append_nil, List.mem_cons, forall_eq_or_imp, unsorted, kids]
  simp [Leads, V.own]

theorem node {k : K} {e : Extent} {w : List Ws} (h : unsorted (.node k e w vs) = true ∨ Sorted vs) (h' : Tidy vs)
    (hl : ∀ y ∈ extsL vs, e.s ≤ y.s) : Tidy [.node k e w vs] := by
  simp only [Tidy, subsL, V.subs, List.append_nil, List.mem_cons, forall_eq_or_imp, kids]
  exact ⟨⟨h, by simpa [Leads, V.own, kids] using hl⟩, h'⟩

theorem of_node {k : K} {e : Extent} {w : List Ws} (h : Tidy [.node k e w vs]) : Tidy vs ∧ ∀ y ∈ extsL vs, e.s ≤ y.s := by
  simp only [Tidy, subsL, V.subs, List.append_nil, List.mem_cons, forall_eq_or_imp] at h
  exact ⟨h.2, h.1.2 e rfl⟩

theorem attributed {e : Extent} {as : List V} {v : V} (h1 : Sorted as) (h2 : Tidy as) (h3 : Tidy [v])
    (hl : ∀ y ∈ extsL (as ++ [v]), e.s ≤ y.s) (hu : as = [] ∨ unsorted (mkAttributed e as v) = true) : Tidy [mkAttributed e as v] := by
  refine node ?_ (cons.mpr ⟨list.mpr ⟨h1, h2⟩, h3⟩) (by simpa using hl)
  rcases hu with rfl | hu
  · right; rw [sorted_cons]; simp [sorted_one]
  · exact .inl hu

/-- What `extent?` finds comes first. -/
theorem extent_le : ∀ (v : V) (e : Extent), Tidy [v] → (∀ x ∈ v.exts, x.s ≤ x.e) → v.extent? = some e → ∀ y ∈ v.exts, e.s ≤ y.s
  | .ext e', e, _, _, h => by simp [V.extent?] at h; simp [h]
  | .node _ e' _ _, e, ht, _, h => by
    simp [V.extent?] at h
    subst h
    have := (of_node ht).2
    simpa using this
  | .enm _ (v :: vs), e, ht, hw, h => by
    obtain ⟨h1, h2⟩ := enm.mp ht
    have h : v.extent? = some e := by simpa [V.extent?] using h
    have h3 := extent_le v e (cons.mp h2).1 (fun x hx => hw x (by simp [hx])) h
    have h4 := V.extent?_mem v e h
    intro y hy
    simp only [exts_enm, extsL_cons, List.mem_append] at hy
    rcases hy with hy | hy
    · exact h3 y hy
    · have := (sorted_cons.mp h1).1 e h4 y hy
      have := hw e (by simp [h4])
      omega
  | .enm _ [], e, _, _, h => by simp [V.extent?] at h
  | .list _, e, _, _, h => by simp [V.extent?] at h
  | .bool _, e, _, _, h => by simp [V.extent?] at h

end Tidy

/-! ## The closures -/

/-- Closures that keep the order. -/
def Fn.keeps : Fn → Bool
  | .swap | .fieldValue => false
  | _ => true

/-- Closures that ask for no order. -/
def Fn.loose : Fn → Bool
  | .swap | .fieldValue | .wrapSecond _ => true
  | _ => false

theorem Fn.app_sorted (f : Fn) (hf : f.keeps = true) {vs : List V} (h : Sorted vs) (ht : Tidy vs) : Sorted (f.app vs) := by
  unfold Fn.app
  split
  case h_17 | h_18 => split <;> exact sorted_one _
  all_goals first
    | exact sorted_one _
    | (cases hf; done)
    | (simp only [sorted_cons, exts_enm, exts_list, extsL_cons, extsL_nil, List.append_nil] at h ⊢; simpa [sorted_nil] using h)
    | skip
  · have := (Tidy.list.mp ht).1
    simp only [sorted_cons, exts_list, extsL_cons, extsL_nil, List.append_nil] at this ⊢; simpa [sorted_nil] using this
  · exact h

/-- The extent in front of the others starts no later. -/
def Spans (vs : List V) : Prop := ∃ e rest, vs = .ext e :: rest ∧ ∀ y ∈ extsL rest, e.s ≤ y.s

theorem Fn.app_tidy (f : Fn) {vs : List V} (h : f.loose = true ∨ Sorted vs) (ht : Tidy vs) (hw : ∀ x ∈ extsL vs, x.s ≤ x.e)
    (hf : f = .fieldValue → Spans vs) : Tidy (f.app vs) := by
  have hs : f.loose = false → Sorted vs := fun h' => h.elim (fun h => by rw [h'] at h; cases h) id
  have one : ∀ (k : K) (e : Extent) (v : V), Tidy [v] → (∀ y ∈ v.exts, e.s ≤ y.s) → Tidy [.node k e [] [v]] :=
    fun k e v h h' => .node (.inr (sorted_one _)) h (by simpa using h')
  unfold Fn.app
  split
  · exact Tidy.enm.mpr ⟨hs rfl, ht⟩
  · exact Tidy.cons.mpr ⟨(Tidy.cons.mp ht).1, Tidy.enm.mpr ⟨sorted_one _, (Tidy.cons.mp ht).2⟩⟩
  · exact (Tidy.list.mp ht).2
  · exact Tidy.list.mpr ⟨hs rfl, ht⟩
  · exact Tidy.list.mpr ⟨sorted_nil, .nil⟩
  · exact Tidy.cons.mpr ⟨(Tidy.cons.mp ht).2, (Tidy.cons.mp ht).1⟩
  · exact .bool _
  · obtain ⟨h1, h2⟩ := Tidy.cons.mp ht
    rw [Tidy.list] at h1 h2
    have h3 := (sorted_cons.mp (hs rfl)).1
    exact Tidy.list.mpr ⟨sorted_append.mpr ⟨h1.1, h2.1, by simpa using h3⟩, h1.2.append h2.2⟩
  · exact Tidy.cons.mpr ⟨ht, ht⟩
  · obtain ⟨h1, h2⟩ := Tidy.cons.mp (Tidy.list.mp ht).2
    exact Tidy.cons.mpr ⟨Tidy.list.mpr ⟨sorted_one _, h1⟩, h2⟩
  · exact .node (.inr sorted_nil) .nil (by simp)
  · exact one _ _ _ (.node (.inr sorted_nil) .nil (by simp)) (by simp [mkIdent])
  · exact one _ _ _ (.ext _) (by simp)
  · exact one _ _ _ (.ext _) (by simp)
  · exact one _ _ _ (one _ _ _ (.ext _) (by simp)) (by simp)
  · exact one _ _ _ (one _ _ _ (.ext _) (by simp)) (by simp)
  · split
    · exact one _ _ _ ht (Tidy.extent_le _ _ ht (by simpa using hw) (by assumption))
    · exact ht
  · split
    · exact .attributed sorted_nil .nil ht (by simpa using Tidy.extent_le _ _ ht (by simpa using hw) (by assumption)) (.inl rfl)
    · exact ht
  · obtain ⟨h1, h2⟩ := Tidy.cons.mp (Tidy.cons.mp ht).2
    exact Tidy.cons.mpr ⟨h1, (Tidy.list.mp h2).2⟩
  · obtain ⟨h1, h2⟩ := Tidy.cons.mp (Tidy.cons.mp ht).2
    obtain ⟨e0, rest, he, hl⟩ := hf rfl
    simp only [List.cons.injEq, V.ext.injEq] at he
    obtain ⟨rfl, rfl⟩ := he
    have h3 := (Tidy.of_node h1).2
    simp only [extsL_cons, exts_node, exts_list, extsL_nil, List.append_nil, List.mem_cons, forall_eq_or_imp] at hl
    have hn : Tidy [.list []] := Tidy.list.mpr ⟨sorted_nil, .nil⟩
    have hls : ∀ v : V, Sorted [v, .list []] := fun v => by simp [sorted_cons, sorted_nil]
    refine Tidy.cons.mpr ⟨h1, .attributed sorted_nil .nil (Tidy.enm.mpr ⟨sorted_one _, ?_⟩) ?_ (.inl rfl)⟩
    · refine .node (.inr (hls _)) (Tidy.cons.mpr ⟨one _ _ _ (Tidy.list.mpr ⟨sorted_one _,
        .node (.inr (hls _)) (Tidy.cons.mpr ⟨h1, hn⟩) (by simpa using h3)⟩) (by simpa using h3), hn⟩) ?_
      simpa [mkPathedIdent] using hl
    · simpa [mkPathedIdent] using hl
  · exact ht

/-- Structs whose fields are in order. -/
def Mk.strict : Mk → Bool
  | .node _ | .paren => true
  | _ => false

theorem Mk.app_tidy (m : Mk) (e : Extent) {vs : List V} (h : m.strict = false ∨ Sorted vs) (ht : Tidy vs)
    (hl : ∀ y ∈ extsL vs, e.s ≤ y.s) : Tidy (m.app e vs) := by
  have hs : m.strict = true → Sorted vs := fun h' => h.elim (fun h => by rw [h'] at h; cases h) id
  unfold Mk.app
  split
  · exact .node (.inr (hs rfl)) ht hl
  · have := Tidy.enm.mp ht
    exact Tidy.enm.mpr ⟨sorted_one _, .node (.inr this.1) this.2 (by simpa using hl)⟩
  · have := Tidy.enm.mp ht
    exact Tidy.enm.mpr ⟨sorted_one _, .node (.inr this.1) this.2 (by simpa using hl)⟩
  · exact ht
  · refine Tidy.cons.mpr ⟨(Tidy.cons.mp ht).2, .node (.inr (sorted_one _)) (Tidy.cons.mp ht).1 fun y hy => hl y ?_⟩
    simp at hy ⊢
    exact .inl hy
  · exact ht
  · exact Tidy.cons.mpr ⟨.ext _, ht⟩

theorem Mk.app_sorted (m : Mk) (hm : m.strict = true ∨ ∃ k, m = .node k) (e : Extent) {vs : List V} (h : Sorted vs ∨ ∃ k, m = .node k) : Sorted (m.app e vs) := by
  unfold Mk.app
  split
  all_goals first
    | exact sorted_one _
    | (simp [Mk.strict] at hm; done)
    | (simp at h; exact h)

theorem TailK.out_neat (k : TailK) {t : P.Tailed (List V)} (h : Sorted t.values.flatten) (ht : Tidy t.values.flatten) :
    Sorted (k.out t) ∧ Tidy (k.out t) := by
  unfold TailK.out
  have hl : ∀ vs : List V, Sorted [.list vs, .list []] := fun v => by simp [sorted_cons, sorted_nil]
  have hn : Tidy [.list []] := Tidy.list.mpr ⟨sorted_nil, .nil⟩
  split
  · exact ⟨sorted_one _, Tidy.list.mpr ⟨h, ht⟩⟩
  · split
    · rename_i e h'
      split
      · exact ⟨hl _, Tidy.cons.mpr ⟨Tidy.list.mpr ⟨h, ht⟩, hn⟩⟩
      · generalize t.values.flatten = l at h ht h' ⊢
        cases hl : l.getLast? with
        | none => rw [hl] at h'; cases h'
        | some w =>
          rw [hl] at h'
          simp only [Option.bind_some] at h'
          obtain ⟨ys, rfl⟩ := List.getLast?_eq_some_iff.mp hl
          have he := intoExpression_exts h'
          have hw : w = .enm .Statement_Expression [e] := by
            unfold intoExpression at h'
            split at h' <;> simp at h'
            rw [h']
          obtain ⟨h1, -, h2⟩ := sorted_append.mp h
          rw [List.dropLast_concat]
          refine ⟨sorted_cons.mpr ⟨?_, sorted_one _⟩, Tidy.cons.mpr ⟨Tidy.list.mpr ⟨h1, ht.sub (by simp +contextual)⟩, Tidy.list.mpr ⟨sorted_one _, ?_⟩⟩⟩
          · simpa [he] using h2
          · have : Tidy [w] := ht.sub (by simp)
            rw [hw] at this
            exact (Tidy.enm.mp this).2
    · exact ⟨hl _, Tidy.cons.mpr ⟨Tidy.list.mpr ⟨h, ht⟩, hn⟩⟩
  · split
    · exact ⟨sorted_one _, Tidy.enm.mpr ⟨h, ht⟩⟩
    · exact ⟨sorted_one _, Tidy.enm.mpr ⟨sorted_one _, Tidy.list.mpr ⟨h, ht⟩⟩⟩

/-! ## The grammar -/

/-- Parser functions that return their values in order. -/
def NT.sorted : NT → Bool
  | .struct_defn_body | .struct_defn_body_tuple => false
  | _ => true

/-- Grammar expressions whose values are in order. -/
def G.sorted : G → Bool
  | .eps | .tok _ | .number | .simpleNumber | .nested _ _ | .ext _ | .drop _ => true
  | .opt _ | .many _ | .tailed .. | .tailed1Values .. | .resume .. | .implTailed .. | .nodeEmpty .. => true
  | .r n => n.sorted
  | .seq a b | .alt a b | .ifAmbiguous a b => a.sorted && b.sorted
  | .map f a => f.keeps && a.sorted
  | .build (.node _) _ => true
  | .build m a => m.strict && a.sorted
  | .mapErr _ a | .amb _ a | .notMaximum a => a.sorted
  | .peek _ => false

/-- Grammar expressions whose first value is the extent of what begins there. -/
def G.spans : G → Bool
  | .build .span _ => true
  | .seq a _ => a.spans
  | _ => false

/-- Grammar expressions that put only what is in order into lists, variants and structs. -/
def G.tidy : G → Bool
  | .eps | .tok _ | .number | .simpleNumber | .nested _ _ | .ext _ | .drop _ | .r _ => true
  | .opt a | .many a | .tailed _ _ a | .tailed1Values _ a | .resume _ a | .implTailed _ _ _ a => a.tidy && a.sorted
  | .nodeEmpty k a => a.tidy && (a.sorted || !(Mk.node k).strict)
  | .seq a b | .alt a b | .ifAmbiguous a b => a.tidy && b.tidy
  | .map f a => a.tidy && (f.loose || a.sorted) && (f != .fieldValue || a.spans)
  | .build m a => a.tidy && (a.sorted || !m.strict)
  | .mapErr _ a | .amb _ a | .notMaximum a => a.tidy
  | .peek _ => false

/-- Parser functions of structs whose fields may be out of order. -/
def NT.odd : NT → Bool
  | .p_struct | .expr_async_block | .expr_value_struct_literal_field => true
  | _ => false

def Rule.tidy (n : NT) : Rule → Bool
  | .g x => n.odd || x.tidy && (x.sorted || !n.sorted)
  | .expr _ => true

theorem rules_tidy (nt : NT) : (rules nt).tidy nt = true := by
  have h : NT.all.all (fun nt => (rules nt).tidy nt) = true := by decide +kernel
  exact List.all_eq_true.mp h nt (NT.mem_all nt)

theorem tables_tidy : (∀ x ∈ prefixTable.1 :: prefixTable.2, (x.2.tidy && x.2.sorted) = true) ∧
    (∀ x ∈ infixTable.1 :: infixTable.2, (x.2.tidy && x.2.sorted) = true) ∧
    (∀ x ∈ postfixTable.1 :: postfixTable.2, (x.2.tidy && x.2.sorted) = true) ∧
    (∀ x ∈ limitedTable.1 :: limitedTable.2, (x.2.tidy && x.2.sorted) = true) := by
  refine ⟨?_, ?_, ?_, ?_⟩ <;> exact List.all_eq_true.mp (by decide +kernel)

/-- Values between two points, in order. -/
structure Row (toks : List Token) (p q : Pt) (vs : List V) : Prop where
  within : Within toks p q vs
  tidy : Tidy vs
  sorted : Sorted vs

/-- The parts of the numbers are in order. -/
def Numbers (toks : List Token) : Prop := ∀ n, Token.number n ∈ toks → Tidy [convertNumber n]

/-- What some parser functions return. -/
def Kept (nt : NT) (vs : List V) : Prop :=
  match nt with
  | .ident => ∃ e, vs = [mkIdent e]
  | .struct_defn_body => Sorted vs ∨ ∃ a l bs, vs = [.list (a :: l), .enm .StructDefinitionBody_Tuple bs]
  | .struct_defn_body_tuple => Sorted vs ∨ ∃ a l b, vs = [.list (a :: l), b]
  | .expression | .expr_value_struct_literal_field_value => ∃ v, vs = [v]
  | _ => True

/-- What is known of the parser functions. -/
def Neat (toks : List Token) (nt : NT) (p q : Pt) (vs : List V) : Prop :=
  Within toks p q vs ∧ (Numbers toks → (Tidy vs ∧ (nt.sorted = true → Sorted vs)) ∧ Kept nt vs)

section
variable {code : Text} {toks : List Token}

theorem Row.nil {p q : Pt} : Row toks p q [] := ⟨.nil, .nil, sorted_nil⟩

theorem Row.one {p q : Pt} {v : V} (h : Within toks p q [v]) (h' : Tidy [v]) : Row toks p q [v] := ⟨h, h', sorted_one _⟩

theorem Row.list {p q : Pt} {vs : List V} (h : Row toks p q vs) : Row toks p q [.list vs] :=
  .one (h.within.sub (by simp)) (Tidy.list.mpr ⟨h.sorted, h.tidy⟩)

section
variable {Φ : NT → Rel} (hs : Src code toks)
include hs

theorem Row.seq {p m q : Pt} {v w : List V} (h1 : Btw toks p m) (h2 : Btw toks m q) (h : Row toks p m v)
    (h' : Row toks m q w) : Row toks p q (v ++ w) :=
  ⟨.seq hs h1 h2 h.within h'.within, h.tidy.append h'.tidy, sorted_append.mpr ⟨h.sorted, h'.sorted, fun x hx y hy => by
    have := h.within x hx; have := h'.within y hy; omega⟩⟩

theorem Row.more {p p' q' q : Pt} {v : List V} (h1 : Btw toks p p') (h2 : Btw toks q' q) (h : Row toks p' q' v) :
    Row toks p q v := ⟨h.within.more hs h1 h2, h.tidy, h.sorted⟩

theorem Row.star {R : Pt → Pt → List V → Prop} (hb : ∀ p q v, R p q v → Btw toks p q)
    (hR : ∀ p q v, R p q v → Row toks p q v) {p q vss} (h : Star toks R p q vss) :
    Row toks p q vss.flatten := by
  induction h with
  | nil => exact .nil
  | cons h h' ih => exact .seq hs (hb _ _ _ h) (h'.btw hb) (hR _ _ _ h) ih

section
variable {S : Pt → Pt → Prop} {R : Pt → Pt → List V → Prop} (hbS : ∀ p q, S p q → Btw toks p q)
  (hb : ∀ p q v, R p q v → Btw toks p q) (hR : ∀ p q v, R p q v → Row toks p q v)
include hbS hb hR

theorem Row.tailR {es er : Bool} {p0 p q t t'} (h : TailR toks es er S R p t q t') (h0 : Btw toks p0 p)
    (ht : Row toks p0 p t.values.flatten) : Row toks p0 q t'.values.flatten := by
  induction h with
  | stop h => exact ht.more hs (.refl h0.1) h.1
  | last h h' =>
    have := (Row.seq hs h0 (hb _ _ _ h) ht (hR _ _ _ h)).more hs (.refl h0.1) h'.1
    simpa using this
  | more h h' h'' ih =>
    refine ih (h0.trans ((hb _ _ _ h).trans (hbS _ _ h'))) ?_
    have := (Row.seq hs h0 (hb _ _ _ h) ht (hR _ _ _ h)).more hs (.refl h0.1) (hbS _ _ h')
    simpa using this

theorem Row.implR {es er : Bool} {i p0 p q t t'} (h : ImplR toks es er i S R p t q t') (h0 : Btw toks p0 p)
    (ht : Row toks p0 p t.values.flatten) : Row toks p0 q t'.values.flatten := by
  induction h with
  | stop h => exact ht.more hs (.refl h0.1) h.1
  | last h _ h' =>
    have := (Row.seq hs h0 (hb _ _ _ h) ht (hR _ _ _ h)).more hs (.refl h0.1) h'.1
    simpa using this
  | implicit h _ h' h'' ih =>
    refine ih (h0.trans ((hb _ _ _ h).trans h'.1)) ?_
    have := (Row.seq hs h0 (hb _ _ _ h) ht (hR _ _ _ h)).more hs (.refl h0.1) h'.1
    simpa using this
  | more h h' h'' ih =>
    refine ih (h0.trans ((hb _ _ _ h).trans (hbS _ _ h'))) ?_
    have := (Row.seq hs h0 (hb _ _ _ h) ht (hR _ _ _ h)).more hs (.refl h0.1) (hbS _ _ h')
    simpa using this

theorem Row.tailR1 {es er : Bool} {p q t} (h : TailR1 toks es er S R p q t) : Row toks p q t.values.flatten := by
  cases h with
  | one h h' =>
    have := (hR _ _ _ h).more hs (.refl (hb _ _ _ h).1) h'.1
    simpa using this
  | more h h' h'' =>
    refine Row.tailR hs hbS hb hR h'' ((hb _ _ _ h).trans (hbS _ _ h')) ?_
    have := (hR _ _ _ h).more hs (.refl (hb _ _ _ h).1) (hbS _ _ h')
    simpa using this

end

variable (hn : Numbers toks) (hΦ : ∀ nt am p q vs, Φ nt am p q vs → Neat toks nt p q vs)
include hn hΦ

omit hn hΦ in
theorem den_spans (g : G) : g.peekFree = true → g.spans = true → ∀ a p q vs, den toks Φ g a p q vs →
    ∃ e rest, vs = .ext e :: rest ∧ e.s = p.pos toks := by
  induction g with
  | build m x ih =>
    rintro hp ht a p q vs ⟨v, e, h, he, rfl⟩
    cases m <;> simp [G.spans] at ht
    exact ⟨e, v, rfl, (hs.ex_range (den_btw _ _ _ _ _ h) he).1⟩
  | seq x y ihx ihy =>
    rintro hp ht a p q vs ⟨m, v, w, h1, h2, rfl⟩
    simp only [G.peekFree, Bool.and_eq_true] at hp
    obtain ⟨e, rest, rfl, h⟩ := ihx hp.1 ht _ _ _ _ h1
    exact ⟨e, rest ++ w, rfl, h⟩
  | _ => intro _ ht; simp [G.spans] at ht

theorem den_neat (g : G) : g.peekFree = true → g.tidy = true → ∀ a p q vs, den toks Φ g a p q vs → Tidy vs ∧ (g.sorted = true → Sorted vs) := by
  have hw : ∀ (g : G), g.peekFree = true → ∀ a p q vs, den toks Φ g a p q vs → Within toks p q vs :=
    den_within hs (fun nt am p q vs h => (hΦ nt am p q vs h).1)
  have row : ∀ (x : G), (x.peekFree = true → x.tidy = true → ∀ a p q vs, den toks Φ x a p q vs → Tidy vs ∧ (x.sorted = true → Sorted vs)) →
      x.peekFree = true → (x.tidy && x.sorted) = true → ∀ {a p q vs}, den toks Φ x a p q vs → Row toks p q vs := by
    intro x ih hp ht a p q vs h
    simp only [Bool.and_eq_true] at ht
    have := ih hp ht.1 _ _ _ _ h
    exact ⟨hw x hp _ _ _ _ h, this.1, this.2 ht.2⟩
  induction g with
  | eps => rintro - - a p q vs ⟨-, rfl, rfl⟩; exact ⟨.nil, fun _ => sorted_nil⟩
  | tok k => rintro - - a p q vs ⟨hb, e, h, rfl⟩; exact ⟨.ext _, fun _ => sorted_one _⟩
  | number =>
    rintro - - a p q vs ⟨hb, n, h, rfl⟩
    exact ⟨hn n (List.mem_of_getElem? (hs.number_step h).1), fun _ => sorted_one _⟩
  | simpleNumber => rintro - - a p q vs ⟨hb, n, e, h, h1, rfl⟩; exact ⟨.ext _, fun _ => sorted_one _⟩
  | r n => rintro - - a p q vs ⟨-, h⟩; exact ((hΦ n a p q vs h).2 hn).1
  | seq x y ihx ihy =>
    rintro hp ht a p q vs ⟨m, v, w, h1, h2, rfl⟩
    simp only [G.peekFree, Bool.and_eq_true] at hp
    simp only [G.tidy, Bool.and_eq_true] at ht
    refine ⟨(ihx hp.1 ht.1 _ _ _ _ h1).1.append (ihy hp.2 ht.2 _ _ _ _ h2).1, fun hso => ?_⟩
    simp only [G.sorted, Bool.and_eq_true] at hso
    exact (Row.seq hs (den_btw _ _ _ _ _ h1) (den_btw _ _ _ _ _ h2) (row x ihx hp.1 (by simp [ht.1, hso.1]) h1)
      (row y ihy hp.2 (by simp [ht.2, hso.2]) h2)).sorted
  | alt x y ihx ihy =>
    intro hp ht a p q vs h
    simp only [G.peekFree, Bool.and_eq_true] at hp
    simp only [G.tidy, Bool.and_eq_true] at ht
    simp only [G.sorted, Bool.and_eq_true]
    rcases h with h | h
    · have := ihx hp.1 ht.1 _ _ _ _ h
      exact ⟨this.1, fun h => this.2 h.1⟩
    · have := ihy hp.2 ht.2 _ _ _ _ h
      exact ⟨this.1, fun h => this.2 h.2⟩
  | opt x ih =>
    rintro hp ht a p q vs (⟨v, h, rfl⟩ | ⟨-, -, rfl⟩)
    · have := (row x ih hp ht h).list
      exact ⟨this.tidy, fun _ => this.sorted⟩
    · exact ⟨Tidy.list.mpr ⟨sorted_nil, .nil⟩, fun _ => sorted_one _⟩
  | many x ih =>
    rintro hp ht a p q vs ⟨vss, h, rfl⟩
    have := (Row.star hs (fun _ _ _ h => den_btw _ _ _ _ _ h) (fun _ _ _ h => row x ih hp ht h) h).list
    exact ⟨this.tidy, fun _ => this.sorted⟩
  | tailed k s x _ ih =>
    rintro hp ht a p q vs ⟨t, h, rfl⟩
    have hb := h.btw (fun _ _ ⟨_, h⟩ => den_btw _ _ _ _ _ h) (fun _ _ _ h => den_btw _ _ _ _ _ h)
    have := Row.tailR hs (fun _ _ ⟨_, h⟩ => den_btw _ _ _ _ _ h) (fun _ _ _ h => den_btw _ _ _ _ _ h)
      (fun _ _ _ h => row x ih hp ht h) h (.refl hb.1) .nil
    have := k.out_neat this.sorted this.tidy
    exact ⟨this.2, fun _ => this.1⟩
  | tailed1Values s x _ ih =>
    rintro hp ht a p q vs ⟨t, h, rfl⟩
    have := Row.tailR1 hs (fun _ _ ⟨_, h⟩ => den_btw _ _ _ _ _ h) (fun _ _ _ h => den_btw _ _ _ _ _ h)
      (fun _ _ _ h => row x ih hp ht h) h
    have := TailK.out_neat .values this.sorted this.tidy
    exact ⟨this.2, fun _ => this.1⟩
  | resume s x _ ih =>
    rintro hp ht a p q vs (⟨-, rfl⟩ | ⟨m, w, t, h1, h, rfl⟩)
    · exact ⟨Tidy.list.mpr ⟨sorted_nil, .nil⟩, fun _ => sorted_one _⟩
    · have := (Row.tailR1 hs (fun _ _ ⟨_, h⟩ => den_btw _ _ _ _ _ h) (fun _ _ _ h => den_btw _ _ _ _ _ h)
        (fun _ _ _ h => row x ih hp ht h) h).list
      exact ⟨this.tidy, fun _ => this.sorted⟩
  | implTailed k i s x _ ih =>
    rintro hp ht a p q vs ⟨t, h, rfl⟩
    have hb := h.btw (fun _ _ ⟨_, h⟩ => den_btw _ _ _ _ _ h) (fun _ _ _ h => den_btw _ _ _ _ _ h)
    have := Row.implR hs (fun _ _ ⟨_, h⟩ => den_btw _ _ _ _ _ h) (fun _ _ _ h => den_btw _ _ _ _ _ h)
      (fun _ _ _ h => row x ih hp ht h) h (.refl hb.1) .nil
    have := k.out_neat this.sorted this.tidy
    exact ⟨this.2, fun _ => this.1⟩
  | nested o c =>
    rintro - - a p q vs ⟨m, e0, e, h1, -, h2, -, he, rfl⟩
    exact ⟨.ext _, fun _ => sorted_one _⟩
  | ext x ih => rintro - - a p q vs ⟨v, e, h, he, rfl⟩; exact ⟨.ext _, fun _ => sorted_one _⟩
  | drop x ih => rintro - - a p q vs ⟨v, h, rfl⟩; exact ⟨.nil, fun _ => sorted_nil⟩
  | map f x ih =>
    rintro hp ht a p q vs ⟨v, h, rfl⟩
    simp only [G.tidy, Bool.and_eq_true, Bool.or_eq_true] at ht
    have h1 := ih hp ht.1.1 _ _ _ _ h
    have h2 := hw x hp _ _ _ _ h
    refine ⟨f.app_tidy (ht.1.2.imp id h1.2) h1.1 (fun e he => (h2 e he).2.1) (fun hf => ?_), fun hso => ?_⟩
    · obtain ⟨e, rest, rfl, he⟩ := den_spans hs x hp (ht.2.resolve_left (by simp [hf])) _ _ _ _ h
      exact ⟨e, rest, rfl, fun y hy => by have := (h2 y (by simp [hy])).1; omega⟩
    simp only [G.sorted, Bool.and_eq_true] at hso
    exact f.app_sorted hso.1 (h1.2 hso.2) h1.1
  | build m x ih =>
    rintro hp ht a p q vs ⟨v, e, h, he, rfl⟩
    simp only [G.tidy, Bool.and_eq_true, Bool.or_eq_true, Bool.not_eq_true'] at ht
    have h1 := ih hp ht.1 _ _ _ _ h
    have h2 := hw x hp _ _ _ _ h
    have h3 := hs.ex_range (den_btw _ _ _ _ _ h) he
    refine ⟨m.app_tidy e (ht.2.symm.imp id h1.2) h1.1 (fun y hy => by have := h2 y hy; omega), fun hso => ?_⟩
    cases m with
    | node k => exact sorted_one _
    | _ =>
      simp only [G.sorted, Bool.and_eq_true] at hso
      exact Mk.app_sorted _ (.inl hso.1) e (.inl (h1.2 hso.2))
  | nodeEmpty k x ih =>
    rintro hp ht a p q vs ⟨v, e, h, he, rfl⟩
    simp only [G.tidy, Bool.and_eq_true, Bool.or_eq_true, Bool.not_eq_true'] at ht
    have h1 := ih hp ht.1 _ _ _ _ h
    have h2 := hw x hp _ _ _ _ h
    have h3 := hs.ex_range (.refl (den_btw _ _ _ _ _ h).1) he
    exact ⟨(Mk.node k).app_tidy e (ht.2.symm.imp id h1.2) h1.1 (fun y hy => by have := h2 y hy; omega), fun _ => sorted_one _⟩
  | mapErr e x ih => intro hp ht a p q vs h; exact ih hp ht _ _ _ _ h
  | peek => intro hp; cases hp
  | amb l x ih => intro hp ht a p q vs h; exact ih hp ht _ _ _ _ h
  | ifAmbiguous x y ihx ihy =>
    intro hp ht a p q vs h
    simp only [G.peekFree, Bool.and_eq_true] at hp
    simp only [G.tidy, Bool.and_eq_true] at ht
    simp only [G.sorted, Bool.and_eq_true]
    simp only [den] at h
    split at h
    · have := ihx hp.1 ht.1 _ _ _ _ h
      exact ⟨this.1, fun h => this.2 h.1⟩
    · have := ihy hp.2 ht.2 _ _ _ _ h
      exact ⟨this.1, fun h => this.2 h.2⟩
  | notMaximum x ih => rintro hp ht a p q vs ⟨-, h⟩; exact ih hp ht _ _ _ _ h

theorem den_row (g : G) (hp : g.peekFree = true) (ht : (g.tidy && g.sorted) = true) {a p q vs} (h : den toks Φ g a p q vs) : Row toks p q vs := by
  simp only [Bool.and_eq_true] at ht
  have := den_neat hs hn hΦ g hp ht.1 _ _ _ _ h
  exact ⟨den_within hs (fun nt am p q vs h => (hΦ nt am p q vs h).1) g hp _ _ _ _ h, this.1, this.2 ht.2⟩

/-! ## Expressions -/

theorem TableR.row {α : Type} {t : (α × G) × List (α × G)} (ht : ∀ x ∈ t.1 :: t.2, x.2.peekFree = true)
    (ht' : ∀ x ∈ t.1 :: t.2, (x.2.tidy && x.2.sorted) = true)
    {am p q op payload} (h : TableR toks Φ t am p q op payload) : Row toks p q payload := by
  obtain ⟨g, hg, h⟩ := h
  exact den_row hs hn hΦ g (ht _ hg) (ht' _ hg) h

theorem attrs_row {am p m vss} (h : Star toks (den toks Φ (.r .attribute) am) p m vss) : Row toks p m vss.flatten :=
  Row.star hs (fun _ _ _ h => den_btw _ _ _ _ _ h) (fun _ _ _ h => den_row hs hn hΦ (.r .attribute) rfl rfl h) h

theorem AtomR.tidy {am p q v} (h : AtomR toks Φ am p q v) : Tidy [v] := by
  obtain ⟨e, attrs, vs, ⟨m, vss, h1, h2, he, rfl⟩, rfl⟩ := h
  have h3 := attrs_row hs hn hΦ h1
  have h4 := den_row hs hn hΦ (.r .expression_atom) rfl rfl h2
  have := Row.seq hs (h1.btw (fun _ _ _ h => den_btw _ _ _ _ _ h)) (den_btw _ _ _ _ _ h2) h3.list h4
  have h5 := hs.ex_range ((h1.btw (fun _ _ _ h => den_btw _ _ _ _ _ h)).trans (den_btw _ _ _ _ _ h2)) he
  exact .node (.inr this.sorted) this.tidy (fun y hy => by have := this.within y (by simpa using hy); omega)

theorem PrefixR.rows {am p q e attrs op payload} (h : PrefixR toks Φ am p q e attrs op payload) :
    Row toks p q attrs ∧ e.s = p.pos toks ∧ ∃ m, Btw toks p m ∧ Btw toks m q ∧ Row toks m q payload := by
  have hes := (PrefixR.within hs (fun nt am p q vs h => (hΦ nt am p q vs h).1) h).1
  obtain ⟨m, vss, h1, h2, he, rfl⟩ := h
  have h3 := attrs_row hs hn hΦ h1
  exact ⟨h3.more hs (.refl (h1.btw (fun _ _ _ h => den_btw _ _ _ _ _ h)).1) h2.btw, hes, m, h1.btw (fun _ _ _ h => den_btw _ _ _ _ _ h), h2.btw, TableR.row hs hn hΦ tables_peekFree.1 tables_tidy.1 h2⟩

omit hn hΦ in
/-- A prefix operator and its operand. -/
theorem prefix_tidy {m m' q : Pt} {op : PrefixOp} {payload : List V} {e : Extent} {o : Option V} (h1 : Btw toks m m') (h2 : Btw toks m' q)
    (hp : Row toks m m' payload) (ho : Row toks m' q o.toList) (he : e.s ≤ m.pos toks) : Tidy [op.mk payload e o] := by
  have hle : ∀ {p' q' vs}, m.pos toks ≤ p'.pos toks → Row toks p' q' vs → ∀ y ∈ extsL vs, e.s ≤ y.s :=
    fun hm h y hy => by have := h.within y hy; omega
  have hm := hs.pos_mono h1
  have hall := Row.seq hs h1 h2 hp ho
  have hl := Row.seq hs h1 h2 hp ho.list
  have hno : Tidy [.list []] := Tidy.list.mpr ⟨sorted_nil, .nil⟩
  have two : ∀ (t : Tag) (k : K) (vs : List V), Sorted vs → Tidy vs → (∀ y ∈ extsL vs, e.s ≤ y.s) → Tidy [.enm t [.node k e [] vs]] :=
    fun t k vs h h' hl => Tidy.enm.mpr ⟨sorted_one _, .node (.inr h) h' hl⟩
  have unary : ∀ t, Tidy [.enm .Expression_Unary [.node .Unary e [] (.enm t [] :: o.toList)]] := fun t =>
    two _ _ _ (sorted_cons.mpr ⟨by simp, ho.sorted⟩) (Tidy.cons.mpr ⟨Tidy.enm.mpr ⟨sorted_nil, .nil⟩, ho.tidy⟩)
      (by simpa using hle hm ho)
  cases op with
  | Dereference => exact two _ _ _ ho.sorted ho.tidy (hle hm ho)
  | Reference => exact two _ _ _ hall.sorted hall.tidy (hle (Nat.le_refl _) hall)
  | Box => exact two _ _ _ ho.sorted ho.tidy (hle hm ho)
  | RangeInclusive =>
    exact two _ _ _ (sorted_cons.mpr ⟨by simp, hl.sorted⟩) (Tidy.cons.mpr ⟨hno, hl.tidy⟩)
      (by simpa using hle (Nat.le_refl _) hl)
  | RangeExclusive =>
    exact two _ _ _ (sorted_cons.mpr ⟨by simp, sorted_one _⟩) (Tidy.cons.mpr ⟨hno, ho.list.tidy⟩)
      (by simpa using hle hm ho)
  | Negate => exact unary _
  | Not => exact unary _

omit hs hn hΦ in
theorem prefix_unsorted (op : PrefixOp) (payload : List V) (e e' : Extent) (o : Option V) (attrs : List V) :
    attrs = [] ∨ unsorted (mkAttributed e' attrs (op.mk payload e o)) = true := by
  cases attrs with
  | nil => exact .inl rfl
  | cons => right; cases op <;> rfl

omit hs hn hΦ in
theorem into_tidy {t : Tag} {k : K} {e : Extent} {vs : List V} (h : Sorted vs) (h' : Tidy vs) (hl : ∀ y ∈ extsL vs, e.s ≤ y.s) :
    Tidy [intoAttributed t k e vs] :=
  .attributed sorted_nil .nil (Tidy.enm.mpr ⟨sorted_one _, .node (.inr h) h' hl⟩) (by simpa using hl) (.inl rfl)

omit hn hΦ in
/-- A postfix operator and its operand. -/
theorem postfix_tidy {p m q : Pt} {v : V} {op : PostfixOp} {payload : List V} {e : Extent} (h1 : Btw toks p m)
    (h2 : Btw toks m q) (hv : Row toks p m [v]) (hp : Row toks m q payload) (he : ex toks p q = some e) :
    Tidy [op.mk payload e v] := by
  have := Row.seq hs h1 h2 hv hp
  have hr := hs.ex_range (h1.trans h2) he
  have hl : ∀ y ∈ extsL ([v] ++ payload), e.s ≤ y.s := fun y hy => by have := this.within y hy; omega
  cases op <;> exact into_tidy this.sorted this.tidy hl

omit hn hΦ in
/-- An infix operator and its operands. -/
theorem infix_tidy {p m m' q : Pt} {l : V} {op : InfixOp} {payload : List V} {e : Extent} {o : Option V} (h1 : Btw toks p m)
    (h2 : Btw toks m m') (h3 : Btw toks m' q) (hl : Row toks p m [l]) (hp : Row toks m m' payload) (ho : Row toks m' q o.toList)
    (he : ex toks p q = some e) : Tidy [op.mk payload e l o] := by
  have hr := hs.ex_range (h1.trans (h2.trans h3)) he
  have hle : ∀ {vs}, Row toks p q vs → ∀ y ∈ extsL vs, e.s ≤ y.s := fun h y hy => by have := h.within y hy; omega
  cases op with
  | binary b =>
    have := Row.seq hs (h1.trans h2) h3 (hl.more hs (.refl h1.1) h2) ho
    exact into_tidy (sorted_cons.mpr ⟨by simp, this.sorted⟩) (Tidy.cons.mpr ⟨Tidy.enm.mpr ⟨sorted_nil, .nil⟩, this.tidy⟩)
      (by simpa using hle this)
  | RangeInclusive =>
    have := Row.seq hs h1 (h2.trans h3) hl.list (Row.seq hs h2 h3 hp ho.list)
    exact into_tidy this.sorted this.tidy (hle this)
  | RangeExclusive =>
    have := Row.seq hs (h1.trans h2) h3 (hl.list.more hs (.refl h1.1) h2) ho.list
    exact into_tidy this.sorted this.tidy (hle this)

theorem OperandR.tidy {a am p q v} (h : OperandR toks Φ a am p q v) : Tidy [v] := by
  have hw := fun {a am p q v} => OperandR.within (a := a) (am := am) (p := p) (q := q) (v := v) hs (fun nt am p q vs h => (hΦ nt am p q vs h).1)
  induction h with
  | atom h => exact AtomR.tidy hs hn hΦ h
  | @pre am p m q e attrs op payload v inner h h' he ih =>
    obtain ⟨h1, hes, m', h2, h3, h4⟩ := PrefixR.rows hs hn hΦ h
    have hx := hs.ex_range (h.btw.trans h'.btw) he
    have hm := hs.pos_mono h2
    refine .attributed h1.sorted h1.tidy (prefix_tidy hs h3 h'.btw h4 (.one (hw h') ih) (by omega)) ?_ (prefix_unsorted ..)
    intro y hy
    have := hw (.pre h h' he) y (by simp at hy ⊢; exact .inr hy)
    dsimp only
    omega

theorem OpenRangeR.tidy {a p q v} (h : OpenRangeR toks Φ a p q v) : Tidy [v] := by
  have hw := fun {a p q v} => OpenRangeR.within (a := a) (p := p) (q := q) (v := v) hs (fun nt am p q vs h => (hΦ nt am p q vs h).1)
  induction h with
  | @last p q e attrs op payload inner h hr he =>
    obtain ⟨h1, hes, m', h2, h3, h4⟩ := PrefixR.rows hs hn hΦ h
    have hx := hs.ex_range h.btw he
    have hm := hs.pos_mono h2
    refine .attributed h1.sorted h1.tidy (prefix_tidy hs h3 (.refl h3.2.1) h4 .nil (by omega)) ?_ (prefix_unsorted ..)
    intro y hy
    have := hw (.last h hr he) y (by simp at hy ⊢; exact .inr hy)
    dsimp only
    omega
  | @pre p m q e attrs op payload v inner h h' he ih =>
    obtain ⟨h1, hes, m', h2, h3, h4⟩ := PrefixR.rows hs hn hΦ h
    have hx := hs.ex_range (h.btw.trans h'.btw) he
    have hm := hs.pos_mono h2
    refine .attributed h1.sorted h1.tidy (prefix_tidy hs h3 h'.btw h4 (.one (hw h') ih) (by omega)) ?_ (prefix_unsorted ..)
    intro y hy
    have := hw (.pre h h' he) y (by simp at hy ⊢; exact .inr hy)
    dsimp only
    omega

theorem LeftR.tidy {stmt a p q v} (h : LeftR toks Φ stmt a p q v) : Tidy [v] := by
  have hw := fun {stmt a p q v} => LeftR.within (stmt := stmt) (a := a) (p := p) (q := q) (v := v) hs (fun nt am p q vs h => (hΦ nt am p q vs h).1)
  induction h with
  | operand h => exact OperandR.tidy hs hn hΦ h
  | post h _ h' he ih =>
    exact postfix_tidy hs h.btw h'.btw (.one (hw h) ih) (TableR.row hs hn hΦ tables_peekFree.2.2.1 tables_tidy.2.2.1 h') he
  | limited h h' he ih =>
    exact postfix_tidy hs h.btw h'.btw (.one (hw h) ih) (TableR.row hs hn hΦ tables_peekFree.2.2.2 tables_tidy.2.2.2 h') he
  | «infix» h _ h' h'' he ih =>
    exact infix_tidy hs h.btw h'.btw h''.btw (.one (hw h) ih) (TableR.row hs hn hΦ tables_peekFree.2.1 tables_tidy.2.1 h')
      (.one (OperandR.within hs (fun nt am p q vs h => (hΦ nt am p q vs h).1) h'') (OperandR.tidy hs hn hΦ h'')) he

theorem ExprR.tidy {stmt a p q v} (h : ExprR toks Φ stmt a p q v) : Tidy [v] := by
  cases h with
  | left h => exact LeftR.tidy hs hn hΦ h
  | openInfix h _ h' hr he =>
    exact infix_tidy hs h.btw h'.btw (.refl h'.btw.2.1)
      (.one (LeftR.within hs (fun nt am p q vs h => (hΦ nt am p q vs h).1) h) (LeftR.tidy hs hn hΦ h))
      (TableR.row hs hn hΦ tables_peekFree.2.1 tables_tidy.2.1 h') .nil he
  | openPrefix h => exact OpenRangeR.tidy hs hn hΦ h

/-! ## The exceptions -/

omit hs hn hΦ in
theorem wheres_row {a p q vs} (h : den toks Φ .wheres a p q vs) : ∃ l, vs = [.list l] := by
  obtain ⟨v, h, rfl⟩ := h
  have : ∃ l, v = [.list l] := by
    rcases h with ⟨v, -, rfl⟩ | ⟨-, -, rfl⟩ <;> exact ⟨_, rfl⟩
  obtain ⟨l, rfl⟩ := this
  unfold Fn.app
  split <;> first | exact ⟨_, rfl⟩ | contradiction

theorem kept (nt : NT) {a p q vs} (h : denRule toks Φ (rules nt) a p q vs) : Kept nt vs := by
  unfold Kept
  split
  · obtain ⟨v, h, rfl⟩ := (h : den toks Φ Rules.rule_ident a p q vs)
    have : ∃ e, v = [.ext e] := by
      rcases h with (((⟨-, e, -, rfl⟩ | ⟨-, e, -, rfl⟩) | ⟨-, e, -, rfl⟩) | ⟨-, e, -, rfl⟩) | ⟨-, e, -, rfl⟩ <;> exact ⟨_, rfl⟩
    obtain ⟨e, rfl⟩ := this
    exact ⟨e, rfl⟩
  · have h : den toks Φ Rules.rule_struct_defn_body a p q vs := h
    rcases h with (h | h) | h
    · exact .inl (den_row hs hn hΦ _ (by decide +kernel) (by decide +kernel) h).sorted
    · obtain ⟨v, ⟨-, h'⟩, rfl⟩ := h
      obtain ⟨⟨ht, -⟩, hk⟩ := (hΦ _ _ _ _ _ h').2 hn
      rcases hk with hk | ⟨a, l, b, rfl⟩
      · exact .inl (Fn.app_sorted _ rfl hk ht)
      · exact .inr ⟨a, l, [b], rfl⟩
    · exact .inl (den_row hs hn hΦ _ (by decide +kernel) (by decide +kernel) h).sorted
  · obtain ⟨v, e, h, he, rfl⟩ := (h : den toks Φ Rules.rule_struct_defn_body_tuple a p q vs)
    have hr := (den_row hs hn hΦ _ (by decide +kernel) (by decide +kernel) h).sorted
    obtain ⟨m, v1, v2, h1, ⟨m', v3, v4, h3, ⟨v5, h5, rfl⟩, rfl⟩, rfl⟩ := h
    obtain ⟨l, rfl⟩ := wheres_row h3
    rcases v1 with _ | ⟨f, _ | ⟨g, v1⟩⟩
    · exact .inl hr
    · cases l with
      | nil => exact .inl (sorted_cons.mpr ⟨by simp, sorted_one _⟩)
      | cons a l => exact .inr ⟨a, l, _, rfl⟩
    · refine .inl ?_
      cases v1 <;> exact hr
  · obtain ⟨v, -, -, rfl⟩ := h
    exact ⟨v, rfl⟩
  · obtain ⟨m, v1, v2, ⟨v0, -, rfl⟩, h2, rfl⟩ := (h : den toks Φ Rules.rule_expr_value_struct_literal_field_value a p q vs)
    obtain ⟨v, rfl⟩ := ((hΦ _ _ _ _ _ h2.2).2 hn).2
    exact ⟨v, rfl⟩
  · trivial

theorem struct_tidy {a p q vs} (h : den toks Φ Rules.rule_p_struct a p q vs) : Tidy vs := by
  obtain ⟨v, e, h, he, rfl⟩ := h
  have hb := den_btw _ _ _ _ _ h
  have hw := den_within hs (fun nt am p q vs h => (hΦ nt am p q vs h).1) _ (by decide +kernel) _ _ _ _ h
  have ht := (den_neat hs hn hΦ _ (by decide +kernel) (by decide +kernel) _ _ _ _ h).1
  have hr := hs.ex_range hb he
  refine .node ?_ ht (fun y hy => by have := hw y hy; omega)
  obtain ⟨m1, v1, w1, h1, ⟨m2, v2, w2, h2, ⟨m3, v3, w3, h3, ⟨m4, v4, v5, h4, h5, rfl⟩, rfl⟩, rfl⟩, rfl⟩ := h
  have r1 := den_row hs hn hΦ _ (by decide +kernel) (by decide +kernel) h1
  have r2 := den_row hs hn hΦ _ (by decide +kernel) (by decide +kernel) h2
  have r3 := den_row hs hn hΦ _ (by decide +kernel) (by decide +kernel) h3
  have r4 := den_row hs hn hΦ _ (by decide +kernel) (by decide +kernel) h4
  have b1 := den_btw _ _ _ _ _ h1
  have b2 := den_btw _ _ _ _ _ h2
  have b3 := den_btw _ _ _ _ _ h3
  have b4 := den_btw _ _ _ _ _ h4
  have b5 := den_btw _ _ _ _ _ h5
  obtain ⟨w5, k5⟩ := hΦ _ _ _ _ _ h5.2
  obtain ⟨⟨t5, -⟩, k5⟩ := k5 hn
  rcases k5 with k5 | ⟨a, l, bs, rfl⟩
  · exact .inr (Row.seq hs b1 (b2.trans (b3.trans (b4.trans b5))) r1 (Row.seq hs b2 (b3.trans (b4.trans b5)) r2
      (Row.seq hs b3 (b4.trans b5) r3 (Row.seq hs b4 b5 r4 ⟨w5, t5, k5⟩)))).sorted
  · left
    have o1 : ∃ l, v1 = [.list l] := by
      rcases h1 with ⟨v, -, rfl⟩ | ⟨-, -, rfl⟩ <;> exact ⟨_, rfl⟩
    have o4 : ∃ l, v4 = [.list l] := by
      rcases h4 with ⟨v, -, rfl⟩ | ⟨-, -, rfl⟩ <;> exact ⟨_, rfl⟩
    obtain ⟨l1, rfl⟩ := o1
    obtain ⟨l4, rfl⟩ := o4
    obtain ⟨v, -, rfl⟩ := h2
    obtain ⟨e3, rfl⟩ := ((hΦ _ _ _ _ _ h3.2).2 hn).2
    rfl

theorem async_tidy {a p q vs} (h : den toks Φ Rules.rule_expr_async_block a p q vs) : Tidy vs := by
  obtain ⟨v, e, h, he, rfl⟩ := h
  have hb := den_btw _ _ _ _ _ h
  have hw := den_within hs (fun nt am p q vs h => (hΦ nt am p q vs h).1) _ (by decide +kernel) _ _ _ _ h
  have ht := (den_neat hs hn hΦ _ (by decide +kernel) (by decide +kernel) _ _ _ _ h).1
  have hr := hs.ex_range hb he
  refine .node ?_ ht (fun y hy => by have := hw y hy; omega)
  obtain ⟨v, h, rfl⟩ := h
  have hs' := (den_row hs hn hΦ _ (by decide +kernel) (by decide +kernel) h).sorted
  obtain ⟨m1, v1, w1, ⟨v0, -, rfl⟩, ⟨m2, v2, v3, h2, h3, rfl⟩, rfl⟩ := h
  have o2 : ∃ l, v2 = [.list l] := by
    rcases h2 with ⟨v, -, rfl⟩ | ⟨-, -, rfl⟩ <;> exact ⟨_, rfl⟩
  obtain ⟨l, rfl⟩ := o2
  rcases v3 with _ | ⟨b, _ | ⟨c, v3⟩⟩
  · exact .inr hs'
  · cases l with
    | nil => exact .inr (sorted_cons.mpr ⟨by simp, sorted_one _⟩)
    | cons a l => exact .inl rfl
  · exact .inr hs'

theorem field_tidy {a p q vs} (h : den toks Φ Rules.rule_expr_value_struct_literal_field a p q vs) : Tidy vs := by
  obtain ⟨v, e, h, he, rfl⟩ := h
  have hb := den_btw _ _ _ _ _ h
  have hw := den_within hs (fun nt am p q vs h => (hΦ nt am p q vs h).1) _ (by decide +kernel) _ _ _ _ h
  have ht := (den_neat hs hn hΦ _ (by decide +kernel) (by decide +kernel) _ _ _ _ h).1
  have hr := hs.ex_range (.refl hb.1) he
  refine .node ?_ ht (fun y hy => by have := hw y hy; omega)
  obtain ⟨v, ⟨m, v1, v2, ⟨iv, ei, hi, hei, rfl⟩, ho, rfl⟩, rfl⟩ := h
  have b1 := den_btw _ _ _ _ _ hi
  have b2 := den_btw _ _ _ _ _ ho
  have hri := hs.ex_range b1 hei
  have r1 := den_row hs hn hΦ _ (by decide +kernel) (by decide +kernel) hi
  have r2 := den_row hs hn hΦ _ (by decide +kernel) (by decide +kernel) ho
  obtain ⟨e3, rfl⟩ := ((hΦ _ _ _ _ _ hi.2).2 hn).2
  have := r1.within e3 (by simp [mkIdent])
  rcases ho with ⟨v, h, rfl⟩ | ⟨-, -, rfl⟩
  · obtain ⟨x, rfl⟩ := ((hΦ _ _ _ _ _ h.2).2 hn).2
    have := (Row.seq hs b1 b2 r1 r2).sorted
    right
    exact sorted_cons.mpr ⟨by simpa using (sorted_cons.mp this).1, sorted_one _⟩
  · left
    have h : ei.s ≤ e3.s := by omega
    exact decide_eq_true h

end

theorem neat_inductive (hs : Src code toks) : Inductive toks (fun nt _ p q vs => Neat toks nt p q vs) := by
  intro nt a p q vs _ h
  refine ⟨denRule_within hs (fun _ _ _ _ _ h => h.2.2.1) nt _ _ _ _ h, fun hn => ⟨?_, kept hs hn (fun _ _ _ _ _ h => h.2.2) nt h⟩⟩
  by_cases ho : nt.odd = true
  · unfold NT.odd at ho
    split at ho
    · have := struct_tidy hs hn (fun _ _ _ _ _ h => h.2.2) h
      obtain ⟨v, e, h, he, rfl⟩ := (h : den toks _ Rules.rule_p_struct a p q vs)
      exact ⟨this, fun _ => sorted_one _⟩
    · have := async_tidy hs hn (fun _ _ _ _ _ h => h.2.2) h
      obtain ⟨v, e, h, he, rfl⟩ := (h : den toks _ Rules.rule_expr_async_block a p q vs)
      exact ⟨this, fun _ => sorted_one _⟩
    · have := field_tidy hs hn (fun _ _ _ _ _ h => h.2.2) h
      obtain ⟨v, e, h, he, rfl⟩ := (h : den toks _ Rules.rule_expr_value_struct_literal_field a p q vs)
      exact ⟨this, fun _ => sorted_one _⟩
    · cases ho
  have hp := rules_peekFree nt
  have ht := rules_tidy nt
  generalize rules nt = r at h hp ht
  cases r with
  | g g =>
    simp only [Rule.tidy, Bool.and_eq_true, Bool.or_eq_true, Bool.not_eq_true', ho, Bool.false_eq_true, false_or] at ht
    have := den_neat hs hn (fun _ _ _ _ _ h => h.2.2) g hp ht.1 _ _ _ _ h
    exact ⟨this.1, fun h => this.2 (ht.2.elim id (fun h' => by rw [h] at h'; cases h'))⟩
  | expr stmt =>
    obtain ⟨v, -, h, rfl⟩ := h
    exact ⟨ExprR.tidy hs hn (fun _ _ _ _ _ h => h.2.2) h, fun _ => sorted_one _⟩

/-- The items of a file are in order. -/
theorem items_row (hs : Src code toks) (hn : Numbers toks) {a p q vs}
    (h : ItemsR toks (Full toks (fun nt _ p q vs => Neat toks nt p q vs)) a p q vs) (hp : ValidPt toks p) : Btw toks p q ∧ Row toks p q vs := by
  induction h with
  | nil => exact ⟨.refl hp, .nil⟩
  | @snoc m q vs v h1 h2 h3 h4 ih =>
    have hb := den_btw _ _ _ _ _ h4
    have h5 := den_row hs hn (fun _ _ _ _ _ h => h.2.2.2.1) itemG (by decide +kernel) (by decide +kernel) h4
    exact ⟨ih.1.trans hb, Row.seq hs ih.1 hb ih.2 h5⟩

end
end Verif
