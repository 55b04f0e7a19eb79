import Verif.Spec.Tree
import Verif.Proofs.Loop
/-!
# Where the extents of a tree lie
-/

namespace Verif
open Spec

/-! ## Parts of trees -/

theorem subsL_append (vs ws : List V) : subsL (vs ++ ws) = subsL vs ++ subsL ws := by
  induction vs with
  | nil => rfl
  | cons v vs ih => simp [subsL, ih]

theorem V.self_mem_subs (v : V) : v ∈ v.subs := by cases v <;> simp [V.subs]

theorem subsL_single (v : V) : subsL [v] = v.subs := by simp [subsL]

theorem mem_subsL {vs : List V} {x : V} : x ∈ subsL vs ↔ ∃ v ∈ vs, x ∈ v.subs := by
  induction vs with
  | nil => simp [subsL]
  | cons v vs ih => simp [subsL, ih]

/-- All extents in a value. -/
def V.exts (v : V) : List Extent := v.subs.filterMap V.own

@[simp] theorem extsL_nil : extsL [] = [] := rfl
@[simp] theorem extsL_cons (v : V) (vs : List V) : extsL (v :: vs) = v.exts ++ extsL vs := by
  simp [extsL, subsL, V.exts]
@[simp] theorem extsL_append (vs ws : List V) : extsL (vs ++ ws) = extsL vs ++ extsL ws := by
  simp [extsL, subsL_append]
@[simp] theorem exts_ext (e : Extent) : (V.ext e).exts = [e] := rfl
@[simp] theorem exts_bool (b : Bool) : (V.bool b).exts = [] := rfl
@[simp] theorem exts_list (vs : List V) : (V.list vs).exts = extsL vs := rfl
@[simp] theorem exts_enm (t : Tag) (vs : List V) : (V.enm t vs).exts = extsL vs := rfl
@[simp] theorem exts_node (k : K) (e : Extent) (ws : List Ws) (vs : List V) : (V.node k e ws vs).exts = e :: extsL vs := by
  simp [extsL, V.exts, V.subs, V.own]

theorem V.extent?_mem : ∀ (v : V) (e : Extent), v.extent? = some e → e ∈ v.exts
  | .ext e', e, h => by simp [V.extent?] at h; simp [h]
  | .node _ e' _ _, e, h => by simp [V.extent?] at h; simp [h]
  | .enm _ (v :: vs), e, h => by
    have := V.extent?_mem v e (by simpa [V.extent?] using h)
    simp [this]
  | .enm _ [], e, h => by simp [V.extent?] at h
  | .list _, e, h => by simp [V.extent?] at h
  | .bool _, e, h => by simp [V.extent?] at h

@[simp] theorem exts_mkAttributed (e : Extent) (as : List V) (v : V) :
    (mkAttributed e as v).exts = e :: (extsL as ++ v.exts) := by
  simp [mkAttributed]

@[simp] theorem exts_intoExpr (e : Extent) (v : V) : (intoExpr e v).exts = e :: v.exts := by
  simp [intoExpr]

/-- The closures make no new extents. -/
theorem Fn.app_exts (f : Fn) (vs : List V) : ∀ e ∈ extsL (f.app vs), e ∈ extsL vs := by
  intro e he
  unfold Fn.app at he
  split at he
  case h_17 v | h_18 v =>
    split at he
    · rename_i e' he'
      have := V.extent?_mem v e' he'
      simp at he ⊢
      rcases he with rfl | he <;> assumption
    · exact he
  all_goals try simp [mkIdent, mkPathedIdent] at he ⊢
  all_goals first
    | exact he
    | exact he.symm
    | exact .inr he
    | (rcases he with h | h | h <;> simp_all; done)

theorem Mk.app_exts (m : Mk) (e0 : Extent) (vs : List V) : ∀ e ∈ extsL (m.app e0 vs), e = e0 ∨ e ∈ extsL vs := by
  intro e he
  unfold Mk.app at he
  split at he
  all_goals try simp at he ⊢
  all_goals first
    | exact he
    | exact .inr he
    | (rcases he with h | h | h <;> simp_all; done)

theorem mem_extsL {vs : List V} {e : Extent} : e ∈ extsL vs ↔ ∃ v ∈ vs, e ∈ v.exts := by
  induction vs with
  | nil => simp
  | cons v vs ih => simp [ih]

theorem intoExpression_exts {v w : V} (h : intoExpression v = some w) : w.exts = v.exts := by
  unfold intoExpression at h
  split at h <;> simp at h
  subst h; simp

theorem TailK.out_exts (k : TailK) (t : P.Tailed (List V)) : ∀ e ∈ extsL (k.out t), e ∈ extsL t.values.flatten := by
  intro e he
  unfold TailK.out at he
  split at he
  · simpa using he
  · split at he
    · rename_i e' h'
      split at he
      · simpa using he
      · simp only [extsL_cons, exts_list, extsL_nil, List.append_nil, List.mem_append] at he
        rcases he with he | he
        · obtain ⟨v, hv, he⟩ := mem_extsL.mp he
          exact mem_extsL.mpr ⟨v, List.dropLast_subset _ hv, he⟩
        · cases hl : t.values.flatten.getLast? with
          | none => rw [hl] at h'; cases h'
          | some w =>
            rw [hl] at h'
            exact mem_extsL.mpr ⟨w, List.mem_of_getLast? hl, intoExpression_exts h' ▸ he⟩
    · simpa using he
  · split at he <;> simpa using he

theorem PrefixOp.mk_exts (op : PrefixOp) (payload : List V) (e0 : Extent) (o : Option V) :
    ∀ e ∈ (op.mk payload e0 o).exts, e = e0 ∨ e ∈ extsL payload ∨ e ∈ extsL o.toList := by
  intro e he
  cases op <;> simp [PrefixOp.mk] at he <;> first | exact he | (rcases he with h | h <;> simp [h])

theorem InfixOp.mk_exts (op : InfixOp) (payload : List V) (e0 : Extent) (l : V) (o : Option V) :
    ∀ e ∈ (op.mk payload e0 l o).exts, e = e0 ∨ e ∈ extsL payload ∨ e ∈ l.exts ∨ e ∈ extsL o.toList := by
  intro e he
  cases op <;> simp [InfixOp.mk, intoAttributed] at he <;> grind

theorem PostfixOp.mk_exts (op : PostfixOp) (payload : List V) (e0 : Extent) (l : V) :
    ∀ e ∈ (op.mk payload e0 l).exts, e = e0 ∨ e ∈ extsL payload ∨ e ∈ l.exts := by
  intro e he
  cases op <;> simp [PostfixOp.mk, intoAttributed] at he <;> grind

/-! ## Positions -/

/-- The byte a point is at. -/
def Pt.pos (toks : List Token) (p : Pt) : Nat := (toks[p.off]?.map (·.extent.s)).getD 0 + p.subw

section
variable {code : Text} {toks : List Token}

theorem Pt.pos_eq {p : Pt} {t : Token} (h : toks[p.off]? = some t) : p.pos toks = t.extent.s + p.subw := by
  simp [Pt.pos, h]

theorem split_exts {t h r : Token} {n : Nat} (hs : split t n = some (h, r)) :
    h.extent = ⟨t.extent.s + n, t.extent.s + n + 1⟩ ∧ r.extent = ⟨t.extent.s + n + 1, t.extent.e⟩ ∧
      convNumber h = none ∧ convNumber r = none := by
  unfold split at hs
  split at hs <;> cases hs <;> simp [Token.extent, convNumber]

namespace Src
variable (hs : Src code toks)
include hs

theorem le_of_lt {i j : Nat} {t u : Token} (ht : toks[i]? = some t) (hu : toks[j]? = some u) (h : i < j) :
    t.extent.e ≤ u.extent.s := by
  obtain ⟨hi, rfl⟩ := List.getElem?_eq_some_iff.mp ht
  obtain ⟨hj, rfl⟩ := List.getElem?_eq_some_iff.mp hu
  exact List.pairwise_iff_getElem.mp hs.mono i j hi hj h

theorem self_le {t : Token} (ht : t ∈ toks) : t.extent.s ≤ t.extent.e :=
  (hs.inside t ht _ (extent_mem_allExtents t)).2.1

/-- A point lies in its token. -/
theorem pos_le {p : Pt} {t : Token} (hv : ValidPt toks p) (ht : toks[p.off]? = some t) :
    t.extent.s ≤ p.pos toks ∧ p.pos toks ≤ t.extent.e := by
  rw [Pt.pos_eq ht]
  obtain ⟨t', ht', hv⟩ := hv
  rw [ht] at ht'; cases ht'
  refine ⟨Nat.le_add_right _ _, ?_⟩
  have h1 := hs.self_le (List.mem_of_getElem? ht)
  unfold Pt.subw
  split
  · exact h1
  · rename_i n hn
    have := hs.width t (List.mem_of_getElem? ht) n (hv n hn)
    omega

theorem pos_mono {p q : Pt} (h : Btw toks p q) : p.pos toks ≤ q.pos toks := by
  have hp := h.1.subw_le; have hq := h.2.1.subw_le
  obtain ⟨hp', hq', hk⟩ := h
  obtain ⟨t, ht, -⟩ := id hp'
  obtain ⟨u, hu, -⟩ := id hq'
  have h1 := (hs.pos_le hp' ht).2
  have h2 := (hs.pos_le hq' hu).1
  unfold Pt.key at hk
  rcases Nat.lt_trichotomy p.off q.off with h | h | h
  · have := hs.le_of_lt ht hu h; omega
  · rw [h, hu] at ht; cases ht
    rw [Pt.pos_eq hu, Pt.pos_eq (h ▸ hu)]; omega
  · omega

/-- Where the extent of a stretch lies. -/
theorem ex_range {p q : Pt} {e : Extent} (h : Btw toks p q) (he : ex toks p q = some e) :
    e.s = p.pos toks ∧ e.s ≤ e.e ∧ e.e ≤ q.pos toks := by
  have hp := h.1.subw_le; have hq := h.2.1.subw_le
  obtain ⟨hp', hq', hk⟩ := h
  obtain ⟨t, ht, -⟩ := id hp'
  obtain ⟨u, hu, -⟩ := id hq'
  have h1 := (hs.pos_le hp' ht)
  have h2 := (hs.pos_le hq' hu)
  rw [Pt.pos_eq ht, Pt.pos_eq hu] at *
  unfold ex at he
  rw [ht] at he
  dsimp only at he
  split at he
  · rename_i hlt
    have h3 : q.off - 1 < toks.length := by have := hq'.off_lt; omega
    rw [List.getElem?_eq_getElem h3] at he
    cases he
    have h4 := List.getElem?_eq_getElem h3
    have h5 := hs.le_of_lt h4 hu (by omega)
    refine ⟨rfl, ?_, by simp only; omega⟩
    simp only
    rcases Nat.lt_or_ge p.off (q.off - 1) with h6 | h6
    · have := hs.le_of_lt ht h4 h6
      have := hs.self_le (List.mem_of_getElem? h4)
      omega
    · have h6 : p.off = q.off - 1 := by omega
      rw [h6, h4] at ht; cases ht
      omega
  · split at he
    · rename_i heq
      rw [heq, hu] at ht; cases ht
      split at he
      · cases he; refine ⟨?_, ?_, ?_⟩ <;> dsimp only <;> omega
      · split at he
        · cases he; refine ⟨?_, ?_, ?_⟩ <;> dsimp only <;> omega
        · cases he
    · cases he

/-- Where a token read lies. -/
theorem tok_range {p q : Pt} {k : TK} {e : Extent} (hb : Btw toks p q) (h : TokStep toks (convTK k) p q e) :
    e.s = p.pos toks ∧ e.s ≤ e.e ∧ e.e ≤ q.pos toks := by
  obtain ⟨o, ho, hv⟩ := id hb.1
  have hl := hs.pos_le hb.1 ho
  cases h with
  | whole h1 h2 =>
    rename_i t
    obtain ⟨u, hu, -⟩ := id hb.2.1
    have h3 := hs.le_of_lt ho hu (by simp [Pt.advanceBy])
    have h4 := (hs.pos_le hb.2.1 hu).1
    have he : t.extent = e := by
      cases t <;> simp [convTK] at h2
      exact h2.2
    have : e = ⟨p.pos toks, o.extent.e⟩ := by
      rw [← he, Pt.pos_eq ho]
      unfold current at h1
      rw [ho] at h1
      unfold Pt.subw
      cases hsub : p.sub with
      | none => simp [hsub] at h1; subst h1; rfl
      | some n =>
        simp only [hsub, Option.map_eq_some_iff] at h1
        obtain ⟨⟨a, b⟩, h1, rfl⟩ := h1
        rw [(split_exts h1).2.1]; simp only [Extent.mk.injEq, and_true]; omega
    subst this
    refine ⟨rfl, ?_, ?_⟩ <;> dsimp only <;> omega
  | part h0 h1 h2 h3 h4 =>
    rename_i o' t h' r
    rw [ho] at h0; cases h0
    have he : h'.extent = e := by
      cases h' <;> simp [convTK] at h4
      exact h4.2
    rw [← he, (split_exts h3).1]
    have h5 : toks[({ off := p.off, sub := some p.subw } : Pt).off]? = some o := ho
    rw [Pt.pos_eq ho, Pt.pos_eq h5]
    refine ⟨rfl, ?_, ?_⟩ <;> dsimp only [Pt.subw] <;> omega

/-- A number is read as a whole token. -/
theorem number_step {p q : Pt} {n : Number} (h : TokStep toks convNumber p q n) :
    toks[p.off]? = some (.number n) ∧ p.sub = none := by
  cases h with
  | whole h1 h2 =>
    rename_i t
    unfold current at h1
    cases ho : toks[p.off]? with
    | none => simp [ho] at h1
    | some o =>
      rw [ho] at h1
      cases hsub : p.sub with
      | none => simp [hsub] at h1; subst h1; cases o <;> simp [convNumber] at h2; subst h2; exact ⟨rfl, rfl⟩
      | some n =>
        simp only [hsub, Option.map_eq_some_iff] at h1
        obtain ⟨⟨a, b⟩, h1, rfl⟩ := h1
        simp [(split_exts h1).2.2.2] at h2
  | part h0 h1 h2 h3 h4 => simp [(split_exts h3).2.2.1] at h4

theorem number_next {p q : Pt} {n : Number} (h : TokStep toks convNumber p q n) : p.off < q.off := by
  cases h with
  | whole => simp [Pt.advanceBy]
  | part h0 h1 h2 h3 h4 => simp [(split_exts h3).2.2.1] at h4

theorem number_range {p q : Pt} {n : Number} (hb : Btw toks p q) (h : TokStep toks convNumber p q n) :
    ∀ e ∈ allExtents (.number n), p.pos toks ≤ e.s ∧ e.s ≤ e.e ∧ e.e ≤ q.pos toks := by
  intro e he
  obtain ⟨h1, h2⟩ := hs.number_step h
  have h3 := hs.inside _ (List.mem_of_getElem? h1) e he
  obtain ⟨u, hu, -⟩ := id hb.2.1
  have h4 := hs.le_of_lt h1 hu (hs.number_next h)
  have h5 := (hs.pos_le hb.2.1 hu).1
  rw [Pt.pos_eq h1]; simp only [Pt.subw, h2]
  omega

end Src

theorem exts_convertNumber (n : Number) : ∀ e ∈ (convertNumber n).exts, e ∈ allExtents (.number n) := by
  intro e he
  have : ∀ o : Option Extent, ∀ e, e ∈ (optExt o).exts → e ∈ o.toList := by
    intro o e h; cases o <;> simpa [optExt] using h
  unfold convertNumber at he
  simp only [exts_node, extsL_cons, exts_list, extsL_nil, List.nil_append, List.append_nil, List.mem_cons] at he
  rcases he with rfl | he
  · simp [allExtents]
  · split at he <;>
      simp only [exts_enm, exts_node, extsL_cons, exts_ext, extsL_nil, List.append_nil, List.mem_cons,
        List.mem_append, List.not_mem_nil, or_false] at he <;>
      rcases he with rfl | rfl | he | he | he <;> simp only [allExtents, List.mem_cons, List.mem_append] <;>
      first | (simp; done) | simp [this _ _ he]

/-- All extents of the values lie between two points, the right way round. -/
def Within (toks : List Token) (p q : Pt) (vs : List V) : Prop :=
  ∀ e ∈ extsL vs, p.pos toks ≤ e.s ∧ e.s ≤ e.e ∧ e.e ≤ q.pos toks

namespace Within
variable {p m q : Pt} {vs ws : List V}

theorem nil : Within toks p q [] := by simp [Within]

theorem widen {p' q' : Pt} (h : Within toks p q vs) (hp : p'.pos toks ≤ p.pos toks) (hq : q.pos toks ≤ q'.pos toks) :
    Within toks p' q' vs := by
  intro e he; have := h e he; omega

theorem append (h : Within toks p q vs) (h' : Within toks p q ws) : Within toks p q (vs ++ ws) := by
  intro e he
  simp at he
  exact he.elim (h e) (h' e)

theorem sub (h : Within toks p q vs) (h' : ∀ e ∈ extsL ws, e ∈ extsL vs) : Within toks p q ws :=
  fun e he => h e (h' e he)

end Within

/-- `peek` occurs only where its values are not used. -/
def G.peekFree : G → Bool
  | .peek _ => false
  | .ext _ | .drop _ => true
  | .seq a b | .alt a b | .ifAmbiguous a b => a.peekFree && b.peekFree
  | .tailed _ _ a | .tailed1Values _ a | .resume _ a | .implTailed _ _ _ a => a.peekFree
  | .opt a | .many a | .map _ a | .build _ a | .nodeEmpty _ a | .mapErr _ a | .amb _ a | .notMaximum a => a.peekFree
  | .eps | .tok _ | .number | .simpleNumber | .r _ | .nested _ _ => true

def Rule.peekFree : Rule → Bool
  | .g x => x.peekFree
  | .expr _ => true

theorem rules_peekFree (nt : NT) : (rules nt).peekFree = true := by
  have h : NT.all.all (fun nt => (rules nt).peekFree) = true := by decide +kernel
  exact List.all_eq_true.mp h nt (NT.mem_all nt)

section
variable {Φ : NT → Rel} (hs : Src code toks) (hΦ : ∀ nt am p q vs, Φ nt am p q vs → Within toks p q vs)
include hs

theorem Within.seq {p m q : Pt} {v w : List V} (h1 : Btw toks p m) (h2 : Btw toks m q) (h : Within toks p m v)
    (h' : Within toks m q w) : Within toks p q (v ++ w) :=
  (h.widen (Nat.le_refl _) (hs.pos_mono h2)).append (h'.widen (hs.pos_mono h1) (Nat.le_refl _))

theorem Within.more {p p' q' q : Pt} {v : List V} (h1 : Btw toks p p') (h2 : Btw toks q' q) (h : Within toks p' q' v) :
    Within toks p q v := h.widen (hs.pos_mono h1) (hs.pos_mono h2)

theorem Within.star {R : Pt → Pt → List V → Prop} (hb : ∀ p q v, R p q v → Btw toks p q)
    (hR : ∀ p q v, R p q v → Within toks p q v) {p q vss} (h : Star toks R p q vss) :
    Within toks p q vss.flatten := by
  induction h with
  | nil => exact .nil
  | cons h h' ih => exact .seq hs (hb _ _ _ h) (h'.btw hb) (hR _ _ _ h) ih

section
variable {S : Pt → Pt → Prop} {R : Pt → Pt → List V → Prop} (hbS : ∀ p q, S p q → Btw toks p q)
  (hb : ∀ p q v, R p q v → Btw toks p q) (hR : ∀ p q v, R p q v → Within toks p q v)
include hbS hb hR

theorem Within.tailR {es er : Bool} {p0 p q t t'} (h : TailR toks es er S R p t q t') (h0 : Btw toks p0 p)
    (ht : Within toks p0 p t.values.flatten) : Within toks p0 q t'.values.flatten := by
  induction h with
  | stop h => exact ht.more hs (.refl h0.1) h.1
  | last h h' =>
    have := (Within.seq hs h0 (hb _ _ _ h) ht (hR _ _ _ h)).more hs (.refl h0.1) h'.1
    simpa using this
  | more h h' h'' ih =>
    refine ih (h0.trans ((hb _ _ _ h).trans (hbS _ _ h'))) ?_
    have := (Within.seq hs h0 (hb _ _ _ h) ht (hR _ _ _ h)).more hs (.refl h0.1) (hbS _ _ h')
    simpa using this

theorem Within.implR {es er : Bool} {i p0 p q t t'} (h : ImplR toks es er i S R p t q t') (h0 : Btw toks p0 p)
    (ht : Within toks p0 p t.values.flatten) : Within toks p0 q t'.values.flatten := by
  induction h with
  | stop h => exact ht.more hs (.refl h0.1) h.1
  | last h _ h' =>
    have := (Within.seq hs h0 (hb _ _ _ h) ht (hR _ _ _ h)).more hs (.refl h0.1) h'.1
    simpa using this
  | implicit h _ h' h'' ih =>
    refine ih (h0.trans ((hb _ _ _ h).trans h'.1)) ?_
    have := (Within.seq hs h0 (hb _ _ _ h) ht (hR _ _ _ h)).more hs (.refl h0.1) h'.1
    simpa using this
  | more h h' h'' ih =>
    refine ih (h0.trans ((hb _ _ _ h).trans (hbS _ _ h'))) ?_
    have := (Within.seq hs h0 (hb _ _ _ h) ht (hR _ _ _ h)).more hs (.refl h0.1) (hbS _ _ h')
    simpa using this

theorem Within.tailR1 {es er : Bool} {p q t} (h : TailR1 toks es er S R p q t) : Within toks p q t.values.flatten := by
  cases h with
  | one h h' =>
    have := (hR _ _ _ h).more hs (.refl (hb _ _ _ h).1) h'.1
    simpa using this
  | more h h' h'' =>
    refine Within.tailR hs hbS hb hR h'' ((hb _ _ _ h).trans (hbS _ _ h')) ?_
    have := (hR _ _ _ h).more hs (.refl (hb _ _ _ h).1) (hbS _ _ h')
    simpa using this

end

theorem Within.single {p q : Pt} {e : Extent} (h : e.s = p.pos toks ∧ e.s ≤ e.e ∧ e.e ≤ q.pos toks) :
    Within toks p q [.ext e] := by
  intro e' he
  simp at he; subst he; omega

include hΦ in
theorem den_within (g : G) : g.peekFree = true → ∀ a p q vs, den toks Φ g a p q vs → Within toks p q vs := by
  induction g with
  | eps => rintro - a p q vs ⟨-, rfl, rfl⟩; exact .nil
  | tok k => rintro - a p q vs ⟨hb, e, h, rfl⟩; exact .single hs (hs.tok_range hb h)
  | number =>
    rintro - a p q vs ⟨hb, n, h, rfl⟩ e he
    simp only [extsL_cons, extsL_nil, List.append_nil] at he
    exact hs.number_range hb h e (exts_convertNumber n e he)
  | simpleNumber =>
    rintro - a p q vs ⟨hb, n, e, h, h1, rfl⟩ e' he
    simp at he; subst he
    refine hs.number_range hb h e' ?_
    unfold Number.intoSimple at h1
    split at h1 <;> simp at h1
    obtain ⟨-, rfl⟩ := h1; simp [allExtents]
  | r n => rintro - a p q vs ⟨-, h⟩; exact hΦ n a p q vs h
  | seq x y ihx ihy =>
    rintro hp a p q vs ⟨m, v, w, h1, h2, rfl⟩
    simp only [G.peekFree, Bool.and_eq_true] at hp
    exact .seq hs (den_btw _ _ _ _ _ h1) (den_btw _ _ _ _ _ h2) (ihx hp.1 _ _ _ _ h1) (ihy hp.2 _ _ _ _ h2)
  | alt x y ihx ihy =>
    intro hp a p q vs h
    simp only [G.peekFree, Bool.and_eq_true] at hp
    exact h.elim (ihx hp.1 _ _ _ _) (ihy hp.2 _ _ _ _)
  | opt x ih =>
    rintro hp a p q vs (⟨v, h, rfl⟩ | ⟨-, -, rfl⟩)
    · exact (ih hp _ _ _ _ h).sub (by simp)
    · simp [Within]
  | many x ih =>
    rintro hp a p q vs ⟨vss, h, rfl⟩
    exact (Within.star hs (fun _ _ _ h => den_btw _ _ _ _ _ h) (fun _ _ _ h => ih hp _ _ _ _ h) h).sub (by simp)
  | tailed k s x _ ih =>
    rintro hp a p q vs ⟨t, h, rfl⟩
    have hb := h.btw (fun _ _ ⟨_, h⟩ => den_btw _ _ _ _ _ h) (fun _ _ _ h => den_btw _ _ _ _ _ h)
    exact (Within.tailR hs (fun _ _ ⟨_, h⟩ => den_btw _ _ _ _ _ h) (fun _ _ _ h => den_btw _ _ _ _ _ h)
      (fun _ _ _ h => ih hp _ _ _ _ h) h (.refl hb.1) .nil).sub (k.out_exts t)
  | tailed1Values s x _ ih =>
    rintro hp a p q vs ⟨t, h, rfl⟩
    exact (Within.tailR1 hs (fun _ _ ⟨_, h⟩ => den_btw _ _ _ _ _ h) (fun _ _ _ h => den_btw _ _ _ _ _ h)
      (fun _ _ _ h => ih hp _ _ _ _ h) h).sub (TailK.out_exts .values t)
  | resume s x _ ih =>
    rintro hp a p q vs (⟨-, rfl⟩ | ⟨m, w, t, h1, h, rfl⟩)
    · simp [Within]
    · have h2 := Within.tailR1 hs (fun _ _ ⟨_, h⟩ => den_btw _ _ _ _ _ h) (fun _ _ _ h => den_btw _ _ _ _ _ h)
        (fun _ _ _ h => ih hp _ _ _ _ h) h
      have hb := h.btw (fun _ _ ⟨_, h⟩ => den_btw _ _ _ _ _ h) (fun _ _ _ h => den_btw _ _ _ _ _ h)
      exact (h2.more hs (den_btw _ _ _ _ _ h1) (.refl hb.2.1)).sub (by simp)
  | implTailed k i s x _ ih =>
    rintro hp a p q vs ⟨t, h, rfl⟩
    have hb := h.btw (fun _ _ ⟨_, h⟩ => den_btw _ _ _ _ _ h) (fun _ _ _ h => den_btw _ _ _ _ _ h)
    exact (Within.implR hs (fun _ _ ⟨_, h⟩ => den_btw _ _ _ _ _ h) (fun _ _ _ h => den_btw _ _ _ _ _ h)
      (fun _ _ _ h => ih hp _ _ _ _ h) h (.refl hb.1) .nil).sub (k.out_exts t)
  | nested o c =>
    rintro - a p q vs ⟨m, e0, e, h1, -, h2, -, he, rfl⟩
    exact (Within.single hs (hs.ex_range h2 he)).more hs h1 (.refl h2.2.1)
  | ext x ih => rintro - a p q vs ⟨v, e, h, he, rfl⟩; exact .single hs (hs.ex_range (den_btw _ _ _ _ _ h) he)
  | drop x ih => rintro - a p q vs ⟨v, h, rfl⟩; exact .nil
  | map f x ih => rintro hp a p q vs ⟨v, h, rfl⟩; exact (ih hp _ _ _ _ h).sub (f.app_exts v)
  | build m x ih =>
    rintro hp a p q vs ⟨v, e, h, he, rfl⟩ e' he'
    rcases m.app_exts e v e' he' with rfl | h'
    · have := hs.ex_range (den_btw _ _ _ _ _ h) he; omega
    · exact ih hp _ _ _ _ h e' h'
  | nodeEmpty k x ih =>
    rintro hp a p q vs ⟨v, e, h, he, rfl⟩ e' he'
    have hb := den_btw _ _ _ _ _ h
    simp at he'
    rcases he' with rfl | h'
    · have := hs.ex_range (.refl hb.1) he; have := hs.pos_mono hb; omega
    · exact ih hp _ _ _ _ h e' h'
  | mapErr e x ih => intro hp a p q vs h; exact ih hp _ _ _ _ h
  | peek => intro hp; cases hp
  | amb l x ih => intro hp a p q vs h; exact ih hp _ _ _ _ h
  | ifAmbiguous x y ihx ihy =>
    intro hp a p q vs h
    simp only [G.peekFree, Bool.and_eq_true] at hp
    simp only [den] at h
    split at h
    · exact ihx hp.1 _ _ _ _ h
    · exact ihy hp.2 _ _ _ _ h
  | notMaximum x ih => rintro hp a p q vs ⟨-, h⟩; exact ih hp _ _ _ _ h

omit hs in
theorem tables_peekFree : (∀ x ∈ prefixTable.1 :: prefixTable.2, x.2.peekFree = true) ∧
    (∀ x ∈ infixTable.1 :: infixTable.2, x.2.peekFree = true) ∧
    (∀ x ∈ postfixTable.1 :: postfixTable.2, x.2.peekFree = true) ∧
    (∀ x ∈ limitedTable.1 :: limitedTable.2, x.2.peekFree = true) := by decide +kernel

include hΦ

theorem TableR.within {α : Type} {t : (α × G) × List (α × G)} (ht : ∀ x ∈ t.1 :: t.2, x.2.peekFree = true)
    {am p q op payload} (h : TableR toks Φ t am p q op payload) : Within toks p q payload := by
  obtain ⟨g, hg, h⟩ := h
  exact den_within hs hΦ g (ht _ hg) _ _ _ _ h

theorem AttrR.within {R : Pt → Pt → Prop} (hR : ∀ p q, R p q → Btw toks p q) {am p q e attrs}
    (h : AttrR toks Φ R am p q e attrs) :
    (e.s = p.pos toks ∧ e.s ≤ e.e ∧ e.e ≤ q.pos toks) ∧ Within toks p q attrs ∧ ∃ m, Btw toks p m ∧ R m q := by
  obtain ⟨m, vss, h, h', he, rfl⟩ := h
  have h1 := h.btw (fun _ _ _ h => den_btw _ _ _ _ _ h)
  refine ⟨hs.ex_range (h1.trans (hR _ _ h')) he, ?_, m, h1, h'⟩
  exact (Within.star hs (fun _ _ _ h => den_btw _ _ _ _ _ h)
    (fun _ _ _ h => den_within hs hΦ (.r .attribute) rfl _ _ _ _ h) h).more hs (.refl h1.1) (hR _ _ h')

theorem PrefixR.within {am p q e attrs op payload} (h : PrefixR toks Φ am p q e attrs op payload) :
    e.s = p.pos toks ∧ Within toks p q attrs ∧ Within toks p q payload := by
  obtain ⟨h1, h2, m, h3, h4⟩ := AttrR.within hs hΦ (fun _ _ h => TableR.btw h) h
  exact ⟨h1.1, h2, (TableR.within hs hΦ tables_peekFree.1 h4).more hs h3 (.refl h4.btw.2.1)⟩

theorem AtomR.within {am p q v} (h : AtomR toks Φ am p q v) : Within toks p q [v] := by
  obtain ⟨e, attrs, vs, h, rfl⟩ := h
  obtain ⟨h1, h2, m, h3, h4⟩ := AttrR.within hs hΦ (fun _ _ h => den_btw _ _ _ _ _ h) h
  have h5 := (den_within hs hΦ (.r .expression_atom) rfl _ _ _ _ h4).more hs h3 (.refl (den_btw _ _ _ _ _ h4).2.1)
  intro e' he
  simp at he
  rcases he with rfl | he | he
  · omega
  · exact h2 e' he
  · exact h5 e' he

omit hΦ in
theorem within_attributed {p q : Pt} {e inner : Extent} {attrs : List V} {v : V} (hb : Btw toks p q)
    (h1 : e.s = p.pos toks) (h2 : ex toks p q = some inner) (h3 : Within toks p q attrs)
    (h4 : ∀ e' ∈ v.exts, e' = inner ∨ p.pos toks ≤ e'.s ∧ e'.s ≤ e'.e ∧ e'.e ≤ q.pos toks) :
    Within toks p q [mkAttributed ⟨e.s, inner.e⟩ attrs v] := by
  have h5 := hs.ex_range hb h2
  intro e' he
  simp at he
  rcases he with rfl | he | he
  · dsimp only; omega
  · exact h3 e' he
  · rcases h4 e' he with rfl | h4
    · omega
    · exact h4

theorem OperandR.within {a am p q v} (h : OperandR toks Φ a am p q v) : Within toks p q [v] := by
  induction h with
  | atom h => exact AtomR.within hs hΦ h
  | @pre am p m q e attrs op payload v inner h h' he ih =>
    obtain ⟨h1, h2, h3⟩ := PrefixR.within hs hΦ h
    have hb := h.btw.trans h'.btw
    refine within_attributed hs hb h1 he (h2.more hs (.refl hb.1) h'.btw) ?_
    intro e' he'
    rcases op.mk_exts _ _ _ e' he' with h4 | h4 | h4
    · exact .inl h4
    · exact .inr (h3.more hs (.refl hb.1) h'.btw e' h4)
    · exact .inr (ih.more hs h.btw (.refl hb.2.1) e' (by simpa using h4))

theorem OpenRangeR.within {a p q v} (h : OpenRangeR toks Φ a p q v) : Within toks p q [v] := by
  induction h with
  | @last p q e attrs op payload inner h hr he =>
    obtain ⟨h1, h2, h3⟩ := PrefixR.within hs hΦ h
    refine within_attributed hs h.btw h1 he h2 ?_
    intro e' he'
    rcases op.mk_exts _ _ _ e' he' with h4 | h4 | h4
    · exact .inl h4
    · exact .inr (h3 e' h4)
    · simp at h4
  | @pre p m q e attrs op payload v inner h h' he ih =>
    obtain ⟨h1, h2, h3⟩ := PrefixR.within hs hΦ h
    have hb := h.btw.trans h'.btw
    refine within_attributed hs hb h1 he (h2.more hs (.refl hb.1) h'.btw) ?_
    intro e' he'
    rcases op.mk_exts _ _ _ e' he' with h4 | h4 | h4
    · exact .inl h4
    · exact .inr (h3.more hs (.refl hb.1) h'.btw e' h4)
    · exact .inr (ih.more hs h.btw (.refl hb.2.1) e' (by simpa using h4))

omit hΦ in
theorem postfix_within {p m q : Pt} {v : V} {op : PostfixOp} {payload : List V} {e : Extent} (h1 : Btw toks p m)
    (h2 : Btw toks m q) (hv : Within toks p m [v]) (hp : Within toks m q payload) (he : ex toks p q = some e) :
    Within toks p q [op.mk payload e v] := by
  intro e' he'
  simp only [extsL_cons, extsL_nil, List.append_nil] at he'
  rcases op.mk_exts _ _ _ e' he' with rfl | h4 | h4
  · have := hs.ex_range (h1.trans h2) he; omega
  · exact hp.more hs h1 (.refl h2.2.1) e' h4
  · exact hv.more hs (.refl h1.1) h2 e' (by simpa using h4)

theorem LeftR.within {stmt a p q v} (h : LeftR toks Φ stmt a p q v) : Within toks p q [v] := by
  induction h with
  | operand h => exact OperandR.within hs hΦ h
  | post h _ h' he ih =>
    exact postfix_within hs h.btw h'.btw ih (TableR.within hs hΦ tables_peekFree.2.2.1 h') he
  | limited h h' he ih =>
    exact postfix_within hs h.btw h'.btw ih (TableR.within hs hΦ tables_peekFree.2.2.2 h') he
  | «infix» h _ h' h'' he ih =>
    have h1 := TableR.within hs hΦ tables_peekFree.2.1 h'
    have h2 := OperandR.within hs hΦ h''
    intro e' he'
    simp only [extsL_cons, extsL_nil, List.append_nil] at he'
    rcases InfixOp.mk_exts _ _ _ _ _ e' he' with rfl | h4 | h4 | h4
    · have := hs.ex_range (h.btw.trans (h'.btw.trans h''.btw)) he; omega
    · exact h1.more hs h.btw h''.btw e' h4
    · exact ih.more hs (.refl h.btw.1) (h'.btw.trans h''.btw) e' (by simpa using h4)
    · exact h2.more hs (h.btw.trans h'.btw) (.refl h''.btw.2.1) e' (by simpa using h4)

theorem ExprR.within {stmt a p q v} (h : ExprR toks Φ stmt a p q v) : Within toks p q [v] := by
  cases h with
  | left h => exact LeftR.within hs hΦ h
  | openInfix h _ h' hr he =>
    have h0 := LeftR.within hs hΦ h
    have h1 := TableR.within hs hΦ tables_peekFree.2.1 h'
    intro e' he'
    simp only [extsL_cons, extsL_nil, List.append_nil] at he'
    rcases InfixOp.mk_exts _ _ _ _ _ e' he' with rfl | h4 | h4 | h4
    · have := hs.ex_range (h.btw.trans h'.btw) he; omega
    · exact h1.more hs h.btw (.refl h'.btw.2.1) e' h4
    · exact h0.more hs (.refl h.btw.1) h'.btw e' (by simpa using h4)
    · simp at h4
  | openPrefix h => exact OpenRangeR.within hs hΦ h

theorem denRule_within (nt : NT) (a : Amb) (p q : Pt) (vs : List V) (h : denRule toks Φ (rules nt) a p q vs) :
    Within toks p q vs := by
  have hp := rules_peekFree nt
  generalize rules nt = r at h hp
  cases r with
  | g g => exact den_within hs hΦ g hp _ _ _ _ h
  | expr stmt => obtain ⟨v, -, h, rfl⟩ := h; exact ExprR.within hs hΦ h

end
end
end Verif
