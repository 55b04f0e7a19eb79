import Verif.Proofs.WsBounds
/-!
# Extents end before the whitespace after the last token

No extent reaches into the whitespace after the last token that was read, unless it is empty.
-/

namespace Verif
open Spec Verif.Props

variable {code : Text} {toks : List Token}

/-- Where the tokens before a point end. -/
def Pt.close (toks : List Token) (q : Pt) : Nat :=
  if 0 < q.subw then q.pos toks else match q.off with
    | 0 => 0
    | n + 1 => (toks[n]?.map fun t => t.extent.e).getD 0

theorem Pt.close_eq {q : Pt} {t : Token} (h0 : q.subw = 0) (h : toks[q.off - 1]? = some t) (hq : 0 < q.off) : q.close toks = t.extent.e := by
  unfold Pt.close
  obtain ⟨n, hn⟩ : ∃ n, q.off = n + 1 := ⟨q.off - 1, by omega⟩
  rw [if_neg (by omega), hn]
  rw [hn] at h
  simp at h
  simp [h]

theorem Pt.close_sub {q : Pt} (h0 : 0 < q.subw) : q.close toks = q.pos toks := by
  unfold Pt.close
  rw [if_pos h0]

theorem ex_self {p : Pt} {e : Extent} (he : ex toks p p = some e) : e.e ≤ e.s := by
  unfold ex at he
  split at he
  · cases he
  · simp at he
    subst he
    exact Nat.le_refl _

namespace Src
variable (hs : Src code toks)
include hs

theorem close_le {q : Pt} (h : ValidPt toks q) : q.close toks ≤ q.pos toks := by
  rcases Nat.eq_zero_or_pos q.subw with h0 | h0
  · rcases Nat.eq_zero_or_pos q.off with h1 | h1
    · unfold Pt.close; rw [if_neg (by omega), h1]; exact Nat.zero_le _
    · obtain ⟨u, hu, -⟩ := id h
      have h2 : q.off - 1 < toks.length := by have := h.off_lt; omega
      have h3 := List.getElem?_eq_getElem h2
      rw [Pt.close_eq h0 h3 h1]
      have := hs.le_of_lt h3 hu (by omega)
      have := (hs.pos_le h hu).1
      omega
  · rw [Pt.close_sub h0]; exact Nat.le_refl _

/-- Tokens before a point end before it. -/
theorem le_close {q : Pt} (h : ValidPt toks q) {i : Nat} {t : Token} (ht : toks[i]? = some t) (hi : i < q.off) : t.extent.e ≤ q.close toks := by
  obtain ⟨u, hu, -⟩ := id h
  rcases Nat.eq_zero_or_pos q.subw with h0 | h0
  · have h2 : q.off - 1 < toks.length := by have := h.off_lt; omega
    have h3 := List.getElem?_eq_getElem h2
    rw [Pt.close_eq h0 h3 (by omega)]
    rcases Nat.lt_or_ge i (q.off - 1) with h4 | h4
    · have := hs.le_of_lt ht h3 h4
      have := hs.self_le (List.mem_of_getElem? h3)
      omega
    · have h5 : i = q.off - 1 := by omega
      subst h5
      rw [h3] at ht
      cases ht
      exact Nat.le_refl _
  · rw [Pt.close_sub h0]
    have := hs.le_of_lt ht hu hi
    have := (hs.pos_le h hu).1
    omega

theorem close_mono {p q : Pt} (h : Btw toks p q) : p.close toks ≤ q.close toks := by
  rcases Nat.lt_or_ge p.off q.off with h1 | h1
  · obtain ⟨t, ht, -⟩ := id h.1
    have := hs.close_le h.1
    have := (hs.pos_le h.1 ht).2
    have := hs.le_close h.2.1 ht h1
    omega
  · have hm := hs.pos_mono h
    have hk := h.2.2
    rcases Nat.eq_zero_or_pos q.subw with h2 | h2
    · have h3 : p.off = q.off ∧ p.subw = 0 := by
        unfold Pt.key at hk
        omega
      unfold Pt.close
      simp [h3.1, h3.2, h2]
    · rw [Pt.close_sub h2]
      have := hs.close_le h.1
      omega

theorem ex_close {p q : Pt} {e : Extent} (h : Btw toks p q) (he : ex toks p q = some e) : e.e ≤ e.s ∨ e.e ≤ q.close toks := by
  have hr := hs.ex_range h he
  rcases Nat.eq_zero_or_pos q.subw with h0 | h0
  · unfold ex at he
    split at he
    · cases he
    · dsimp only at he
      split at he
      · split at he
        · cases he
        · rename_i u hu
          cases he
          right
          rw [Pt.close_eq h0 hu (by omega)]
          simp [h0]
      · split at he
        · split at he
          · omega
          · split at he
            · cases he; exact .inl (Nat.le_refl _)
            · cases he
        · cases he
  · right; rw [Pt.close_sub h0]; exact hr.2.2

theorem tok_close {p q : Pt} {k : TK} {e : Extent} (hb : Btw toks p q) (h : TokStep toks (convTK k) p q e) :
    e.e ≤ e.s ∨ e.e ≤ q.close toks := by
  have hr := hs.tok_range hb h
  obtain ⟨o, ho, hv⟩ := id hb.1
  right
  rcases Nat.eq_zero_or_pos q.subw with h0 | h0
  · cases h with
    | whole h1 h2 =>
      rename_i t
      have h3 := hs.le_close hb.2.1 ho (by simp [Pt.advanceBy])
      have he : t.extent = e := by
        cases t <;> simp [convTK] at h2
        exact h2.2
      have : e.e = o.extent.e := by
        rw [← he]
        unfold current at h1
        rw [ho] at h1
        cases hsub : p.sub with
        | none => simp [hsub] at h1; subst h1; rfl
        | some n =>
          simp only [hsub, Option.map_eq_some_iff] at h1
          obtain ⟨⟨a, b⟩, h1, rfl⟩ := h1
          rw [(split_exts h1).2.1]
      omega
    | part => simp [Pt.subw] at h0
  · rw [Pt.close_sub h0]; exact hr.2.2

theorem number_close {p q : Pt} {n : Number} (hb : Btw toks p q) (h : TokStep toks convNumber p q n) :
    ∀ e ∈ allExtents (.number n), e.e ≤ e.s ∨ e.e ≤ q.close toks := by
  intro e he
  obtain ⟨h1, h2⟩ := hs.number_step h
  have h3 := hs.inside _ (List.mem_of_getElem? h1) e he
  have := hs.le_close hb.2.1 h1 (hs.number_next h)
  right
  omega

end Src

/-- All extents of the values are empty or end before the whitespace before the second point. -/
def Snug (toks : List Token) (_ q : Pt) (vs : List V) : Prop :=
  ∀ e ∈ extsL vs, e.e ≤ e.s ∨ e.e ≤ q.close toks

namespace Snug
variable {p m q : Pt} {vs ws : List V}

theorem nil : Snug toks p q [] := by simp [Snug]

theorem widen {p' q' : Pt} (h : Snug toks p q vs) (hq : q.close toks ≤ q'.close toks) :
    Snug toks p' q' vs := by
  intro e he; have := h e he; omega

theorem append (h : Snug toks p q vs) (h' : Snug toks p q ws) : Snug toks p q (vs ++ ws) := by
  intro e he
  simp at he
  exact he.elim (h e) (h' e)

theorem sub (h : Snug toks p q vs) (h' : ∀ e ∈ extsL ws, e ∈ extsL vs) : Snug toks p q ws :=
  fun e he => h e (h' e he)

end Snug

section
variable {Φ : NT → Rel} (hs : Src code toks) (hΦ : ∀ nt am p q vs, Φ nt am p q vs → Snug toks p q vs)
include hs

theorem Snug.seq {p m q : Pt} {v w : List V} (_h1 : Btw toks p m) (h2 : Btw toks m q) (h : Snug toks p m v)
    (h' : Snug toks m q w) : Snug toks p q (v ++ w) :=
  (h.widen (p' := p) (hs.close_mono h2)).append (h'.widen (Nat.le_refl _))

theorem Snug.more {p p' q' q : Pt} {v : List V} (_h1 : Btw toks p p') (h2 : Btw toks q' q) (h : Snug toks p' q' v) :
    Snug toks p q v := h.widen (hs.close_mono h2)

theorem Snug.star {R : Pt → Pt → List V → Prop} (hb : ∀ p q v, R p q v → Btw toks p q)
    (hR : ∀ p q v, R p q v → Snug toks p q v) {p q vss} (h : Star toks R p q vss) :
    Snug toks p q vss.flatten := by
  induction h with
  | nil => exact .nil
  | cons h h' ih => exact .seq hs (hb _ _ _ h) (h'.btw hb) (hR _ _ _ h) ih

section
variable {S : Pt → Pt → Prop} {R : Pt → Pt → List V → Prop} (hbS : ∀ p q, S p q → Btw toks p q)
  (hb : ∀ p q v, R p q v → Btw toks p q) (hR : ∀ p q v, R p q v → Snug toks p q v)
include hbS hb hR

theorem Snug.tailR {es er : Bool} {p0 p q t t'} (h : TailR toks es er S R p t q t') (h0 : Btw toks p0 p)
    (ht : Snug toks p0 p t.values.flatten) : Snug toks p0 q t'.values.flatten := by
  induction h with
  | stop h => exact ht.more hs (.refl h0.1) h.1
  | last h h' =>
    have := (Snug.seq hs h0 (hb _ _ _ h) ht (hR _ _ _ h)).more hs (.refl h0.1) h'.1
    simpa using this
  | more h h' h'' ih =>
    refine ih (h0.trans ((hb _ _ _ h).trans (hbS _ _ h'))) ?_
    have := (Snug.seq hs h0 (hb _ _ _ h) ht (hR _ _ _ h)).more hs (.refl h0.1) (hbS _ _ h')
    simpa using this

theorem Snug.implR {es er : Bool} {i p0 p q t t'} (h : ImplR toks es er i S R p t q t') (h0 : Btw toks p0 p)
    (ht : Snug toks p0 p t.values.flatten) : Snug toks p0 q t'.values.flatten := by
  induction h with
  | stop h => exact ht.more hs (.refl h0.1) h.1
  | last h _ h' =>
    have := (Snug.seq hs h0 (hb _ _ _ h) ht (hR _ _ _ h)).more hs (.refl h0.1) h'.1
    simpa using this
  | implicit h _ h' h'' ih =>
    refine ih (h0.trans ((hb _ _ _ h).trans h'.1)) ?_
    have := (Snug.seq hs h0 (hb _ _ _ h) ht (hR _ _ _ h)).more hs (.refl h0.1) h'.1
    simpa using this
  | more h h' h'' ih =>
    refine ih (h0.trans ((hb _ _ _ h).trans (hbS _ _ h'))) ?_
    have := (Snug.seq hs h0 (hb _ _ _ h) ht (hR _ _ _ h)).more hs (.refl h0.1) (hbS _ _ h')
    simpa using this

theorem Snug.tailR1 {es er : Bool} {p q t} (h : TailR1 toks es er S R p q t) : Snug toks p q t.values.flatten := by
  cases h with
  | one h h' =>
    have := (hR _ _ _ h).more hs (.refl (hb _ _ _ h).1) h'.1
    simpa using this
  | more h h' h'' =>
    refine Snug.tailR hs hbS hb hR h'' ((hb _ _ _ h).trans (hbS _ _ h')) ?_
    have := (hR _ _ _ h).more hs (.refl (hb _ _ _ h).1) (hbS _ _ h')
    simpa using this

end

theorem Snug.single {p q : Pt} {e : Extent} (h : e.e ≤ e.s ∨ e.e ≤ q.close toks) :
    Snug toks p q [.ext e] := by
  intro e' he
  simp at he; subst he; exact h

include hΦ in
theorem den_snug (g : G) : g.peekFree = true → ∀ a p q vs, den toks Φ g a p q vs → Snug toks p q vs := by
  induction g with
  | eps => rintro - a p q vs ⟨-, rfl, rfl⟩; exact .nil
  | tok k => rintro - a p q vs ⟨hb, e, h, rfl⟩; exact .single hs (hs.tok_close hb h)
  | number =>
    rintro - a p q vs ⟨hb, n, h, rfl⟩ e he
    simp only [extsL_cons, extsL_nil, List.append_nil] at he
    exact hs.number_close hb h e (exts_convertNumber n e he)
  | simpleNumber =>
    rintro - a p q vs ⟨hb, n, e, h, h1, rfl⟩ e' he
    simp at he; subst he
    refine hs.number_close hb h e' ?_
    unfold Number.intoSimple at h1
    split at h1 <;> simp at h1
    obtain ⟨-, rfl⟩ := h1; simp [allExtents]
  | r n => rintro - a p q vs ⟨-, h⟩; exact hΦ n a p q vs h
  | seq x y ihx ihy =>
    rintro hp a p q vs ⟨m, v, w, h1, h2, rfl⟩
    simp only [G.peekFree, Bool.and_eq_true] at hp
    exact .seq hs (den_btw _ _ _ _ _ h1) (den_btw _ _ _ _ _ h2) (ihx hp.1 _ _ _ _ h1) (ihy hp.2 _ _ _ _ h2)
  | alt x y ihx ihy =>
    intro hp a p q vs h
    simp only [G.peekFree, Bool.and_eq_true] at hp
    exact h.elim (ihx hp.1 _ _ _ _) (ihy hp.2 _ _ _ _)
  | opt x ih =>
    rintro hp a p q vs (⟨v, h, rfl⟩ | ⟨-, -, rfl⟩)
    · exact (ih hp _ _ _ _ h).sub (by simp)
    · simp [Snug]
  | many x ih =>
    rintro hp a p q vs ⟨vss, h, rfl⟩
    exact (Snug.star hs (fun _ _ _ h => den_btw _ _ _ _ _ h) (fun _ _ _ h => ih hp _ _ _ _ h) h).sub (by simp)
  | tailed k s x _ ih =>
    rintro hp a p q vs ⟨t, h, rfl⟩
    have hb := h.btw (fun _ _ ⟨_, h⟩ => den_btw _ _ _ _ _ h) (fun _ _ _ h => den_btw _ _ _ _ _ h)
    exact (Snug.tailR hs (fun _ _ ⟨_, h⟩ => den_btw _ _ _ _ _ h) (fun _ _ _ h => den_btw _ _ _ _ _ h)
      (fun _ _ _ h => ih hp _ _ _ _ h) h (.refl hb.1) .nil).sub (k.out_exts t)
  | tailed1Values s x _ ih =>
    rintro hp a p q vs ⟨t, h, rfl⟩
    exact (Snug.tailR1 hs (fun _ _ ⟨_, h⟩ => den_btw _ _ _ _ _ h) (fun _ _ _ h => den_btw _ _ _ _ _ h)
      (fun _ _ _ h => ih hp _ _ _ _ h) h).sub (TailK.out_exts .values t)
  | resume s x _ ih =>
    rintro hp a p q vs (⟨-, rfl⟩ | ⟨m, w, t, h1, h, rfl⟩)
    · simp [Snug]
    · have h2 := Snug.tailR1 hs (fun _ _ ⟨_, h⟩ => den_btw _ _ _ _ _ h) (fun _ _ _ h => den_btw _ _ _ _ _ h)
        (fun _ _ _ h => ih hp _ _ _ _ h) h
      have hb := h.btw (fun _ _ ⟨_, h⟩ => den_btw _ _ _ _ _ h) (fun _ _ _ h => den_btw _ _ _ _ _ h)
      exact (h2.more hs (den_btw _ _ _ _ _ h1) (.refl hb.2.1)).sub (by simp)
  | implTailed k i s x _ ih =>
    rintro hp a p q vs ⟨t, h, rfl⟩
    have hb := h.btw (fun _ _ ⟨_, h⟩ => den_btw _ _ _ _ _ h) (fun _ _ _ h => den_btw _ _ _ _ _ h)
    exact (Snug.implR hs (fun _ _ ⟨_, h⟩ => den_btw _ _ _ _ _ h) (fun _ _ _ h => den_btw _ _ _ _ _ h)
      (fun _ _ _ h => ih hp _ _ _ _ h) h (.refl hb.1) .nil).sub (k.out_exts t)
  | nested o c =>
    rintro - a p q vs ⟨m, e0, e, h1, -, h2, -, he, rfl⟩
    exact (Snug.single hs (hs.ex_close h2 he)).more hs h1 (.refl h2.2.1)
  | ext x ih => rintro - a p q vs ⟨v, e, h, he, rfl⟩; exact .single hs (hs.ex_close (den_btw _ _ _ _ _ h) he)
  | drop x ih => rintro - a p q vs ⟨v, h, rfl⟩; exact .nil
  | map f x ih => rintro hp a p q vs ⟨v, h, rfl⟩; exact (ih hp _ _ _ _ h).sub (f.app_exts v)
  | build m x ih =>
    rintro hp a p q vs ⟨v, e, h, he, rfl⟩ e' he'
    rcases m.app_exts e v e' he' with rfl | h'
    · have := hs.ex_close (den_btw _ _ _ _ _ h) he; omega
    · exact ih hp _ _ _ _ h e' h'
  | nodeEmpty k x ih =>
    rintro hp a p q vs ⟨v, e, h, he, rfl⟩ e' he'
    have hb := den_btw _ _ _ _ _ h
    simp at he'
    rcases he' with rfl | h'
    · exact .inl (ex_self he)
    · exact ih hp _ _ _ _ h e' h'
  | mapErr e x ih => intro hp a p q vs h; exact ih hp _ _ _ _ h
  | peek => intro hp; cases hp
  | amb l x ih => intro hp a p q vs h; exact ih hp _ _ _ _ h
  | ifAmbiguous x y ihx ihy =>
    intro hp a p q vs h
    simp only [G.peekFree, Bool.and_eq_true] at hp
    simp only [den] at h
    split at h
    · exact ihx hp.1 _ _ _ _ h
    · exact ihy hp.2 _ _ _ _ h
  | notMaximum x ih => rintro hp a p q vs ⟨-, h⟩; exact ih hp _ _ _ _ h

include hΦ

theorem TableR.snug {α : Type} {t : (α × G) × List (α × G)} (ht : ∀ x ∈ t.1 :: t.2, x.2.peekFree = true)
    {am p q op payload} (h : TableR toks Φ t am p q op payload) : Snug toks p q payload := by
  obtain ⟨g, hg, h⟩ := h
  exact den_snug hs hΦ g (ht _ hg) _ _ _ _ h

theorem AttrR.snug {R : Pt → Pt → Prop} (hR : ∀ p q, R p q → Btw toks p q) {am p q e attrs}
    (h : AttrR toks Φ R am p q e attrs) :
    (e.s = p.pos toks ∧ (e.e ≤ e.s ∨ e.e ≤ q.close toks)) ∧ Snug toks p q attrs ∧ ∃ m, Btw toks p m ∧ R m q := by
  obtain ⟨m, vss, h, h', he, rfl⟩ := h
  have h1 := h.btw (fun _ _ _ h => den_btw _ _ _ _ _ h)
  refine ⟨⟨(hs.ex_range (h1.trans (hR _ _ h')) he).1, hs.ex_close (h1.trans (hR _ _ h')) he⟩, ?_, m, h1, h'⟩
  exact (Snug.star hs (fun _ _ _ h => den_btw _ _ _ _ _ h)
    (fun _ _ _ h => den_snug hs hΦ (.r .attribute) rfl _ _ _ _ h) h).more hs (.refl h1.1) (hR _ _ h')

theorem PrefixR.snug {am p q e attrs op payload} (h : PrefixR toks Φ am p q e attrs op payload) :
    e.s = p.pos toks ∧ Snug toks p q attrs ∧ Snug toks p q payload := by
  obtain ⟨h1, h2, m, h3, h4⟩ := AttrR.snug hs hΦ (fun _ _ h => TableR.btw h) h
  exact ⟨h1.1, h2, (TableR.snug hs hΦ tables_peekFree.1 h4).more hs h3 (.refl h4.btw.2.1)⟩

theorem AtomR.snug {am p q v} (h : AtomR toks Φ am p q v) : Snug toks p q [v] := by
  obtain ⟨e, attrs, vs, h, rfl⟩ := h
  obtain ⟨h1, h2, m, h3, h4⟩ := AttrR.snug hs hΦ (fun _ _ h => den_btw _ _ _ _ _ h) h
  have h5 := (den_snug hs hΦ (.r .expression_atom) rfl _ _ _ _ h4).more hs h3 (.refl (den_btw _ _ _ _ _ h4).2.1)
  intro e' he
  simp at he
  rcases he with rfl | he | he
  · omega
  · exact h2 e' he
  · exact h5 e' he

omit hΦ in
theorem snug_attributed {p q : Pt} {e inner : Extent} {attrs : List V} {v : V} (hb : Btw toks p q)
    (h1 : e.s = p.pos toks) (h2 : ex toks p q = some inner) (h3 : Snug toks p q attrs)
    (h4 : ∀ e' ∈ v.exts, e' = inner ∨ (e'.e ≤ e'.s ∨ e'.e ≤ q.close toks)) :
    Snug toks p q [mkAttributed ⟨e.s, inner.e⟩ attrs v] := by
  have h5 := hs.ex_close hb h2
  have h6 := hs.ex_range hb h2
  intro e' he
  simp at he
  rcases he with rfl | he | he
  · dsimp only; omega
  · exact h3 e' he
  · rcases h4 e' he with rfl | h4
    · omega
    · exact h4

theorem OperandR.snug {a am p q v} (h : OperandR toks Φ a am p q v) : Snug toks p q [v] := by
  induction h with
  | atom h => exact AtomR.snug hs hΦ h
  | @pre am p m q e attrs op payload v inner h h' he ih =>
    obtain ⟨h1, h2, h3⟩ := PrefixR.snug hs hΦ h
    have hb := h.btw.trans h'.btw
    refine snug_attributed hs hb h1 he (h2.more hs (.refl hb.1) h'.btw) ?_
    intro e' he'
    rcases op.mk_exts _ _ _ e' he' with h4 | h4 | h4
    · exact .inl h4
    · exact .inr (h3.more hs (.refl hb.1) h'.btw e' h4)
    · exact .inr (ih.more hs h.btw (.refl hb.2.1) e' (by simpa using h4))

theorem OpenRangeR.snug {a p q v} (h : OpenRangeR toks Φ a p q v) : Snug toks p q [v] := by
  induction h with
  | @last p q e attrs op payload inner h hr he =>
    obtain ⟨h1, h2, h3⟩ := PrefixR.snug hs hΦ h
    refine snug_attributed hs h.btw h1 he h2 ?_
    intro e' he'
    rcases op.mk_exts _ _ _ e' he' with h4 | h4 | h4
    · exact .inl h4
    · exact .inr (h3 e' h4)
    · simp at h4
  | @pre p m q e attrs op payload v inner h h' he ih =>
    obtain ⟨h1, h2, h3⟩ := PrefixR.snug hs hΦ h
    have hb := h.btw.trans h'.btw
    refine snug_attributed hs hb h1 he (h2.more hs (.refl hb.1) h'.btw) ?_
    intro e' he'
    rcases op.mk_exts _ _ _ e' he' with h4 | h4 | h4
    · exact .inl h4
    · exact .inr (h3.more hs (.refl hb.1) h'.btw e' h4)
    · exact .inr (ih.more hs h.btw (.refl hb.2.1) e' (by simpa using h4))

omit hΦ in
theorem postfix_snug {p m q : Pt} {v : V} {op : PostfixOp} {payload : List V} {e : Extent} (h1 : Btw toks p m)
    (h2 : Btw toks m q) (hv : Snug toks p m [v]) (hp : Snug toks m q payload) (he : ex toks p q = some e) :
    Snug toks p q [op.mk payload e v] := by
  intro e' he'
  simp only [extsL_cons, extsL_nil, List.append_nil] at he'
  rcases op.mk_exts _ _ _ e' he' with rfl | h4 | h4
  · have := hs.ex_close (h1.trans h2) he; omega
  · exact hp.more hs h1 (.refl h2.2.1) e' h4
  · exact hv.more hs (.refl h1.1) h2 e' (by simpa using h4)

theorem LeftR.snug {stmt a p q v} (h : LeftR toks Φ stmt a p q v) : Snug toks p q [v] := by
  induction h with
  | operand h => exact OperandR.snug hs hΦ h
  | post h _ h' he ih =>
    exact postfix_snug hs h.btw h'.btw ih (TableR.snug hs hΦ tables_peekFree.2.2.1 h') he
  | limited h h' he ih =>
    exact postfix_snug hs h.btw h'.btw ih (TableR.snug hs hΦ tables_peekFree.2.2.2 h') he
  | «infix» h _ h' h'' he ih =>
    have h1 := TableR.snug hs hΦ tables_peekFree.2.1 h'
    have h2 := OperandR.snug hs hΦ h''
    intro e' he'
    simp only [extsL_cons, extsL_nil, List.append_nil] at he'
    rcases InfixOp.mk_exts _ _ _ _ _ e' he' with rfl | h4 | h4 | h4
    · have := hs.ex_close (h.btw.trans (h'.btw.trans h''.btw)) he; omega
    · exact h1.more hs h.btw h''.btw e' h4
    · exact ih.more hs (.refl h.btw.1) (h'.btw.trans h''.btw) e' (by simpa using h4)
    · exact h2.more hs (h.btw.trans h'.btw) (.refl h''.btw.2.1) e' (by simpa using h4)

theorem ExprR.snug {stmt a p q v} (h : ExprR toks Φ stmt a p q v) : Snug toks p q [v] := by
  cases h with
  | left h => exact LeftR.snug hs hΦ h
  | openInfix h _ h' hr he =>
    have h0 := LeftR.snug hs hΦ h
    have h1 := TableR.snug hs hΦ tables_peekFree.2.1 h'
    intro e' he'
    simp only [extsL_cons, extsL_nil, List.append_nil] at he'
    rcases InfixOp.mk_exts _ _ _ _ _ e' he' with rfl | h4 | h4 | h4
    · have := hs.ex_close (h.btw.trans h'.btw) he; omega
    · exact h1.more hs h.btw (.refl h'.btw.2.1) e' h4
    · exact h0.more hs (.refl h.btw.1) h'.btw e' (by simpa using h4)
    · simp at h4
  | openPrefix h => exact OpenRangeR.snug hs hΦ h

theorem denRule_snug (nt : NT) (a : Amb) (p q : Pt) (vs : List V) (h : denRule toks Φ (rules nt) a p q vs) :
    Snug toks p q vs := by
  have hp := rules_peekFree nt
  generalize rules nt = r at h hp
  cases r with
  | g g => exact den_snug hs hΦ g hp _ _ _ _ h
  | expr stmt => obtain ⟨v, -, h, rfl⟩ := h; exact ExprR.snug hs hΦ h

end

theorem snug_inductive (hs : Src code toks) : Inductive toks (fun _ _ p q vs => Snug toks p q vs) :=
  fun nt _ _ _ _ _ h => denRule_snug hs (fun _ _ _ _ _ h => h.2.2) nt _ _ _ _ h

/-- What is in an item ends before the item does, unless it is empty. -/
theorem item_snug (hs : Src code toks) {a p q vs} (h : ItemsR toks (Full toks (fun _ _ p q vs => Snug toks p q vs)) a p q vs) :
    ∀ v ∈ vs, ∃ e, v.own = some e ∧ e.s < e.e ∧ ∀ e' ∈ v.exts, e.s ≤ e'.s ∧ (e'.e ≤ e'.s ∨ e'.e ≤ e.e) := by
  induction h with
  | nil => simp
  | @snoc m q vs v h1 h2 h3 h4 ih =>
    intro x hx
    rcases List.mem_append.mp hx with hx | hx
    · exact ih x hx
    have hw := (item_full hs h4).1
    have hn := den_snug hs (fun _ _ _ _ _ h => h.2.2.2.1) itemG (by decide +kernel) _ _ _ _ h4
    obtain ⟨fs', t, u, rfl, ht, hu, hlt, hq⟩ := item_shape (code := code) h3 h4
    have h0 : q.subw = 0 := by simp [Pt.subw, hq]
    simp at hx
    subst hx
    have hv := (den_btw _ _ _ _ _ h4).2.1
    have hlen := hv.off_lt
    have h7 := hs.nonempty t (List.mem_of_getElem? ht) (hs.eof.notEOF ht (by omega))
    have h8 := hs.le_close hv ht hlt
    rw [Pt.close_eq h0 hu (by omega)] at h8
    refine ⟨_, rfl, by simp; omega, fun e' he' => ?_⟩
    have h5 := hn e' (by simpa using he')
    have h6 := (hw e' (by simpa using he')).1
    rw [Pt.close_eq h0 hu (by omega)] at h5
    rw [Pt.pos_eq ht] at h6
    exact ⟨by simp; omega, h5⟩

end Verif
