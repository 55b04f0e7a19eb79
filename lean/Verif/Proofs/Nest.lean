import Verif.Proofs.Solid
/-!
# Extents inside extents: the parser

The extent of a stretch of tokens ends with its last token, except that when only the first character of a token is taken after
other tokens, it ends one byte after the token before.  So what is read last, when it is just such a character, may lie beyond the
end.  The rules are checked for this not to happen.
-/

namespace Verif
open Spec

section
variable {code : Text} {toks : List Token}

/-- The end of a stretch that ends at a point and begins at another token. -/
def Pt.fin (toks : List Token) (q : Pt) : Nat := (toks[q.off - 1]?.map (·.extent.e)).getD 0 + q.subw

/-- The end of a stretch. -/
def endOf (toks : List Token) (p q : Pt) : Nat := if p.off < q.off then q.fin toks else q.pos toks

theorem Pt.fin_eq {q : Pt} {t : Token} (h : toks[q.off - 1]? = some t) : q.fin toks = t.extent.e + q.subw := by
  simp [Pt.fin, h]

theorem Btw.off_le {p q : Pt} (h : Btw toks p q) : p.off ≤ q.off ∧ (p.off = q.off → p.subw ≤ q.subw) := by
  have := h.1.subw_le; have := h.2.1.subw_le
  have := h.2.2
  unfold Pt.key at this
  omega

theorem ex_end {p q : Pt} {e : Extent} (he : ex toks p q = some e) : e.e = endOf toks p q := by
  unfold ex at he
  unfold endOf Pt.fin Pt.pos
  split at he
  · cases he
  · next t ht =>
    dsimp only at he
    split at he
    · next h =>
      rw [if_pos h]
      split at he <;> cases he
      next u hu => simp [hu]
    · next h =>
      rw [if_neg h]
      split at he
      · next h' =>
        rw [h'] at ht
        split at he
        · cases he; simp [ht]
        · split at he <;> cases he
          simp [ht]; omega
      · cases he

namespace Src
variable (hs : Src code toks)
include hs

theorem fin_mono {p q : Pt} (h : Btw toks p q) (hp : 0 < p.off) : p.fin toks ≤ q.fin toks := by
  have h1 := h.off_le
  have hql := h.2.1.off_lt
  have hpl := h.1.off_lt
  have e1 := List.getElem?_eq_getElem (l := toks) (i := p.off - 1) (by omega)
  have e2 := List.getElem?_eq_getElem (l := toks) (i := q.off - 1) (by omega)
  rw [Pt.fin_eq e1, Pt.fin_eq e2]
  rcases Nat.lt_or_ge p.off q.off with h2 | h2
  · obtain ⟨t, ht, -⟩ := id h.1
    have h3 := hs.le_of_lt e1 ht (by omega)
    have h4 := (hs.pos_le h.1 ht).2
    rw [Pt.pos_eq ht] at h4
    rcases Nat.lt_or_ge p.off (q.off - 1) with h5 | h5
    · have := hs.le_of_lt ht e2 h5
      have := hs.self_le (List.mem_of_getElem? e2)
      omega
    · have h6 : p.off = q.off - 1 := by omega
      rw [h6, e2] at ht; cases ht
      omega
  · have h3 : p.off = q.off := by omega
    have := h1.2 h3
    simp only [h3]; omega

theorem pos_fin {p q : Pt} (h : Btw toks p q) (hp : p.off < q.off) : p.pos toks ≤ q.fin toks := by
  have hql := h.2.1.off_lt
  have e2 := List.getElem?_eq_getElem (l := toks) (i := q.off - 1) (by omega)
  obtain ⟨t, ht, -⟩ := id h.1
  have h4 := (hs.pos_le h.1 ht).2
  rw [Pt.fin_eq e2]
  rcases Nat.lt_or_ge p.off (q.off - 1) with h5 | h5
  · have := hs.le_of_lt ht e2 h5
    have := hs.self_le (List.mem_of_getElem? e2)
    omega
  · have h6 : p.off = q.off - 1 := by omega
    rw [h6, e2] at ht; cases ht
    omega

theorem endOf_left {p m q : Pt} (h1 : Btw toks p m) (h2 : Btw toks m q) : endOf toks p m ≤ endOf toks p q := by
  have := h1.off_le; have := h2.off_le
  unfold endOf
  split
  · rw [if_pos (by omega)]
    exact hs.fin_mono h2 (by omega)
  · split
    · exact hs.pos_fin h2 (by omega)
    · exact hs.pos_mono h2

theorem endOf_right {p m q : Pt} (h1 : Btw toks p m) (h : m.off < q.off) : endOf toks m q ≤ endOf toks p q := by
  have := h1.off_le
  unfold endOf
  rw [if_pos h, if_pos (by omega)]
  exact Nat.le_refl _

theorem pos_endOf {p m q : Pt} (h1 : Btw toks p m) (h2 : Btw toks m q) (h : m.off < q.off) : m.pos toks ≤ endOf toks p q := by
  have := h1.off_le
  unfold endOf
  rw [if_pos (by omega)]
  exact hs.pos_fin h2 h

theorem start_endOf {p q : Pt} (h : Btw toks p q) : p.pos toks ≤ endOf toks p q := by
  unfold endOf
  split
  · exact hs.pos_fin h ‹_›
  · exact hs.pos_mono h

end Src

/-! ## Tokens -/

/-- The kinds of token that may be the first character of another one. -/
def TK.first : TK → Bool
  | .LeftAngle | .RightAngle | .Pipe | .Ampersand => true
  | _ => false

theorem split_first {o h r : Token} {n : Nat} {k : TK} {e : Extent} (hs : split o n = some (h, r)) (hc : convTK k h = some e) :
    k.first = true := by
  unfold split at hs
  split at hs <;> simp at hs <;> obtain ⟨rfl, -⟩ := hs <;> simp [convTK] at hc <;> obtain ⟨rfl, -⟩ := hc <;> rfl

theorem TokStep.adv {k : TK} {p q : Pt} {e : Extent} (hk : k.first = false) (h : TokStep toks (convTK k) p q e) :
    p.off < q.off := by
  cases h with
  | whole => simp [Pt.advanceBy]
  | part h0 h1 h2 h3 h4 => rw [split_first h3 h4] at hk; cases hk

theorem Src.tok_end (hs : Src code toks) {k : TK} {p q : Pt} {e : Extent} (hb : Btw toks p q) (h : TokStep toks (convTK k) p q e) :
    e.e ≤ endOf toks p q := by
  have h0 := hs.tok_range hb h
  unfold endOf
  split
  · next hlt =>
    cases h with
    | whole h1 h2 =>
      rename_i t
      obtain ⟨o, ho, -⟩ := id hb.1
      have h3 : toks[(p.advanceBy 1).off - 1]? = some o := by simpa [Pt.advanceBy] using ho
      rw [Pt.fin_eq h3]
      have he : t.extent = e := by
        cases t <;> simp [convTK] at h2
        exact h2.2
      have : e.e = o.extent.e := by
        rw [← he]
        unfold current at h1
        rw [ho] at h1
        cases hsub : p.sub with
        | none => simp [hsub] at h1; subst h1; rfl
        | some n =>
          simp only [hsub, Option.map_eq_some_iff] at h1
          obtain ⟨⟨a, b⟩, h1, rfl⟩ := h1
          rw [(split_exts h1).2.1]
      omega
    | part => simp at hlt
  · exact h0.2.2

theorem Src.number_end (hs : Src code toks) {p q : Pt} {n : Number} (hb : Btw toks p q) (h : TokStep toks convNumber p q n) :
    ∀ e ∈ allExtents (.number n), e.e ≤ endOf toks p q := by
  intro e he
  obtain ⟨h1, h2⟩ := hs.number_step h
  have h3 := hs.inside _ (List.mem_of_getElem? h1) e he
  have h4 := hs.number_next h
  unfold endOf
  rw [if_pos h4]
  cases h with
  | whole =>
    have h3 : toks[(p.advanceBy 1).off - 1]? = some (.number n) := by simpa [Pt.advanceBy] using h1
    rw [Pt.fin_eq h3]; omega
  | part h0 h1 h2 h3 h4 => simp [(split_exts h3).2.2.1] at h4

/-- From `<` to `>` there is more than one token. -/
theorem angles {p m m' q : Pt} {e e' : Extent} (h1 : TokStep toks (convTK .LeftAngle) p m e) (hb1 : Btw toks p m) (hb : Btw toks m m')
    (hb2 : Btw toks m' q) (h2 : TokStep toks (convTK .RightAngle) m' q e') : p.off < q.off := by
  have l1 := hb1.off_le; have l2 := hb.off_le; have l3 := hb2.off_le
  cases h1 with
  | whole => simp [Pt.advanceBy] at l2; omega
  | part a0 a1 a2 a3 a4 =>
    cases h2 with
    | whole => simp [Pt.advanceBy]; simp at l2; omega
    | part b0 b1 b2 b3 b4 =>
      rcases Nat.lt_or_ge p.off m'.off with h | h
      · exact h
      · exfalso
        simp at l2
        have h' : m'.off = p.off := by omega
        rw [h', a0] at b0; cases b0
        unfold split at a3
        split at a3 <;> simp at a3 <;> obtain ⟨rfl, -⟩ := a3 <;> simp [convTK] at a4
        unfold split at b3
        split at b3 <;> simp at b3
        all_goals (obtain ⟨rfl, -⟩ := b3; simp [convTK] at b4)
        all_goals simp_all

end
end Verif

namespace Verif
open Spec

/-! ## What is known of a stretch -/

/-- How well the extents of the values fit the stretch: 0, there are none; 1, they end in it, and if there are any the stretch ends
at another token than it starts; 2, they end in it; 3, nothing is known.  Besides, whether the stretch always ends at another token. -/
structure Fit where
  lvl : Nat
  adv : Bool
deriving DecidableEq, Repr

/-- The first is the more precise. -/
def Fit.le (a b : Fit) : Bool := decide (a.lvl ≤ b.lvl) && (a.adv || !b.adv)

/-- What a fit says. -/
structure Good (toks : List Token) (c : Fit) (p q : Pt) (vs : List V) : Prop where
  none : c.lvl = 0 → solidL vs = []
  more : c.lvl ≤ 1 → solidL vs ≠ [] → p.off < q.off
  tight : c.lvl ≤ 2 → ∀ x ∈ solidL vs, x.e ≤ endOf toks p q
  adv : c.adv = true → p.off < q.off
  nest : nestL vs

/-- One after the other. -/
def Fit.seq (a b : Fit) : Fit :=
  if b.adv && decide (b.lvl ≤ 2) then ⟨1, true⟩
  else ⟨if b.lvl ≤ 1 then max a.lvl b.lvl else 3, a.adv || b.adv⟩

/-- One or the other. -/
def Fit.join (a b : Fit) : Fit := ⟨max a.lvl b.lvl, a.adv && b.adv⟩

/-- Elements of a list. -/
def Fit.elems (a : Fit) : Fit := ⟨if a.lvl ≤ 1 then a.lvl else 3, false⟩

/-- An extent of the stretch and what is in it. -/
def Fit.span (a : Fit) : Fit := if a.lvl ≤ 2 then (if a.adv then ⟨1, true⟩ else ⟨2, false⟩) else ⟨3, a.adv⟩

theorem Fit.elems_elems (a : Fit) : a.elems.elems = a.elems := by
  unfold Fit.elems
  split <;> simp_all

namespace Good
variable {code : Text} {toks : List Token} {a b : Fit} {p m q : Pt} {v w : List V}

theorem mono (h : Good toks a p q v) (hl : a.le b = true) : Good toks b p q v := by
  simp only [Fit.le, Bool.and_eq_true, Bool.or_eq_true, decide_eq_true_eq, Bool.not_eq_true'] at hl
  refine ⟨fun hb => h.none (by omega), fun hb => h.more (by omega), fun hb => h.tight (by omega), fun hb => ?_, h.nest⟩
  rcases hl.2 with hl | hl
  · exact h.adv hl
  · rw [hb] at hl; cases hl

theorem nil {l : Nat} : Good toks ⟨l, false⟩ p q [] := ⟨fun _ => rfl, by simp, by simp, by simp, by simp⟩

theorem joinl (h : Good toks a p q v) : Good toks (a.join b) p q v :=
  h.mono (by simp [Fit.le, Fit.join, Nat.le_max_left]; cases a.adv <;> simp)

theorem joinr (h : Good toks b p q v) : Good toks (a.join b) p q v :=
  h.mono (by simp [Fit.le, Fit.join, Nat.le_max_right]; cases b.adv <;> simp)

theorem sub (h : Good toks a p q v) (hs : ∀ e ∈ solidL w, e ∈ solidL v) (hn : nestL w) : Good toks a p q w := by
  refine ⟨fun hb => ?_, fun hb hw => h.more hb ?_, fun hb x hx => h.tight hb x (hs x hx), h.adv, hn⟩
  · have := h.none hb
    rw [this] at hs
    exact List.eq_nil_iff_forall_not_mem.mpr fun x hx => by simpa using hs x hx
  · intro h'
    rw [h'] at hs
    exact hw (List.eq_nil_iff_forall_not_mem.mpr fun x hx => by simpa using hs x hx)

variable (hs : Src code toks)
include hs

theorem seq (h1 : Btw toks p m) (h2 : Btw toks m q) (ha : Good toks a p m v) (hb : Good toks b m q w) (hw : Within toks p m v) :
    Good toks (a.seq b) p q (v ++ w) := by
  have l1 := h1.off_le; have l2 := h2.off_le
  have hn : nestL (v ++ w) := nestL_append.mpr ⟨ha.nest, hb.nest⟩
  unfold Fit.seq
  split
  · next h =>
    simp only [Bool.and_eq_true, decide_eq_true_eq] at h
    have hlt := hb.adv h.1
    refine ⟨by simp, fun _ _ => by omega, fun _ x hx => ?_, fun _ => by omega, hn⟩
    simp only [solidL_append, List.mem_append] at hx
    rcases hx with hx | hx
    · have := (hw x (solidL_sub hx)).2.2
      have := hs.pos_endOf h1 h2 hlt
      omega
    · have := hb.tight h.2 x hx
      have := hs.endOf_right h1 hlt
      omega
  · refine ⟨fun h => ?_, fun h hne => ?_, fun h x hx => ?_, fun h => ?_, hn⟩
    · dsimp only at h
      split at h
      · rw [solidL_append, ha.none (by omega), hb.none (by omega)]; rfl
      · omega
    · dsimp only at h
      split at h
      · rw [solidL_append] at hne
        by_cases h3 : solidL v = []
        · rw [h3] at hne
          have := hb.more (by omega) hne
          omega
        · have := ha.more (by omega) h3
          omega
      · omega
    · dsimp only at h
      split at h
      · next hb1 =>
        simp only [solidL_append, List.mem_append] at hx
        rcases hx with hx | hx
        · have := ha.tight (by omega) x hx
          have := hs.endOf_left h1 h2
          omega
        · have := hb.tight (by omega) x hx
          have := hs.endOf_right h1 (hb.more (by omega) (List.ne_nil_of_mem hx))
          omega
      · omega
    · simp only [Bool.or_eq_true] at h
      rcases h with h | h
      · have := ha.adv h; omega
      · have := hb.adv h; omega

/-- The stretch may go on. -/
theorem on (h1 : Btw toks p m) (h2 : Btw toks m q) (ha : Good toks a p m v) : Good toks a p q v := by
  have l1 := h1.off_le; have l2 := h2.off_le
  have := hs.endOf_left h1 h2
  refine ⟨ha.none, fun h hne => ?_, fun h x hx => ?_, fun h => ?_, ha.nest⟩
  · have := ha.more h hne; omega
  · have := ha.tight h x hx; omega
  · have := ha.adv h; omega

/-- Elements one after the other. -/
theorem cat (h1 : Btw toks p m) (h2 : Btw toks m q) (ha : Good toks a.elems p m v) (hb : Good toks a m q w) :
    Good toks a.elems p q (v ++ w) := by
  have l1 := h1.off_le; have l2 := h2.off_le
  have hn : nestL (v ++ w) := nestL_append.mpr ⟨ha.nest, hb.nest⟩
  by_cases hl : a.lvl ≤ 1
  · have he : a.elems = ⟨a.lvl, false⟩ := by simp [Fit.elems, hl]
    rw [he] at ha ⊢
    refine ⟨fun h => ?_, fun h hne => ?_, fun h x hx => ?_, by simp, hn⟩
    · rw [solidL_append, ha.none h, hb.none h]; rfl
    · rw [solidL_append] at hne
      by_cases h3 : solidL v = []
      · rw [h3] at hne
        have := hb.more hl hne
        omega
      · have := ha.more hl h3
        omega
    · simp only [solidL_append, List.mem_append] at hx
      rcases hx with hx | hx
      · have := ha.tight h x hx
        have := hs.endOf_left h1 h2
        omega
      · have := hb.tight h x hx
        have := hs.endOf_right h1 (hb.more hl (List.ne_nil_of_mem hx))
        omega
  · have he : a.elems = ⟨3, false⟩ := by simp [Fit.elems, hl]
    rw [he]
    exact ⟨by simp, by simp, by simp, by simp, hn⟩

omit hs in
theorem elems (h : Good toks a p q v) : Good toks a.elems p q v := by
  unfold Fit.elems
  split
  · exact ⟨h.none, h.more, h.tight, by simp, h.nest⟩
  · exact ⟨by simp, by simp, by simp, by simp, h.nest⟩

theorem star {R : Pt → Pt → List V → Prop} (hb : ∀ p q v, R p q v → Btw toks p q)
    (hR : ∀ p q v, R p q v → Good toks a p q v) {p q vss} (h : Star toks R p q vss) :
    Good toks a.elems p q vss.flatten := by
  suffices H : ∀ p0 acc, Btw toks p0 p → Good toks a.elems p0 p acc → Good toks a.elems p0 q (acc ++ vss.flatten) by
    have hv := (h.btw hb).1
    simpa using H p [] (.refl hv) .nil
  induction h with
  | nil => intro p0 acc _ h; simpa using h
  | cons h h' ih =>
    intro p0 acc h0 ha
    have := ih p0 (acc ++ _) (h0.trans (hb _ _ _ h)) (ha.cat hs h0 (hb _ _ _ h) (hR _ _ _ h))
    simpa using this

section
variable {S : Pt → Pt → Prop} {R : Pt → Pt → List V → Prop} (hbS : ∀ p q, S p q → Btw toks p q)
  (hb : ∀ p q v, R p q v → Btw toks p q) (hR : ∀ p q v, R p q v → Good toks a p q v)
include hbS hb hR

theorem tailR {es er : Bool} {p0 p q t t'} (h : TailR toks es er S R p t q t') (h0 : Btw toks p0 p)
    (ht : Good toks a.elems p0 p t.values.flatten) : Good toks a.elems p0 q t'.values.flatten := by
  induction h with
  | stop h => exact ht.on hs h0 h.1
  | last h h' =>
    have h1 := (ht.cat hs h0 (hb _ _ _ h) (hR _ _ _ h)).on hs (h0.trans (hb _ _ _ h)) h'.1
    simpa using h1
  | more h h' h'' ih =>
    refine ih (h0.trans ((hb _ _ _ h).trans (hbS _ _ h'))) ?_
    have h1 := (ht.cat hs h0 (hb _ _ _ h) (hR _ _ _ h)).on hs (h0.trans (hb _ _ _ h)) (hbS _ _ h')
    simpa using h1

theorem implR {es er : Bool} {i p0 p q t t'} (h : ImplR toks es er i S R p t q t') (h0 : Btw toks p0 p)
    (ht : Good toks a.elems p0 p t.values.flatten) : Good toks a.elems p0 q t'.values.flatten := by
  induction h with
  | stop h => exact ht.on hs h0 h.1
  | last h _ h' =>
    have h1 := (ht.cat hs h0 (hb _ _ _ h) (hR _ _ _ h)).on hs (h0.trans (hb _ _ _ h)) h'.1
    simpa using h1
  | implicit h _ h' h'' ih =>
    refine ih (h0.trans ((hb _ _ _ h).trans h'.1)) ?_
    have h1 := (ht.cat hs h0 (hb _ _ _ h) (hR _ _ _ h)).on hs (h0.trans (hb _ _ _ h)) h'.1
    simpa using h1
  | more h h' h'' ih =>
    refine ih (h0.trans ((hb _ _ _ h).trans (hbS _ _ h'))) ?_
    have h1 := (ht.cat hs h0 (hb _ _ _ h) (hR _ _ _ h)).on hs (h0.trans (hb _ _ _ h)) (hbS _ _ h')
    simpa using h1

theorem tailR1 {es er : Bool} {p q t} (h : TailR1 toks es er S R p q t) :
    Good toks a.elems p q t.values.flatten ∧ (a.adv = true → p.off < q.off) := by
  cases h with
  | one h h' =>
    have h1 := (hR _ _ _ h).elems.on hs (hb _ _ _ h) h'.1
    exact ⟨by simpa using h1, ((hR _ _ _ h).on hs (hb _ _ _ h) h'.1).adv⟩
  | more h h' h'' =>
    constructor
    · refine tailR hs hbS hb hR h'' ((hb _ _ _ h).trans (hbS _ _ h')) ?_
      have h1 := (hR _ _ _ h).elems.on hs (hb _ _ _ h) (hbS _ _ h')
      simpa using h1
    · have hb' := (hbS _ _ h').trans (h''.btw hbS hb)
      exact ((hR _ _ _ h).on hs (hb _ _ _ h) hb').adv

end

/-- The extent of a stretch. -/
theorem span {e : Extent} (hb : Btw toks p q) (he : ex toks p q = some e) (ha : a.adv = true → p.off < q.off) (hl : a.lvl ≤ 2) :
    Good toks a.span p q [.ext e] := by
  have h1 := ex_end he
  unfold Fit.span
  rw [if_pos hl]
  split
  · next h => exact ⟨by simp, fun _ _ => ha h, by simp; omega, fun _ => ha h, by simp⟩
  · exact ⟨by simp, by simp, by simp; omega, by simp, by simp⟩

/-- A struct made of a stretch. -/
theorem build {e : Extent} {mk : Mk} (hb : Btw toks p q) (he : ex toks p q = some e) (ha : Good toks a p q v)
    (hw : Within toks p q v) (hl : a.lvl ≤ 2) : Good toks a.span p q (mk.app e v) := by
  have h1 := ex_end he
  have h2 := (hs.ex_range hb he).1
  have h3 := mk.app_solid e v
  have h4 : ∀ x ∈ solidL v, e.s ≤ x.s ∧ x.e ≤ e.e := by
    intro x hx
    have := ha.tight hl x hx
    have := hw x (solidL_sub hx)
    omega
  have h5 : ∀ x ∈ solidL (mk.app e v), x.e ≤ endOf toks p q := by
    intro x hx
    rcases h3.1 x hx with rfl | hx
    · omega
    · have := h4 x hx; omega
  unfold Fit.span
  rw [if_pos hl]
  split
  · next h => exact ⟨by simp, fun _ _ => ha.adv h, fun _ => h5, fun _ => ha.adv h, h3.2 h4 ha.nest⟩
  · exact ⟨by simp, by simp, fun _ => h5, by simp, h3.2 h4 ha.nest⟩

end Good
end Verif

namespace Verif
open Spec

/-! ## The rules -/

/-- Begins with `<`. -/
def G.opens : G → Bool
  | .tok k => k == .LeftAngle
  | .drop a => a.opens
  | .seq a _ => a.opens
  | _ => false

/-- Ends with `>`. -/
def G.closes : G → Bool
  | .tok k => k == .RightAngle
  | .drop a => a.closes
  | .seq _ b => b.closes
  | _ => false

/-- How well the values of a grammar expression fit. -/
def G.fit (d : NT → Fit) : G → Fit
  | .eps => ⟨0, false⟩
  | .tok k => if k.first then ⟨2, false⟩ else ⟨1, true⟩
  | .number | .simpleNumber => ⟨1, true⟩
  | .r n => d n
  | .seq a b => let c := (a.fit d).seq (b.fit d); ⟨c.lvl, c.adv || a.opens && b.closes⟩
  | .alt a b | .ifAmbiguous a b => (a.fit d).join (b.fit d)
  | .opt a => ⟨(a.fit d).lvl, false⟩
  | .many a | .tailed _ _ a | .implTailed _ _ _ a | .resume _ a => (a.fit d).elems
  | .tailed1Values _ a => ⟨(a.fit d).elems.lvl, (a.fit d).adv⟩
  | .nested _ _ => ⟨3, false⟩
  | .ext a => Fit.span ⟨0, (a.fit d).adv⟩
  | .drop a => ⟨0, (a.fit d).adv⟩
  | .map _ a => a.fit d
  | .build m a =>
    if m = .node .TraitBounds ∧ (a.fit d).lvl ≤ 1 then ⟨1, (a.fit d).adv⟩ else (a.fit d).span
  | .nodeEmpty _ a => (a.fit d).span
  | .mapErr _ a | .amb _ a | .notMaximum a => a.fit d
  | .peek _ => ⟨3, false⟩

/-- The shape that `Fn.fieldValue` is used on. -/
def G.named : G → Bool
  | .seq (.build .span (.r .ident)) _ => true
  | _ => false

/-- What is asked of a grammar expression. -/
def G.firm (d : NT → Fit) : G → Bool
  | .eps | .tok _ | .number | .simpleNumber | .r _ | .nested _ _ => true
  | .seq a b => a.firm d && b.firm d && a.peekFree
  | .alt a b | .ifAmbiguous a b => a.firm d && b.firm d
  | .opt a | .many a | .ext a | .drop a | .mapErr _ a | .amb _ a | .notMaximum a | .peek a => a.firm d
  | .tailed _ _ a | .implTailed _ _ _ a | .resume _ a | .tailed1Values _ a => a.firm d
  | .map f a => a.firm d && (if f = .fieldValue then a.named else
      match a.sty NT.sty with | some ss => f.fits ss | none => false)
  | .build m a => a.firm d && a.peekFree && decide ((a.fit d).lvl ≤ 2) &&
      (if m = .node .TraitBounds then a.sty NT.sty = some [.ty (.vec (.enm .TraitBound))] else true)
  | .nodeEmpty k a => a.firm d && decide ((a.fit d).lvl ≤ 2) && (k == .PatternName || k == .StructLiteralField)

/-- How well the values of a nonterminal fit. -/
def NT.fit : NT → Fit
  | .function_qualifiers | .self_argument_qualifier | .statement | .statement_empty | .typ_reference_kind => ⟨2, false⟩
  | .trait_bounds | .enum_variant_body | .operator_prefix_reference => ⟨1, false⟩
  | _ => ⟨1, true⟩

theorem rules_fit (nt : NT) :
    (match rules nt with | .g g => g.firm NT.fit && (g.fit NT.fit).le nt.fit | .expr _ => nt.fit = ⟨1, true⟩) = true := by
  have h : NT.all.all (fun nt => match rules nt with
    | .g g => g.firm NT.fit && (g.fit NT.fit).le nt.fit
    | .expr _ => nt.fit = ⟨1, true⟩) = true := by decide +kernel
  exact List.all_eq_true.mp h nt (NT.mem_all nt)

/-- A bound has an extent. -/
theorem bound_solid {v : V} (h : v.hasTy (.enm .TraitBound) = true) : v.solid ≠ [] := by
  obtain ⟨t, vs, rfl, ht, hvs⟩ := hasTy_enm h
  cases t <;> simp [Tag.en] at ht
  all_goals
    simp only [Tag.payload] at hvs
    obtain ⟨v, rfl, hv⟩ := hasTys_one hvs
    obtain ⟨e, ws, fs, rfl, -⟩ := hasTy_node hv
    simp

theorem fieldValue_solid (vs : List V) : ∀ e ∈ solidL (Fn.app .fieldValue vs), e ∈ solidL vs := by
  intro e he
  unfold Fn.app at he
  split at he <;> try (rename_i heq; cases heq; done)
  · simp at he ⊢; grind
  · simp [mkPathedIdent, intoExpr] at he ⊢; grind
  · exact he

section
variable {code : Text} {toks : List Token} {Φ : NT → Rel}

theorem den_opens (g : G) : g.opens = true → ∀ a p q vs, den toks Φ g a p q vs →
    ∃ m e, Btw toks p m ∧ TokStep toks (convTK .LeftAngle) p m e ∧ Btw toks m q := by
  induction g with
  | tok k =>
    intro h a p q vs hd
    simp [G.opens] at h; subst h
    obtain ⟨hb, e, h, -⟩ := hd
    exact ⟨q, e, hb, h, .refl hb.2.1⟩
  | drop x ih => rintro h a p q vs ⟨v, hd, -⟩; exact ih h _ _ _ _ hd
  | seq x y ihx _ =>
    rintro h a p q vs ⟨m, v, w, h1, h2, -⟩
    obtain ⟨m', e, h3, h4, h5⟩ := ihx h _ _ _ _ h1
    exact ⟨m', e, h3, h4, h5.trans (den_btw _ _ _ _ _ h2)⟩
  | _ => intro h; cases h

theorem den_closes (g : G) : g.closes = true → ∀ a p q vs, den toks Φ g a p q vs →
    ∃ m e, Btw toks p m ∧ TokStep toks (convTK .RightAngle) m q e ∧ Btw toks m q := by
  induction g with
  | tok k =>
    intro h a p q vs hd
    simp [G.closes] at h; subst h
    obtain ⟨hb, e, h, -⟩ := hd
    exact ⟨p, e, .refl hb.1, h, hb⟩
  | drop x ih => rintro h a p q vs ⟨v, hd, -⟩; exact ih h _ _ _ _ hd
  | seq x y _ ihy =>
    rintro h a p q vs ⟨m, v, w, h1, h2, -⟩
    obtain ⟨m', e, h3, h4, h5⟩ := ihy h _ _ _ _ h2
    exact ⟨m', e, (den_btw _ _ _ _ _ h1).trans h3, h4, h5⟩
  | _ => intro h; cases h

variable (hs : Src code toks) (hw : ∀ nt am p q vs, Φ nt am p q vs → Within toks p q vs)
  (ht : ∀ nt am p q vs, Φ nt am p q vs → hasS vs nt.sty = true)
  (hg : ∀ nt am p q vs, Φ nt am p q vs → Good toks nt.fit p q vs)
include hs hw ht hg

theorem den_good (g : G) : g.firm NT.fit = true → ∀ a p q vs, den toks Φ g a p q vs → Good toks (g.fit NT.fit) p q vs := by
  induction g with
  | eps => rintro - a p q vs ⟨-, rfl, rfl⟩; exact .nil
  | tok k =>
    rintro - a p q vs ⟨hb, e, h, rfl⟩
    have h1 := hs.tok_end hb h
    simp only [G.fit]
    split
    · exact ⟨by simp, by simp, by simpa using h1, by simp, by simp⟩
    · next hk =>
      have h2 := h.adv (by simpa using hk)
      exact ⟨by simp, fun _ _ => h2, by simpa using h1, fun _ => h2, by simp⟩
  | number =>
    rintro - a p q vs ⟨hb, n, h, rfl⟩
    have h1 := hs.number_end hb h
    have h2 := hs.number_next h
    have h3 := hs.number_step h
    refine ⟨by simp [G.fit], fun _ _ => h2, fun _ x hx => h1 x (solid_convertNumber n x (by simpa using hx)), fun _ => h2, ?_⟩
    simp only [nestL_cons, nestL_nil, and_true]
    refine nest_convertNumber fun e he => ?_
    have := hs.inside _ (List.mem_of_getElem? h3.1) e he
    simp only [Token.extent] at this
    omega
  | simpleNumber =>
    rintro - a p q vs ⟨hb, n, e, h, h1, rfl⟩
    have h2 := hs.number_next h
    have h3 : e ∈ allExtents (.number n) := by
      unfold Number.intoSimple at h1
      split at h1 <;> simp at h1
      obtain ⟨-, rfl⟩ := h1; simp [allExtents]
    have h4 := hs.number_end hb h e h3
    exact ⟨by simp [G.fit], fun _ _ => h2, fun _ => by simpa using h4, fun _ => h2, by simp⟩
  | r n => rintro - a p q vs ⟨-, h⟩; exact hg n a p q vs h
  | seq x y ihx ihy =>
    rintro hf a p q vs ⟨m, v, w, h1, h2, rfl⟩
    simp only [G.firm, Bool.and_eq_true] at hf
    have b1 := den_btw _ _ _ _ _ h1
    have b2 := den_btw _ _ _ _ _ h2
    have h3 := Good.seq hs b1 b2 (ihx hf.1.1 _ _ _ _ h1) (ihy hf.1.2 _ _ _ _ h2) (den_within hs hw x hf.2 _ _ _ _ h1)
    refine ⟨h3.none, h3.more, h3.tight, ?_, h3.nest⟩
    simp only [G.fit, Bool.or_eq_true, Bool.and_eq_true]
    rintro (h | ⟨h, h'⟩)
    · exact h3.adv h
    · obtain ⟨m1, e1, c1, c2, c3⟩ := den_opens x h _ _ _ _ h1
      obtain ⟨m2, e2, d1, d2, d3⟩ := den_closes y h' _ _ _ _ h2
      exact angles c2 c1 (c3.trans d1) d3 d2
  | alt x y ihx ihy =>
    intro hf a p q vs h
    simp only [G.firm, Bool.and_eq_true] at hf
    exact h.elim (fun h => (ihx hf.1 _ _ _ _ h).joinl) (fun h => (ihy hf.2 _ _ _ _ h).joinr)
  | opt x ih =>
    rintro hf a p q vs (⟨v, h, rfl⟩ | ⟨-, -, rfl⟩)
    · have h1 := ih hf _ _ _ _ h
      exact (Good.mk h1.none h1.more h1.tight (by simp) h1.nest : Good toks ⟨_, false⟩ p q v).sub (by simp) (by simpa using h1.nest)
    · exact Good.nil.sub (by simp) (by simp)
  | many x ih =>
    rintro hf a p q vs ⟨vss, h, rfl⟩
    have h1 := Good.star hs (fun _ _ _ h => den_btw _ _ _ _ _ h) (fun _ _ _ h => ih hf _ _ _ _ h) h
    exact h1.sub (by simp) (by simpa using h1.nest)
  | tailed k s x _ ih =>
    rintro hf a p q vs ⟨t, h, rfl⟩
    have hb := h.btw (fun _ _ ⟨_, h⟩ => den_btw _ _ _ _ _ h) (fun _ _ _ h => den_btw _ _ _ _ _ h)
    have h1 := Good.tailR hs (fun _ _ ⟨_, h⟩ => den_btw _ _ _ _ _ h) (fun _ _ _ h => den_btw _ _ _ _ _ h)
      (fun _ _ _ h => ih hf _ _ _ _ h) h (.refl hb.1) .nil
    exact h1.sub (k.out_solid t).1 ((k.out_solid t).2 h1.nest)
  | tailed1Values s x _ ih =>
    rintro hf a p q vs ⟨t, h, rfl⟩
    obtain ⟨h1, h2⟩ := Good.tailR1 hs (fun _ _ ⟨_, h⟩ => den_btw _ _ _ _ _ h) (fun _ _ _ h => den_btw _ _ _ _ _ h)
      (fun _ _ _ h => ih hf _ _ _ _ h) h
    have h3 : Good toks (G.fit NT.fit (.tailed1Values s x)) p q t.values.flatten := ⟨h1.none, h1.more, h1.tight, h2, h1.nest⟩
    exact h3.sub (TailK.out_solid .values t).1 ((TailK.out_solid .values t).2 h1.nest)
  | resume s x _ ih =>
    rintro hf a p q vs (⟨-, rfl⟩ | ⟨m, w, t, h1, h, rfl⟩)
    · exact Good.nil.sub (by simp) (by simp)
    · obtain ⟨h2, -⟩ := Good.tailR1 hs (fun _ _ ⟨_, h⟩ => den_btw _ _ _ _ _ h) (fun _ _ _ h => den_btw _ _ _ _ _ h)
        (fun _ _ _ h => ih hf _ _ _ _ h) h
      have b1 := den_btw _ _ _ _ _ h1
      have b2 := h.btw (fun _ _ ⟨_, h⟩ => den_btw _ _ _ _ _ h) (fun _ _ _ h => den_btw _ _ _ _ _ h)
      have h3 := Good.cat (a := (x.fit NT.fit).elems) (v := []) hs b1 b2 .nil h2
      rw [Fit.elems_elems] at h3
      exact h3.sub (by simp) (by simpa using h2.nest)
  | implTailed k i s x _ ih =>
    rintro hf a p q vs ⟨t, h, rfl⟩
    have hb := h.btw (fun _ _ ⟨_, h⟩ => den_btw _ _ _ _ _ h) (fun _ _ _ h => den_btw _ _ _ _ _ h)
    have h1 := Good.implR hs (fun _ _ ⟨_, h⟩ => den_btw _ _ _ _ _ h) (fun _ _ _ h => den_btw _ _ _ _ _ h)
      (fun _ _ _ h => ih hf _ _ _ _ h) h (.refl hb.1) .nil
    exact h1.sub (k.out_solid t).1 ((k.out_solid t).2 h1.nest)
  | nested o c =>
    rintro - a p q vs ⟨m, e0, e, h1, -, h2, -, he, rfl⟩
    exact ⟨by simp [G.fit], by simp [G.fit], by simp [G.fit], by simp [G.fit], by simp⟩
  | ext x ih =>
    rintro hf a p q vs ⟨v, e, h, he, rfl⟩
    exact .span hs (den_btw _ _ _ _ _ h) he (ih hf _ _ _ _ h).adv (by simp)
  | drop x ih =>
    rintro hf a p q vs ⟨v, h, rfl⟩
    exact ⟨by simp, by simp, by simp, (ih hf _ _ _ _ h).adv, by simp⟩
  | map f x ih =>
    rintro hf a p q vs ⟨v, h, rfl⟩
    simp only [G.firm, Bool.and_eq_true] at hf
    have h1 := ih hf.1 _ _ _ _ h
    have h2 := hf.2
    split at h2
    · next hfv =>
      subst hfv
      have hx : ∃ y, x = .seq (.build .span (.r .ident)) y := by
        unfold G.named at h2
        split at h2
        · exact ⟨_, rfl⟩
        · cases h2
      obtain ⟨y, rfl⟩ := hx
      obtain ⟨m, v1, w, ⟨v', e', ⟨-, h4⟩, he', rfl⟩, h6, rfl⟩ := h
      have b1 := den_btw _ _ _ _ _ h6
      have h7 := hg _ _ _ _ _ h4
      have h8 := hw _ _ _ _ _ h4
      have h9 := ex_end he'
      have h10 : e'.s = p.pos toks := by
        unfold ex at he'
        split at he'
        · cases he'
        · next t ht' =>
          rw [Pt.pos_eq ht']
          dsimp only at he'
          repeat' split at he'
          all_goals (cases he'; try rfl)
      have h11 : ∀ x ∈ solidL v', e'.s ≤ x.s ∧ x.e ≤ e'.e := by
        intro x hx
        have := h7.tight (by decide) x hx
        have := h8 x (solidL_sub hx)
        omega
      refine h1.sub ?_ ?_
      · exact fieldValue_solid _
      · have hn := h1.nest
        generalize hvs : Mk.app .span e' v' ++ w = vs at hn
        unfold Fn.app
        split <;> try (rename_i heq; cases heq; done)
        · simp at hn ⊢; exact hn
        · obtain ⟨v2, rfl, -⟩ := hasS_one (ht _ _ _ _ _ h4)
          simp [Mk.app] at hvs
          obtain ⟨rfl, rfl, rfl⟩ := hvs
          simp at h11
          simp [mkPathedIdent, intoExpr, NodeOk] at hn ⊢
          grind
        · exact hn
    · split at h2
      · next ss hss =>
        have h3 := Fn.app_solid h2 (den_sty ht x ss hss _ _ _ _ h) h1.nest
        exact h1.sub h3.1 h3.2
      · cases h2
  | build m x ih =>
    rintro hf a p q vs ⟨v, e, h, he, rfl⟩
    simp only [G.firm, Bool.and_eq_true, decide_eq_true_eq] at hf
    have hb := den_btw _ _ _ _ _ h
    have h1 := ih hf.1.1.1 _ _ _ _ h
    have h2 := Good.build (mk := m) hs hb he h1 (den_within hs hw x hf.1.1.2 _ _ _ _ h) hf.1.2
    have h3 := hf.2
    simp only [G.fit]
    split
    · next hm =>
      obtain ⟨rfl, hm⟩ := hm
      rw [if_pos rfl, decide_eq_true_eq] at h3
      obtain ⟨w, rfl, hv⟩ := hasS_one (den_sty ht x _ h3 _ _ _ _ h)
      rw [STy.has_ty] at hv
      obtain ⟨xs, rfl, hxs⟩ := hasTy_vec hv
      refine ⟨by simp, fun _ hne => ?_, fun _ => h2.tight ?_, h1.adv, h2.nest⟩
      · refine h1.more hm ?_
        cases xs with
        | nil => simp [Mk.app, solid_node_eq, V.hollow] at hne
        | cons y ys =>
          have := bound_solid (allTy_mem.mp hxs y (by simp))
          simp [this]
      · unfold Fit.span; split <;> (try split) <;> simp_all
    · exact h2
  | nodeEmpty k x ih =>
    rintro hf a p q vs ⟨v, e, h, he, rfl⟩
    simp only [G.firm, Bool.and_eq_true, decide_eq_true_eq, Bool.or_eq_true, beq_iff_eq] at hf
    have hb := den_btw _ _ _ _ _ h
    have h1 := ih hf.1.1 _ _ _ _ h
    have h2 := ex_end he
    have h3 : endOf toks p p ≤ endOf toks p q := hs.endOf_left (.refl hb.1) hb
    have h4 : nestL [V.node k e [] v] := by
      simp only [nestL_cons, nest_node, nestL_nil, and_true]
      exact ⟨hf.2.elim .inl (fun h => .inr (.inl h)), h1.nest⟩
    have h5 : ∀ x ∈ solidL [V.node k e [] v], x.e ≤ endOf toks p q := by
      intro x hx
      simp only [solidL_cons, solidL_nil, List.append_nil] at hx
      rcases solid_node_sub hx with rfl | hx
      · omega
      · exact h1.tight hf.1.2 x hx
    simp only [G.fit, Fit.span]
    rw [if_pos hf.1.2]
    split
    · next h => exact ⟨by simp, fun _ _ => h1.adv h, fun _ => h5, fun _ => h1.adv h, h4⟩
    · exact ⟨by simp, by simp, fun _ => h5, by simp, h4⟩
  | mapErr e x ih => intro hf a p q vs h; exact ih hf _ _ _ _ h
  | peek x ih =>
    rintro hf a p q vs ⟨-, -, m, h⟩
    exact ⟨by simp [G.fit], by simp [G.fit], by simp [G.fit], by simp [G.fit], (ih hf _ _ _ _ h).nest⟩
  | amb l x ih => intro hf a p q vs h; exact ih hf _ _ _ _ h
  | ifAmbiguous x y ihx ihy =>
    intro hf a p q vs h
    simp only [G.firm, Bool.and_eq_true] at hf
    simp only [den] at h
    split at h
    · exact (ihx hf.1 _ _ _ _ h).joinl
    · exact (ihy hf.2 _ _ _ _ h).joinr
  | notMaximum x ih => rintro hf a p q vs ⟨-, h⟩; exact ih hf _ _ _ _ h

end
end Verif

namespace Verif
open Spec

/-! ## Expressions -/

/-- The operators of a table fit. -/
def fitTable {α : Type} (adv : α → Bool) (t : (α × G) × List (α × G)) : Bool :=
  (t.1 :: t.2).all fun x => x.2.firm NT.fit && (x.2.fit NT.fit).le ⟨1, adv x.1⟩

theorem prefixTable_fit : fitTable PrefixOp.isRange prefixTable = true := by decide +kernel
theorem infixTable_fit : fitTable (fun _ => false) infixTable = true := by decide +kernel
theorem postfixTable_fit : fitTable (fun _ => false) postfixTable = true := by decide +kernel
theorem limitedTable_fit : fitTable (fun _ => false) limitedTable = true := by decide +kernel

section
variable {code : Text} {toks : List Token} {Φ : NT → Rel}

theorem postfix_good (hs : Src code toks) {p q : Pt} {v : V} {op : PostfixOp} {payload : List V} {e : Extent} (hb : Btw toks p q)
    (he : ex toks p q = some e) (hv : Good toks ⟨1, true⟩ p q (v :: payload)) (hw : Within toks p q (v :: payload)) :
    Good toks ⟨1, true⟩ p q [op.mk payload e v] := by
  have h1 := ex_end he
  have h2 := (hs.ex_range hb he).1
  have h3 := op.mk_solid payload e v
  have hn := hv.nest
  simp only [nestL_cons] at hn
  have h4 : ∀ x ∈ solidL payload ++ v.solid, e.s ≤ x.s ∧ x.e ≤ e.e := by
    intro x hx
    have hx' : x ∈ solidL (v :: payload) := by simp at hx ⊢; exact hx.symm
    have := hv.tight (by simp) x hx'
    have := hw x (solidL_sub hx')
    omega
  refine ⟨by simp, fun _ _ => hv.adv rfl, fun _ x hx => ?_, fun _ => hv.adv rfl, by simpa using h3.2 h4 hn.2 hn.1⟩
  rcases h3.1 x (by simpa using hx) with rfl | hx | hx
  · omega
  · have := h4 x (by simp [hx]); omega
  · have := h4 x (by simp [hx]); omega

theorem infix_good (hs : Src code toks) {p q : Pt} {l : V} {o : Option V} {op : InfixOp} {payload : List V} {e : Extent}
    (hb : Btw toks p q) (he : ex toks p q = some e) (hv : Good toks ⟨1, true⟩ p q (l :: payload ++ o.toList))
    (hw : Within toks p q (l :: payload ++ o.toList)) : Good toks ⟨1, true⟩ p q [op.mk payload e l o] := by
  have h1 := ex_end he
  have h2 := (hs.ex_range hb he).1
  have h3 := op.mk_solid payload e l o
  have hn := hv.nest
  simp only [nestL_cons, nestL_append, List.cons_append] at hn
  have h4 : ∀ x ∈ solidL payload ++ l.solid ++ solidL o.toList, e.s ≤ x.s ∧ x.e ≤ e.e := by
    intro x hx
    have hx' : x ∈ solidL (l :: payload ++ o.toList) := by simp at hx ⊢; grind
    have := hv.tight (by simp) x hx'
    have := hw x (solidL_sub hx')
    omega
  refine ⟨by simp, fun _ _ => hv.adv rfl, fun _ x hx => ?_, fun _ => hv.adv rfl,
    by simpa using h3.2 h4 hn.2.1 hn.1 hn.2.2⟩
  rcases h3.1 x (by simpa using hx) with rfl | hx | hx | hx
  · omega
  all_goals have := h4 x (by simp [hx]); omega

theorem prefix_good (hs : Src code toks) {p q : Pt} {s : Nat} {attrs : List V} {o : Option V} {op : PrefixOp} {payload : List V}
    {e : Extent} (hb : Btw toks p q) (he : ex toks p q = some e) (hp : s = p.pos toks)
    (hv : Good toks ⟨1, true⟩ p q (attrs ++ payload ++ o.toList)) (hw : Within toks p q (attrs ++ payload ++ o.toList)) :
    Good toks ⟨1, true⟩ p q [mkAttributed ⟨s, e.e⟩ attrs (op.mk payload e o)] := by
  have h1 := ex_end he
  have h2 := (hs.ex_range hb he)
  have h3 := op.mk_solid payload e o
  have hn := hv.nest
  simp only [nestL_append] at hn
  have h4 : ∀ x ∈ solidL attrs ++ solidL payload ++ solidL o.toList, e.s ≤ x.s ∧ x.e ≤ e.e := by
    intro x hx
    have hx' : x ∈ solidL (attrs ++ payload ++ o.toList) := by simpa using hx
    have := hv.tight (by simp) x hx'
    have := hw x (solidL_sub hx')
    omega
  have h5 : ∀ x ∈ solidL attrs ++ (op.mk payload e o).solid, s ≤ x.s ∧ x.e ≤ e.e := by
    intro x hx
    simp only [List.mem_append] at hx
    rcases hx with hx | hx
    · have := h4 x (by simp [hx]); omega
    · rcases h3.1 x hx with rfl | hx | hx
      · omega
      all_goals have := h4 x (by simp [hx]); omega
  refine ⟨by simp, fun _ _ => hv.adv rfl, fun _ x hx => ?_, fun _ => hv.adv rfl, ?_⟩
  · simp only [solidL_cons, solid_mkAttributed, solidL_nil, List.append_nil, List.mem_cons] at hx
    rcases hx with rfl | hx
    · simp only; omega
    · have := h5 x hx; omega
  · simp only [nestL_cons, nest_mkAttributed, nestL_nil, and_true]
    exact ⟨h5, hn.1.1, h3.2 (fun x hx => h4 x (by simp at hx ⊢; grind)) hn.1.2 hn.2⟩

variable (hs : Src code toks) (hw : ∀ nt am p q vs, Φ nt am p q vs → Within toks p q vs)
  (ht : ∀ nt am p q vs, Φ nt am p q vs → hasS vs nt.sty = true)
  (hg : ∀ nt am p q vs, Φ nt am p q vs → Good toks nt.fit p q vs)
include hs hw ht hg

theorem TableR.good {α : Type} {adv : α → Bool} {t : (α × G) × List (α × G)} (hf : fitTable adv t = true)
    {am p q op payload} (h : TableR toks Φ t am p q op payload) : Good toks ⟨1, adv op⟩ p q payload := by
  obtain ⟨g, hg', h⟩ := h
  have := List.all_eq_true.mp hf _ hg'
  simp only [Bool.and_eq_true] at this
  exact (den_good hs hw ht hg g this.1 _ _ _ _ h).mono this.2

theorem AttrR.good {R : Pt → Pt → Prop} {am p q e attrs} (h : AttrR toks Φ R am p q e attrs) :
    ∃ m, Btw toks p m ∧ R m q ∧ Good toks ⟨1, false⟩ p m attrs ∧ Within toks p m attrs := by
  obtain ⟨m, vss, h, hR, -, rfl⟩ := h
  have h1 : ∀ p q v, den toks Φ (.r .attribute) am p q v → Good toks ⟨1, true⟩ p q v := fun _ _ _ ⟨_, h⟩ => hg _ _ _ _ _ h
  have h2 : ∀ p q v, den toks Φ (.r .attribute) am p q v → Within toks p q v := fun _ _ _ ⟨_, h⟩ => hw _ _ _ _ _ h
  exact ⟨m, h.btw (fun _ _ _ h => den_btw _ _ _ _ _ h), hR, Good.star hs (fun _ _ _ h => den_btw _ _ _ _ _ h) h1 h,
    Within.star hs (fun _ _ _ h => den_btw _ _ _ _ _ h) h2 h⟩

theorem AtomR.good {am p q v} (h : AtomR toks Φ am p q v) : Good toks ⟨1, true⟩ p q [v] := by
  obtain ⟨e, attrs, vs, h, rfl⟩ := h
  obtain ⟨m, b1, ⟨b2, h2⟩, h3, h4⟩ := AttrR.good hs hw ht hg h
  have he : ex toks p q = some e := h.choose_spec.choose_spec.2.2.1
  have h5 := Good.seq hs b1 b2 h3 (hg _ _ _ _ _ h2) h4
  have h6 := Within.seq hs b1 b2 h4 (hw _ _ _ _ _ h2)
  have hn := nestL_append.mp h5.nest
  exact Good.build (a := ⟨1, true⟩) (mk := .node .AttributedExpression) (v := .list attrs :: vs) hs (b1.trans b2) he
    (h5.sub (by simp) (by simpa using hn)) (h6.sub (by simp)) (by simp)

theorem PrefixR.good {am p q e attrs op payload} (h : PrefixR toks Φ am p q e attrs op payload) :
    Good toks ⟨1, op.isRange⟩ p q (attrs ++ payload) ∧ Within toks p q (attrs ++ payload) := by
  obtain ⟨m, b1, h2, h3, h4⟩ := AttrR.good hs hw ht hg h
  have h5 := Good.seq hs b1 h2.btw h3 (TableR.good hs hw ht hg prefixTable_fit h2) h4
  refine ⟨h5.mono ?_, Within.seq hs b1 h2.btw h4 (TableR.within hs hw tables_peekFree.1 h2)⟩
  cases op.isRange <;> rfl

theorem OperandR.good {a am p q v} (h : OperandR toks Φ a am p q v) : Good toks ⟨1, true⟩ p q [v] := by
  induction h with
  | atom h => exact AtomR.good hs hw ht hg h
  | pre h h' he ih =>
    obtain ⟨h1, h2⟩ := PrefixR.good hs hw ht hg h
    exact prefix_good hs (h.btw.trans h'.btw) he (PrefixR.within hs hw h).1
      (o := some _) (Good.seq hs h.btw h'.btw h1 ih h2) (Within.seq hs h.btw h'.btw h2 (OperandR.within hs hw h'))

theorem OpenRangeR.good {a p q v} (h : OpenRangeR toks Φ a p q v) : Good toks ⟨1, true⟩ p q [v] := by
  induction h with
  | last h hr he =>
    obtain ⟨h1, h2⟩ := PrefixR.good hs hw ht hg h
    rw [hr] at h1
    exact prefix_good hs h.btw he (PrefixR.within hs hw h).1 (o := none) (by simpa using h1) (by simpa using h2)
  | pre h h' he ih =>
    obtain ⟨h1, h2⟩ := PrefixR.good hs hw ht hg h
    exact prefix_good hs (h.btw.trans h'.btw) he (PrefixR.within hs hw h).1
      (o := some _) (Good.seq hs h.btw h'.btw h1 ih h2) (Within.seq hs h.btw h'.btw h2 (OpenRangeR.within hs hw h'))

theorem LeftR.good {stmt a p q v} (h : LeftR toks Φ stmt a p q v) : Good toks ⟨1, true⟩ p q [v] := by
  induction h with
  | operand h => exact OperandR.good hs hw ht hg h
  | post h _ h' he ih =>
    have h1 := LeftR.within hs hw h
    exact postfix_good hs (h.btw.trans h'.btw) he
      (Good.seq hs h.btw h'.btw ih (TableR.good hs hw ht hg postfixTable_fit h') h1)
      (Within.seq hs h.btw h'.btw h1 (TableR.within hs hw tables_peekFree.2.2.1 h'))
  | limited h h' he ih =>
    have h1 := LeftR.within hs hw h
    exact postfix_good hs (h.btw.trans h'.btw) he
      (Good.seq hs h.btw h'.btw ih (TableR.good hs hw ht hg limitedTable_fit h') h1)
      (Within.seq hs h.btw h'.btw h1 (TableR.within hs hw tables_peekFree.2.2.2 h'))
  | «infix» h _ h' h'' he ih =>
    have h1 := LeftR.within hs hw h
    have h2 := Within.seq hs h.btw h'.btw h1 (TableR.within hs hw tables_peekFree.2.1 h')
    have h3 := Good.seq hs h.btw h'.btw ih (TableR.good hs hw ht hg infixTable_fit h') h1
    exact infix_good hs (h.btw.trans (h'.btw.trans h''.btw)) he (o := some _)
      (Good.seq hs (h.btw.trans h'.btw) h''.btw h3 (OperandR.good hs hw ht hg h'') h2)
      (Within.seq hs (h.btw.trans h'.btw) h''.btw h2 (OperandR.within hs hw h''))

theorem ExprR.good {stmt a p q v} (h : ExprR toks Φ stmt a p q v) : Good toks ⟨1, true⟩ p q [v] := by
  cases h with
  | left h => exact LeftR.good hs hw ht hg h
  | openInfix h _ h' hr he =>
    have h1 := LeftR.within hs hw h
    have h2 := Within.seq hs h.btw h'.btw h1 (TableR.within hs hw tables_peekFree.2.1 h')
    have h3 := Good.seq hs h.btw h'.btw (LeftR.good hs hw ht hg h) (TableR.good hs hw ht hg infixTable_fit h') h1
    exact infix_good hs (h.btw.trans h'.btw) he (o := none) (by rw [Option.toList_none, List.append_nil]; exact h3)
      (by simpa using h2)
  | openPrefix h => exact OpenRangeR.good hs hw ht hg h

theorem denRule_good (nt : NT) (a : Amb) (p q : Pt) (vs : List V) (h : denRule toks Φ (rules nt) a p q vs) :
    Good toks nt.fit p q vs := by
  have hf := rules_fit nt
  generalize rules nt = r at h hf
  cases r with
  | g g =>
    simp only [Bool.and_eq_true] at hf
    exact (den_good hs hw ht hg g hf.1 _ _ _ _ h).mono hf.2
  | expr stmt =>
    simp only [decide_eq_true_eq] at hf
    rw [hf]
    obtain ⟨v, -, h, rfl⟩ := h
    exact ExprR.good hs hw ht hg h

end

/-- What is known of the values of a nonterminal. -/
def Fits (toks : List Token) (nt : NT) (am : Amb) (p q : Pt) (vs : List V) : Prop :=
  Base toks nt am p q vs ∧ Good toks nt.fit p q vs

theorem fits_inductive {code : Text} {toks : List Token} (hs : Src code toks) : Inductive toks (Fits toks) :=
  fun nt _ _ _ _ hb h =>
    ⟨base_inductive hs nt _ _ _ _ hb (denRule_mono (Known.mono fun _ _ _ _ _ h => h.1) _ h),
     denRule_good hs (fun _ _ _ _ _ h => h.2.2.1.1) (fun _ _ _ _ _ h => h.2.2.1.2) (fun _ _ _ _ _ h => h.2.2.2) nt _ _ _ _ h⟩

theorem itemG_firm : itemG.firm NT.fit = true := by decide +kernel

theorem ItemsR.nest {code : Text} {toks : List Token} (hs : Src code toks) {a p q vs}
    (h : ItemsR toks (Full toks (Fits toks)) a p q vs) : nestL vs := by
  induction h with
  | nil => simp
  | snoc _ _ _ h ih =>
    exact nestL_append.mpr ⟨ih, (den_good hs (fun _ _ _ _ _ h => h.2.2.2.1.1.1) (fun _ _ _ _ _ h => h.2.2.2.1.1.2)
      (fun _ _ _ _ _ h => h.2.2.2.1.2) itemG itemG_firm _ _ _ _ h).nest⟩

end Verif
