import Verif.Spec.Brackets
import Verif.Proofs.Fence
/-!
# Depths in a list of tokens whose brackets match
-/

namespace Verif
open Spec

/-- The tokens from `a` to `b` have matching brackets. -/
inductive BalSeg (toks : List Token) : Nat → Nat → Prop
  | nil {a} : BalSeg toks a a
  | plain {a b t} : toks[a]? = some t → t.isEOF = false → (∀ k, t.kind? = some k → k.opens = false ∧ k.closes = false) →
    BalSeg toks (a + 1) b → BalSeg toks a b
  | group {a m b o c k} : toks[a]? = some o → o.kind? = some k → k.opens = true → BalSeg toks (a + 1) m → toks[m]? = some c →
    c.kind? = some k.other → BalSeg toks (m + 1) b → BalSeg toks a b

theorem Spec.Matched.seg {A : List Token} (h : Matched A) : ∀ pre post, (∀ t ∈ A, t.isEOF = false) →
    BalSeg (pre ++ A ++ post) pre.length (pre.length + A.length) := by
  induction h with
  | nil => intro pre post _; exact .nil
  | @plain t ts h1 _ ih =>
    intro pre post he
    have := ih (pre ++ [t]) post (fun u hu => he u (by simp [hu]))
    refine .plain (t := t) (by simp) (he t (by simp)) ?_ (by simpa [Nat.add_assoc, Nat.add_comm 1] using this)
    intro k hk
    cases k <;> simp [TK.opens, TK.closes] <;> exact (h1 _ (by simp) hk).elim
  | @group o c ko kc inner rest h1 h2 h3 _ _ ih1 ih2 =>
    intro pre post he
    have e1 := ih1 (pre ++ [o]) (c :: rest ++ post) (fun u hu => he u (by simp [hu]))
    have e2 := ih2 (pre ++ o :: inner ++ [c]) post (fun u hu => he u (by simp [hu]))
    simp only [List.append_assoc, List.length_append, List.length_cons, List.length_nil, List.cons_append, List.nil_append] at e1 e2 ⊢
    refine .group (k := ko) (o := o) (c := c) (m := pre.length + 1 + inner.length) (by simp) h1 (by cases h3 <;> rfl) ?_ ?_ ?_ ?_
    · simpa using e1
    · have : pre ++ o :: (inner ++ c :: (rest ++ post)) = (pre ++ o :: inner) ++ c :: (rest ++ post) := by simp
      rw [this, List.getElem?_append_right (by simp; omega)]
      simp [Nat.add_assoc, Nat.add_comm 1]
      show some c = some c
      rfl
    · rw [h2]; cases h3 <;> rfl
    · have e : pre.length + (inner.length + 1 + 1) = pre.length + 1 + inner.length + 1 := by omega
      have e' : pre.length + (inner.length + 1 + 1) + rest.length = pre.length + (inner.length + (rest.length + 1) + 1) := by omega
      simp only [Nat.zero_add] at e2
      rw [e', e] at e2
      exact e2

theorem nestedLen_cons (o c : Token → Bool) (d : Nat) (t : Token) (ts : List Token) : nestedLen o c d (t :: ts) =
    if t.isEOF then 0 else if o t then nestedLen o c (d + 1) ts + 1 else if c t then
      match d with
      | 0 => 0
      | d + 1 => nestedLen o c d ts + 1
    else nestedLen o c d ts + 1 := by
  cases d <;> rfl

section
variable {toks : List Token}

theorem depth_succ {n : Nat} {t : Token} (h : toks[n]? = some t) : depth toks (n + 1) = depth toks n + t.weight := by
  simp [depth, h]

theorem weight_none {t : Token} (h : ∀ k, t.kind? = some k → k.opens = false ∧ k.closes = false) : t.weight = 0 := by
  unfold Token.weight
  split
  · rename_i k hk; simp [h k hk]
  · rfl

theorem weight_open {t : Token} {k : TK} (h : t.kind? = some k) (hk : k.opens = true) : t.weight = 1 := by
  simp [Token.weight, h, hk]

theorem other_closes {k : TK} (hk : k.opens = true) : k.other.opens = false ∧ k.other.closes = true := by
  cases k <;> simp [TK.opens] at hk <;> exact ⟨rfl, rfl⟩

theorem other_inj {k k' : TK} (h : k.opens = true) (h' : k'.opens = true) (e : k.other = k'.other) : k = k' := by
  have c : ∀ k : TK, k.opens = true → k = .LeftParen ∨ k = .LeftSquare ∨ k = .LeftCurly := by
    intro k h; cases k <;> simp [TK.opens] at h ⊢
  rcases c k h with rfl | rfl | rfl <;> rcases c k' h' with rfl | rfl | rfl <;> first | rfl | cases e

theorem weight_close {t : Token} {k : TK} (h : t.kind? = some k) (hk : k.closes = true) : t.weight = -1 := by
  have : k.opens = false := by cases k <;> simp [TK.closes] at hk <;> rfl
  simp [Token.weight, h, hk, this]

theorem BalSeg.le {a b : Nat} (h : BalSeg toks a b) : a ≤ b := by
  induction h <;> omega

theorem BalSeg.depth {a b : Nat} (h : BalSeg toks a b) : depth toks b = depth toks a ∧ ∀ x, a ≤ x → x ≤ b → depth toks a ≤ depth toks x := by
  induction h with
  | nil => exact ⟨rfl, fun x h1 h2 => by rw [Nat.le_antisymm h2 h1]; exact Int.le_refl _⟩
  | @plain a b t h1 _ h2 h3 ih =>
    have h4 := depth_succ h1
    rw [weight_none h2] at h4
    refine ⟨by omega, fun x h5 h6 => ?_⟩
    rcases Nat.lt_or_eq_of_le h5 with h7 | rfl
    · have := ih.2 x h7 h6; omega
    · exact Int.le_refl _
  | @group a m b o c k h1 h2 h3 h4 h5 h6 h7 ih1 ih2 =>
    have e1 := depth_succ h1
    have e2 := depth_succ h5
    rw [weight_open h2 h3] at e1
    rw [weight_close h6 (other_closes h3).2] at e2
    have := ih1.1
    refine ⟨by have := ih2.1; omega, fun x h8 h9 => ?_⟩
    rcases Nat.lt_or_ge m x with h10 | h10
    · have := ih2.2 x h10 h9; have := ih2.1; omega
    · rcases Nat.lt_or_eq_of_le h8 with h11 | rfl
      · have := ih1.2 x h11 h10; omega
      · exact Int.le_refl _

theorem drop_cons {n : Nat} {t : Token} (h : toks[n]? = some t) : toks.drop n = t :: toks.drop (n + 1) := by
  obtain ⟨h1, rfl⟩ := List.getElem?_eq_some_iff.mp h
  exact List.drop_eq_getElem_cons h1

theorem notEOF {t : Token} {k : TK} (h : t.kind? = some k) (hk : k ≠ .EndOfFile) : t.isEOF = false := by
  cases t with
  | plain k' e => simp [Token.kind?] at h; subst h; cases k' <;> first | rfl | exact absurd rfl hk
  | number => rfl

theorem isTK_false {t : Token} {k k' : TK} (h : t.kind? = some k) (hk : k ≠ k') : isTK k' t = false := by
  simp [isTK, h, hk]

theorem BalSeg.nested {a b : Nat} (h : BalSeg toks a b) {k' : TK} (hk' : k'.opens = true) : ∀ d,
    nestedLen (isTK k') (isTK k'.other) d (toks.drop a) = (b - a) + nestedLen (isTK k') (isTK k'.other) d (toks.drop b) := by
  induction h with
  | nil => intro d; simp
  | @plain a b t h1 he h2 h3 ih =>
    intro d
    have hle := h3.le
    rw [drop_cons h1, nestedLen_cons]
    have n1 : isTK k' t = false := by
      cases hk : t.kind? with
      | none => simp [isTK, hk]
      | some k => exact isTK_false hk (by rintro rfl; have := (h2 _ hk).1; rw [hk'] at this; cases this)
    have n2 : isTK k'.other t = false := by
      cases hk : t.kind? with
      | none => simp [isTK, hk]
      | some k => exact isTK_false hk (by rintro rfl; have := (h2 _ hk).2; rw [(other_closes hk').2] at this; cases this)
    rw [he, n1, n2]
    simp only [Bool.false_eq_true, if_false]
    rw [ih d]; omega
  | @group a m b o c k h1 h2 h3 h4 h5 h6 h7 ih1 ih2 =>
    intro d
    have l1 := h4.le
    have l2 := h7.le
    have eo := notEOF h2 (by rintro rfl; cases h3)
    have ec := notEOF h6 (by intro e; have := (other_closes h3).2; rw [e] at this; cases this)
    rw [drop_cons h1, nestedLen_cons, eo]
    by_cases e : k = k'
    · subst e
      have n1 : isTK k o = true := by simp [isTK, h2]
      have n2 : isTK k c = false := isTK_false h6 (by intro e; have := (other_closes h3).1; rw [e, h3] at this; cases this)
      have n3 : isTK k.other c = true := by simp [isTK, h6]
      rw [n1]
      simp only [Bool.false_eq_true, if_false, if_true]
      rw [ih1 (d + 1), drop_cons h5, nestedLen_cons, ec, n2, n3]
      simp only [Bool.false_eq_true, if_false, if_true]
      rw [ih2 d]; omega
    · have n1 : isTK k' o = false := isTK_false h2 e
      have n2 : isTK k'.other o = false := isTK_false h2 (by
        rintro rfl; rw [(other_closes hk').1] at h3; cases h3)
      have n3 : isTK k' c = false := isTK_false h6 (by
        rintro rfl; rw [(other_closes h3).1] at hk'; cases hk')
      have n4 : isTK k'.other c = false := isTK_false h6 (by
        intro e'; exact e (other_inj h3 hk' e'))
      rw [n1, n2]
      simp only [Bool.false_eq_true, if_false]
      rw [ih1 d, drop_cons h5, nestedLen_cons, ec, n3, n4]
      simp only [Bool.false_eq_true, if_false]
      rw [ih2 d]; omega

theorem BalSeg.shut {a m : Nat} {o c : Token} {k : TK} (h1 : toks[a]? = some o) (h2 : o.kind? = some k) (h3 : k.opens = true)
    (h : BalSeg toks (a + 1) m) (h5 : toks[m]? = some c) (h6 : c.kind? = some k.other) : Shut toks k a m := by
  have e1 := depth_succ h1
  rw [weight_open h2 h3] at e1
  refine ⟨h.le, ⟨c, h5, h6⟩, fun x hx hx' => ?_, ?_, ?_⟩
  · have := h.depth.2 x hx hx'; omega
  · rw [h.depth.1, e1]
  · rw [h.nested h3, drop_cons h5, nestedLen_cons]
    have ec := notEOF h6 (by intro e; have := (other_closes h3).2; rw [e] at this; cases this)
    have n2 : isTK k c = false := isTK_false h6 (by intro e; have := (other_closes h3).1; rw [e, h3] at this; cases this)
    have n3 : isTK k.other c = true := by simp [isTK, h6]
    rw [ec, n2, n3]
    simp

theorem BalSeg.opens {a b : Nat} (h : BalSeg toks a b) : ∀ i t k, a ≤ i → i < b → toks[i]? = some t → t.kind? = some k → k.opens = true →
    ∃ m, m < b ∧ Shut toks k i m := by
  induction h with
  | nil => intros; omega
  | @plain a b t h1 he h2 h3 ih =>
    intro i u k hi hb hu hk ho
    rcases Nat.lt_or_eq_of_le hi with h4 | rfl
    · exact ih i u k h4 hb hu hk ho
    · rw [h1] at hu; cases hu; rw [(h2 k hk).1] at ho; cases ho
  | @group a m b o c k h1 h2 h3 h4 h5 h6 h7 ih1 ih2 =>
    intro i u k' hi hb hu hk ho
    have l2 := h7.le
    rcases Nat.lt_or_eq_of_le hi with h8 | rfl
    · rcases Nat.lt_trichotomy i m with h9 | rfl | h9
      · obtain ⟨x, hx, h⟩ := ih1 i u k' h8 h9 hu hk ho
        exact ⟨x, by omega, h⟩
      · rw [h5] at hu; cases hu; rw [h6] at hk; cases hk; rw [(other_closes h3).1] at ho; cases ho
      · exact ih2 i u k' h9 hb hu hk ho
    · rw [h1] at hu; cases hu; rw [h2] at hk; cases hk
      exact ⟨m, by omega, h4.shut h1 h2 h3 h5 h6⟩

theorem BalSeg.closes {a b : Nat} (h : BalSeg toks a b) : ∀ p t c, a ≤ p → p < b → toks[p]? = some t → t.kind? = some c → c.closes = true →
    ∃ j k u, j < p ∧ k.opens = true ∧ k.other = c ∧ toks[j]? = some u ∧ u.kind? = some k ∧ Shut toks k j p := by
  induction h with
  | nil => intros; omega
  | @plain a b t h1 he h2 h3 ih =>
    intro i u k hi hb hu hk ho
    rcases Nat.lt_or_eq_of_le hi with h4 | rfl
    · exact ih i u k h4 hb hu hk ho
    · rw [h1] at hu; cases hu; rw [(h2 k hk).2] at ho; cases ho
  | @group a m b o c k h1 h2 h3 h4 h5 h6 h7 ih1 ih2 =>
    intro i u k' hi hb hu hk ho
    have l1 := h4.le
    rcases Nat.lt_or_eq_of_le hi with h8 | rfl
    · rcases Nat.lt_trichotomy i m with h9 | rfl | h9
      · exact ih1 i u k' h8 h9 hu hk ho
      · rw [h5] at hu; cases hu; rw [h6] at hk; cases hk
        exact ⟨a, k, o, by omega, h3, rfl, h1, h2, h4.shut h1 h2 h3 h5 h6⟩
      · exact ih2 i u k' h9 hb hu hk ho
    · rw [h1] at hu; cases hu; rw [h2] at hk; cases hk
      cases k <;> simp [TK.opens, TK.closes] at h3 ho

end

/-- What is used of a list of tokens whose brackets match. -/
structure Ctx (toks : List Token) (N : Nat) : Prop where
  closed : AllClosed toks N
  opened : ∀ p t c, p < N → toks[p]? = some t → t.kind? = some c → c.closes = true →
    ∃ j k u, j < p ∧ k.opens = true ∧ k.other = c ∧ toks[j]? = some u ∧ u.kind? = some k ∧ Shut toks k j p
  eof : ∃ t, toks[N]? = some t ∧ t.kind? = some .EndOfFile
  tok : ∀ x, x < N → ∃ t, toks[x]? = some t ∧ t.kind? ≠ some .EndOfFile
  dN : depth toks N = 0
  d0 : ∀ x, x ≤ N → 0 ≤ depth toks x

theorem isEOF_kind {t : Token} (h : t.isEOF = true) : t.kind? = some .EndOfFile := by
  cases t with
  | plain k e => cases k <;> simp_all [Token.isEOF, Token.kind?]
  | number => simp [Token.isEOF] at h

theorem Ctx.of {A : List Token} {t : Token} (h : Matched A) (ht : t.isEOF = true) (hA : ∀ u ∈ A, u.isEOF = false) :
    Ctx (A ++ [t]) A.length := by
  have hs := h.seg [] [t] hA
  rw [List.nil_append, List.length_nil, Nat.zero_add] at hs
  refine ⟨fun i u k hi => hs.opens i u k (by omega) hi, fun p u c hp => hs.closes p u c (by omega) hp, ⟨t, by simp, isEOF_kind ht⟩,
    fun x hx => ?_, by rw [hs.depth.1]; rfl, fun x hx => ?_⟩
  · refine ⟨A[x], by rw [List.getElem?_append_left hx, List.getElem?_eq_getElem hx], fun e => ?_⟩
    have := hA A[x] (by simp)
    revert this e
    generalize A[x] = u
    cases u with
    | plain k e => cases k <;> simp [Token.isEOF, Token.kind?]
    | number => simp [Token.kind?]
  · exact hs.depth.2 x (by omega) hx

section
variable {toks : List Token} {N : Nat}

/-- Inside of brackets there is a way to the end of them only. -/
theorem Ctx.trapped (hc : Ctx toks N) {p : Nat} (hp : p ≤ N) (h : 0 < depth toks p) :
    ∃ k, Zone toks N 0 p k ∧ k < N ∧ 0 < depth toks k := by
  -- the first place from here where the depth falls below
  have main : ∀ n x, N - x = n → p ≤ x → x ≤ N → (∀ y, p ≤ y → y ≤ x → depth toks p ≤ depth toks y) → depth toks x = depth toks p →
      ∃ k, Zone toks N 0 p k ∧ k < N ∧ 0 < depth toks k := by
    intro n
    induction n using Nat.strongRecOn with
    | _ n ih =>
      intro x hn hpx hxN hy hx
      have hlt : x < N := by
        rcases Nat.lt_or_eq_of_le hxN with h1 | rfl
        · exact h1
        · rw [hc.dN] at hx; omega
      obtain ⟨t, ht, he⟩ := hc.tok x hlt
      have step : (∀ k, t.kind? = Option.some k → k.opens = false ∧ k.closes = false) → ∃ k, Zone toks N 0 p k ∧ k < N ∧ 0 < depth toks k := by
        intro hk
        have e := depth_succ ht
        rw [weight_none hk] at e
        refine ih (N - (x + 1)) (by omega) (x + 1) rfl (by omega) hlt ?_ (by omega)
        intro y h1 h2
        rcases Nat.lt_or_eq_of_le h2 with h3 | rfl
        · exact hy y h1 (by omega)
        · omega
      cases hk : t.kind? with
      | none => exact step (by rw [hk]; intro k h; cases h)
      | some k =>
        cases ho : k.opens with
        | true =>
          obtain ⟨m, hm, hs⟩ := hc.closed x t k hlt ht hk ho
          obtain ⟨u, hu, hku⟩ := hs.at'
          have e := depth_succ hu
          rw [weight_close hku (other_closes ho).2, hs.top] at e
          have := hs.lt
          refine ih (N - (m + 1)) (by omega) (m + 1) rfl (by omega) hm ?_ (by omega)
          intro y h1 h2
          rcases Nat.lt_or_ge x y with h3 | h3
          · rcases Nat.lt_or_eq_of_le h2 with h4 | rfl
            · have := hs.deep y h3 (by omega); omega
            · omega
          · exact hy y h1 h3
        | false =>
          cases hcl : k.closes with
          | true =>
            refine ⟨x, ⟨hpx, hxN, fun y h1 h2 => by rw [hx]; exact hy y h1 h2, t, k, ht, hk, ?_⟩, hlt, by omega⟩
            cases k <;> simp [TK.closes] at hcl <;> rfl
          | false => exact step (by rw [hk]; intro k' h; cases h; exact ⟨ho, hcl⟩)
  exact main _ p rfl (Nat.le_refl _) hp (fun y h1 h2 => by rw [Nat.le_antisymm h2 h1]; exact Int.le_refl _) rfl

/-- Where an item outside of all brackets ends. -/
theorem Ctx.fence (hc : Ctx toks N) {i : Nat} (hi : i ≤ N) (h0 : depth toks i = 0) {l : Nat} (hl : l = 1 ∨ l = 2) :
    ∃ s E, Fence toks N l i s E := by
  have main : ∀ n x, N - x = n → i ≤ x → x ≤ N → depth toks x = 0 →
      (∀ y, i ≤ y → y < x → depth toks y = depth toks i → ∀ t k, toks[y]? = some t → t.kind? = some k → k.wall l = false) →
      ∃ s E, Fence toks N l i s E := by
    intro n
    induction n using Nat.strongRecOn with
    | _ n ih =>
      intro x hn hix hxN hx hf
      have hd : ∀ y, i ≤ y → y ≤ x → depth toks x ≤ depth toks y := fun y h1 h2 => by rw [hx]; exact hc.d0 y (by omega)
      have ht : ∃ t, toks[x]? = some t := by
        rcases Nat.lt_or_eq_of_le hxN with h1 | rfl
        · obtain ⟨t, h, -⟩ := hc.tok x h1; exact ⟨t, h⟩
        · obtain ⟨t, h, -⟩ := hc.eof; exact ⟨t, h⟩
      obtain ⟨t, ht⟩ := ht
      by_cases hw : ∃ k, t.kind? = some k ∧ k.wall l = true
      · obtain ⟨k, hk, hw⟩ := hw
        have hz : Zone toks N l i x := ⟨hix, hxN, hd, t, k, ht, hk, hw⟩
        by_cases hcu : k = .LeftCurly
        · subst hcu
          have hlt : x < N := by
            rcases Nat.lt_or_eq_of_le hxN with h1 | rfl
            · exact h1
            · obtain ⟨u, h, hk'⟩ := hc.eof; rw [ht] at h; cases h; rw [hk] at hk'; cases hk'
          have h2 : l = 2 := by
            rcases hl with rfl | rfl
            · simp [TK.wall] at hw
            · rfl
          obtain ⟨m, hm, hs⟩ := hc.closed x t _ hlt ht hk rfl
          refine ⟨x, m + 1, hz, by rw [hx, h0], hf, .inl ⟨h2, t, m, ht, hk, hs, ?_, rfl⟩⟩
          refine ⟨hs.lt, by omega, fun y h3 h4 => by rw [hs.top]; exact hs.deep y h3 h4, ?_⟩
          obtain ⟨u, hu, hk'⟩ := hs.at'
          exact ⟨u, _, hu, hk', rfl⟩
        · exact ⟨x, x + 1, hz, by rw [hx, h0], hf, .inr ⟨⟨t, k, ht, hk, hcu⟩, rfl⟩⟩
      · have hw' : ∀ k, t.kind? = some k → k.wall l = false := fun k hk => by
          cases h : k.wall l with
          | false => rfl
          | true => exact (hw ⟨k, hk, h⟩).elim
        have hlt : x < N := by
          rcases Nat.lt_or_eq_of_le hxN with h1 | rfl
          · exact h1
          · obtain ⟨u, h, hk'⟩ := hc.eof; rw [ht] at h; cases h; exact (hw ⟨_, hk', rfl⟩).elim
        have hcl : ∀ k, t.kind? = some k → k.closes = false := fun k hk => by
          have := hw' k hk
          cases k <;> first | rfl | (simp [TK.wall] at this)
        have step : (∀ k, t.kind? = Option.some k → k.opens = false) → ∃ s E, Fence toks N l i s E := by
          intro hk
          have e := depth_succ ht
          rw [weight_none fun k h => ⟨hk k h, hcl k h⟩] at e
          refine ih (N - (x + 1)) (by omega) (x + 1) rfl (by omega) hlt (by omega) ?_
          intro y h1 h2 h3 u k hu hk'
          rcases Nat.lt_or_eq_of_le (Nat.lt_succ_iff.mp h2) with h4 | rfl
          · exact hf y h1 h4 h3 u k hu hk'
          · rw [ht] at hu; cases hu; exact hw' k hk'
        cases hk : t.kind? with
        | none => exact step (by rw [hk]; intro k h; cases h)
        | some k =>
          cases ho : k.opens with
          | false => exact step (by rw [hk]; intro k' h; cases h; exact ho)
          | true =>
            obtain ⟨m, hm, hs⟩ := hc.closed x t k hlt ht hk ho
            obtain ⟨u, hu, hku⟩ := hs.at'
            have e := depth_succ hu
            rw [weight_close hku (other_closes ho).2, hs.top] at e
            have := hs.lt
            refine ih (N - (m + 1)) (by omega) (m + 1) rfl (by omega) hm (by omega) ?_
            intro y h1 h2 h3 v k' hv hk'
            rcases Nat.lt_trichotomy y x with h4 | rfl | h4
            · exact hf y h1 h4 h3 v k' hv hk'
            · rw [ht] at hv; cases hv; exact hw' k' hk'
            · have := hs.deep y h4 (by omega); omega
  exact main _ i rfl (Nat.le_refl _) hi h0 (fun y h1 h2 => by omega)

/-- An item that ends outside of all brackets ends where it should. -/
theorem Ctx.fence_end (hc : Ctx toks N) {l i s E : Nat} (hf : Fence toks N l i s E) (h0 : depth toks i = 0) {q : Pt} (hq : Done toks l i E q)
    (hqN : q.off ≤ N) (hq0 : depth toks q.off = 0) (hl : l = 1 ∨ l = 2) : q.off = E := by
  obtain ⟨⟨h1, h2⟩, -, t, p, h3, h4, h5, h6⟩ := hq
  rw [h3] at h2 hq0 hqN ⊢
  have sN := hf.zone.leN
  have mid : (∃ m, l = 2 ∧ Shut toks .LeftCurly s m ∧ E = m + 1 ∧ ∃ u, toks[s]? = some u ∧ u.kind? = some .LeftCurly) ∨ E = s + 1 := by
    rcases hf.final with ⟨a, u, m, hu, hk, b, -, c⟩ | ⟨-, a⟩
    · exact .inl ⟨m, a, b, c, u, hu, hk⟩
    · exact .inr a
  have e := depth_succ h5
  rcases h6 with h6 | ⟨rfl, h6⟩
  · rw [weight_none (by rw [h6]; intro k h; cases h; exact ⟨rfl, rfl⟩)] at e
    have hps : s ≤ p := by
      rcases Nat.lt_or_ge p s with h7 | h7
      · have := hf.first p h4 h7 (by omega) t _ h5 h6
        rcases hl with rfl | rfl <;> simp [TK.wall] at this
      · exact h7
    rcases mid with ⟨m, -, hs, rfl, u, hu, hk⟩ | rfl
    · rcases Nat.lt_or_eq_of_le hps with h7 | rfl
      · have := hs.deep p h7 (by omega)
        have := hf.level
        omega
      · rw [h5] at hu; cases hu; rw [h6] at hk; cases hk
    · omega
  · rw [weight_close h6 rfl] at e
    rcases Nat.lt_or_ge p s with h7 | h7
    · obtain ⟨j, k, u, h8, h9, h10, h11, h12, h13⟩ := hc.opened p t _ (by omega) h5 h6 rfl
      have hk : k = .LeftCurly := by cases k <;> simp [TK.opens, TK.other] at h9 h10 ⊢
      subst hk
      have ht := h13.top
      have hij : i ≤ j := by
        rcases Nat.lt_or_ge j i with h14 | h14
        · have := h13.deep i h14 h4; omega
        · exact h14
      have := hf.first j hij (by omega) (by omega) u _ h11 h12
      simp [TK.wall] at this
    · rcases mid with ⟨m, -, hs, rfl, u, hu, hk⟩ | rfl
      · rcases Nat.lt_or_eq_of_le (Nat.lt_succ_iff.mp h2) with h8 | rfl
        · have := hs.deep (p + 1) (by omega) (by omega)
          have := hf.level
          omega
        · rfl
      · omega

/-- The first semicolon is not before the end of the item. -/
theorem Fence.le {i s E S F : Nat} (h : Fence toks N 2 i s E) (h' : Fence toks N 1 i S F) : E ≤ F ∧ F = S + 1 ∧
    ((∃ t, toks[s]? = some t ∧ t.kind? ≠ some .LeftCurly) → E = F) := by
  have hF : F = S + 1 := by
    rcases h'.final with ⟨h, -⟩ | ⟨-, h⟩
    · omega
    · exact h
  have hsS : s ≤ S := by
    rcases Nat.lt_or_ge S s with h1 | h1
    · obtain ⟨t, k, h2, h3, h4⟩ := h'.zone.wall
      have := h.first S h'.zone.le h1 h'.level t k h2 h3
      rw [TK.wall_mono (by omega) h4] at this; cases this
    · exact h1
  rcases h.final with ⟨-, t, m, ht, hk, hs, hz, rfl⟩ | ⟨⟨t, k, ht, hk, hne⟩, rfl⟩
  · refine ⟨?_, hF, ?_⟩
    · rw [hF]
      rcases Nat.lt_or_ge m S with h1 | h1
      · omega
      · exfalso
        rcases Nat.lt_or_eq_of_le hsS with h2 | rfl
        · have := hs.deep S h2 h1
          have := h.level; have := h'.level
          omega
        · obtain ⟨u, k, h2, h3, h4⟩ := h'.zone.wall
          rw [ht] at h2; cases h2; rw [hk] at h3; cases h3; simp [TK.wall] at h4
    · rintro ⟨u, hu, hne⟩; rw [ht] at hu; cases hu; exact absurd hk hne
  · refine ⟨by omega, hF, fun _ => ?_⟩
    rw [hF]
    rcases Nat.lt_or_eq_of_le hsS with h2 | rfl
    · obtain ⟨u, k', h3, h4, h5⟩ := h.zone.wall
      rw [ht] at h3; cases h3; rw [hk] at h4; cases h4
      have := h'.first s h.zone.le h2 h.level t k ht hk
      exfalso
      revert this h5 hne
      cases k <;> simp [TK.wall]
    · rfl

end

end Verif
