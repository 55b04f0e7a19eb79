import Verif.Proofs.ExcerptLex
/-!
# All the tokens of texts that are moved or joined

As in `Proofs/Join`, but with the whitespace and the comments.
-/

namespace Verif
open Verif.Spec

/-- The token of the white space in front of a text. -/
def leadTok (o : Nat) (l : Text) : List Token := if l = [] then [] else [.plain .Whitespace ⟨o, o + blen l⟩]

theorem spelled_behind_all {X : Xid} (hX : Sane X) {o : Nat} {ts : List Token} {s : Text} (h : Spelled X o ts s) :
    ∃ us, Spelled X (o + blen (s.takeWhile isWs)) us (s.dropWhile isWs) ∧ ts = leadTok o (s.takeWhile isWs) ++ us := by
  cases hw : s.takeWhile isWs with
  | nil =>
    have e := takeWhile_split isWs s
    rw [hw, List.nil_append] at e
    exact ⟨ts, by rw [← e]; simpa using h, rfl⟩
  | cons c w =>
    have h1 := ws_spelling X o (w := c :: w) (s.dropWhile isWs) (by simp) fun d hd => (isWs_mem d).mp (takeWhile_all d (hw ▸ hd))
    have h2 : (s.dropWhile isWs).takeWhile isWs = [] := by
      cases hd : s.dropWhile isWs with
      | nil => rfl
      | cons d r => simp [dropWhile_head hd]
    have h3 : (s.dropWhile isWs).dropWhile isWs = s.dropWhile isWs := by
      cases hd : s.dropWhile isWs with
      | nil => rfl
      | cons d r => simp [dropWhile_head hd]
    rw [h2, h3, List.append_nil] at h1
    have e := takeWhile_split isWs s
    rw [hw] at e
    rw [e] at h
    obtain ⟨us, rfl, h4⟩ := spelled_head hX h1 h
    exact ⟨us, h4, by simp [leadTok]⟩

theorem ws_takeWhile {w s : Text} (hw : ∀ c ∈ w, c ∈ wsChars) : (w ++ s).takeWhile isWs = w ++ s.takeWhile isWs ∧ (w ++ s).dropWhile isWs = s.dropWhile isWs := by
  induction w with
  | nil => exact ⟨rfl, rfl⟩
  | cons c w ih =>
    obtain ⟨h1, h2⟩ := ih fun d hd => hw d (by simp [hd])
    have hc : isWs c = true := (isWs_mem c).mpr (hw c (by simp))
    constructor
    · rw [List.cons_append, List.takeWhile_cons, if_pos hc, h1, List.cons_append]
    · rw [List.cons_append, List.dropWhile_cons, if_pos hc, h2]

/-- All the tokens of a text with white space in front. -/
theorem spelled_indent_all {X : Xid} (hX : Sane X) {o : Nat} {ts ts' : List Token} {w s : Text} (h : Spelled X o ts s) (hw : ∀ c ∈ w, c ∈ wsChars)
    (h' : Spelled X o ts' (w ++ s)) : ∃ us, Spelled X (o + blen (s.takeWhile isWs)) us (s.dropWhile isWs) ∧
      ts = leadTok o (s.takeWhile isWs) ++ us ∧ ts' = leadTok o (w ++ s.takeWhile isWs) ++ us.map (·.moved (blen w)) := by
  obtain ⟨us, h1, h2⟩ := spelled_behind_all hX h
  obtain ⟨us', h3, h4⟩ := spelled_behind_all hX h'
  obtain ⟨e1, e2⟩ := ws_takeWhile (s := s) hw
  rw [e1] at h3 h4
  rw [e2, blen_append] at h3
  have h5 := spelled_moved h1 (blen w)
  rw [show o + blen (s.takeWhile isWs) + blen w = o + (blen w + blen (s.takeWhile isWs)) by omega] at h5
  have h6 := spelled_unique hX h3 h5
  exact ⟨us, h1, h2, by rw [h4, h6]⟩

/-- All the tokens of two texts joined by a new line. -/
theorem spelled_join_all {X : Xid} (hX : Sane X) {code : Text} {all : List Token} (hf : Finished code all) {o : Nat} {ts : List Token} {s : Text}
    (h : Spelled X o ts s) : ∀ (pre : Text), code = pre ++ s → o = blen pre → (∀ t ∈ ts, t ∈ all) → ∀ {rest : Text} {E : Nat} {us : List Token},
    Spelled X (o + blen s) (.plain .Whitespace ⟨o + blen s, E⟩ :: us) ('\n' :: rest) →
    ∃ A tr a, ts = A ++ (tr ++ [.plain .EndOfFile ⟨o + blen s, o + blen s⟩]) ∧
      (tr = [] ∧ a = o + blen s ∨ tr = [.plain .Whitespace ⟨a, o + blen s⟩]) ∧
      Spelled X o (A ++ .plain .Whitespace ⟨a, E⟩ :: us) (s ++ '\n' :: rest) := by
  induction h with
  | @done o =>
    intro pre _ _ _ rest E us h
    refine ⟨[], [], o, by simp, .inl ⟨rfl, by simp⟩, ?_⟩
    simpa using h
  | @token o t body post ts hs hts ih =>
    intro pre hcode ho hall rest E us h
    subst ho
    obtain ⟨h1, h2⟩ := hf.token hX hcode hs (hall t (by simp))
    by_cases hw : t.kind? = some .Whitespace ∧ post = []
    · obtain ⟨hk, rfl⟩ := hw
      have hb : body ≠ [] ∧ ∀ c ∈ body, c ∈ wsChars := spelling_ws hs hk
      have ht : t = .plain .Whitespace ⟨blen pre, blen pre + blen body⟩ := by
        have h3 := (spelling_ext hX hs).2.1
        cases t with
        | number => cases hk
        | plain k e =>
          cases hk
          rw [show e = _ from h3]
      obtain ⟨vs, h3, h4⟩ := spelled_behind_all hX h
      have h5 := ws_spelling X (blen pre) ('\n' :: rest) hb.1 hb.2
      have h6 := Spelled.token h5 (ts := vs) (by
        rw [List.append_nil, Nat.add_assoc] at h3
        rw [blen_append]
        exact h3)
      rw [List.append_assoc, ← takeWhile_split] at h6
      have h7 : ∃ l, ('\n' :: rest).takeWhile isWs = '\n' :: l := ⟨_, by rw [List.takeWhile_cons, if_pos (by decide)]⟩
      obtain ⟨l, h7⟩ := h7
      rw [h7] at h4 h6
      simp only [leadTok, if_false, List.cons_append, List.nil_append, List.cons.injEq, reduceCtorEq] at h4
      obtain ⟨h8, rfl⟩ := h4
      generalize hx : ([] : Text) = x at hts
      cases hts with
      | done =>
        refine ⟨[], [t], blen pre, by simp, .inr (by simp [ht]), ?_⟩
        rw [List.append_nil]
        have : E = blen pre + blen (body ++ '\n' :: l) := by
          simp only [Token.plain.injEq, Extent.mk.injEq, true_and, List.append_nil] at h8
          rw [h8, blen_append]
          omega
        rw [this]
        exact h6
      | token h7 _ => exact absurd (List.append_eq_nil_iff.mp hx.symm).1 (spelling_ext hX h7).1
    · have h3 := spelling_more hX hs hts rest (fun hk hp => hw ⟨hk, hp⟩) h1 h2
      obtain ⟨A, tr, a, h4, h5, h6⟩ := ih (pre ++ body) (by rw [hcode]; simp) (by simp) (fun t ht => hall t (by simp [ht]))
        (rest := rest) (E := E) (us := us) (by rw [blen_append, ← Nat.add_assoc] at h; exact h)
      rw [blen_append, ← Nat.add_assoc]
      refine ⟨t :: A, tr, a, by rw [h4]; rfl, h5, ?_⟩
      have := Spelled.token h3 h6
      simpa using this

end Verif
