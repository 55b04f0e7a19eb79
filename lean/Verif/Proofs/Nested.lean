import Verif.Proofs.Symbolic
/-!
# Symbols between brackets
-/

namespace Verif
open Spec
variable {toks : List Token} {am : Amb} {p q : Pt} {rest : List Lexeme} {o c : TK}

theorem At.none_sub {s : Lexeme} (h : At toks p (s :: rest)) (hs : ∀ k, s ≠ .j k) : ∃ t, current toks p = some t ∧
    t.kind? = s.kind ∧ At toks (p.advanceBy 1) rest := by
  obtain ⟨q, hb, -, hr, ho⟩ := h
  cases hr with
  | whole h1 h2 => exact ⟨_, h2, by simp [Token.kind?, h1], ho⟩
  | num h1 h2 => exact ⟨_, h1, by simp [Token.kind?, Lexeme.kind], ho⟩
  | part => exact absurd rfl (hs _)

theorem drop_current {t : Token} (hp : p.sub = none) (h : current toks p = some t) : toks.drop p.off = t :: toks.drop (p.off + 1) := by
  have h1 : toks[p.off]? = some t := by
    unfold current at h
    split at h
    · cases h
    · rename_i t' ht
      rw [hp] at h
      rw [ht]; simpa using h
  obtain ⟨hl, h2⟩ := List.getElem?_eq_some_iff.mp h1
  rw [List.drop_eq_getElem_cons hl, h2]

theorem nested_inside (xs : List Lexeme) : ∀ (d : Nat) (p : Pt), inside o c d xs = true → p.sub = none → At toks p (xs ++ rest) →
    At toks (p.advanceBy xs.length) rest ∧
      nestedLen (isTK o) (isTK c) d (toks.drop p.off) = xs.length + nestedLen (isTK o) (isTK c) 0 (toks.drop (p.off + xs.length)) := by
  induction xs with
  | nil =>
    intro d p h hp ha
    have hd : d = 0 := by simpa [inside] using h
    subst hd
    refine ⟨?_, by simp⟩
    simpa [Pt.advanceBy, ← hp] using ha
  | cons x xs ih =>
    intro d p h hp ha
    obtain ⟨t, ht, hk, ha'⟩ := ha.none_sub (by rintro k rfl; simp [inside] at h)
    have hnext : ∀ d', inside o c d' xs = true → At toks (p.advanceBy (x :: xs).length) rest ∧
        nestedLen (isTK o) (isTK c) d' (toks.drop (p.off + 1)) =
          xs.length + nestedLen (isTK o) (isTK c) 0 (toks.drop (p.off + (x :: xs).length)) := by
      intro d' hd'
      have := ih d' (p.advanceBy 1) hd' rfl ha'
      simp only [Pt.advanceBy, List.length_cons] at this ⊢
      rw [show p.off + (xs.length + 1) = p.off + 1 + xs.length by omega]
      exact this
    rw [drop_current hp ht]
    cases x with
    | j k => simp [inside] at h
    | num n =>
      have h' : inside o c d xs = true := by simpa [inside] using h
      cases t with
      | plain k e => simp [Token.kind?, Lexeme.kind] at hk
      | number m =>
        obtain ⟨h1, h2⟩ := hnext d h'
        refine ⟨h1, ?_⟩
        simp only [nestedLen, Token.isEOF, isTK, Token.kind?] at h2 ⊢
        simp [h2]; omega
    | t k =>
      cases t with
      | number m => simp [Token.kind?, Lexeme.kind] at hk
      | plain k' e =>
        have : k' = k := by simpa [Token.kind?, Lexeme.kind] using hk
        subst this
        simp only [inside] at h
        split at h
        · cases h
        rename_i hne
        have heof : (Token.plain k' e).isEOF = false := by
          simp only [Token.isEOF]
          split <;> simp_all
        simp only [nestedLen, heof, isTK, Token.kind?]
        split at h
        · rename_i hko
          obtain ⟨h1, h2⟩ := hnext _ h
          refine ⟨h1, ?_⟩
          simp [hko, isTK] at h2 ⊢
          rw [h2]; omega
        · rename_i hko
          split at h
          · rename_i hkc
            split at h
            · cases h
            · obtain ⟨h1, h2⟩ := hnext _ h
              refine ⟨h1, ?_⟩
              simp [hko, hkc] at h2 ⊢
              subst hkc
              simp [hko]
              rw [h2]; omega
          · rename_i hkc
            obtain ⟨h1, h2⟩ := hnext _ h
            refine ⟨h1, ?_⟩
            simp [hko, hkc] at h2 ⊢
            rw [h2]; omega

theorem Parses.nested {xs : List Lexeme} (h : inside o c 0 xs = true) (hoc : o ≠ c)
    (hr : Verif.ahead (fun k => decide (k = some c)) rest = true) :
    Parses toks (.nested o c) am (.t o :: xs ++ rest) rest [.ext ⟨0, 0⟩] := by
  intro p hp
  obtain ⟨t, ht, hk, ha⟩ := At.none_sub (s := .t o) hp (by simp)
  obtain ⟨h1, h2⟩ := nested_inside xs 0 (p.advanceBy 1) h rfl ha
  have hv := h1.valid
  have hnl : nestedLen (isTK o) (isTK c) 0 (toks.drop (p.off + 1 + xs.length)) = 0 := by
    obtain ⟨o', t, ho', ht⟩ := current_isSome hv
    have h3 := h1.ahead hr t.kind? (by simp [peeks, ht])
    have h4 := drop_current (p := (p.advanceBy 1).advanceBy xs.length) rfl ht
    simp only [Pt.advanceBy] at h4
    rw [h4]
    have h5 : t.kind? = some c := by simpa using h3
    simp only [nestedLen, isTK, h5]
    have : ¬ o = c := hoc
    have : ¬ c = o := fun h => hoc h.symm
    simp_all
  have hb : Btw toks (p.advanceBy 1) ((p.advanceBy 1).advanceBy xs.length) :=
    ⟨ha.valid, hv, by simp [Pt.key, Pt.subw, Pt.advanceBy]; omega⟩
  have hb0 : Btw toks p (p.advanceBy 1) := by
    refine ⟨hp.valid, ha.valid, ?_⟩
    obtain ⟨q, hb, -, hr', -⟩ := hp
    cases hr' with
    | whole => exact hb.2.2
  refine ⟨_, h1, hb0.trans hb, fun n => ?_⟩
  have htok := (Parses.tok (toks := toks) (am := am) (o := xs ++ rest) (s := .t o) rfl) p hp
  obtain ⟨q, hq, hb', hy⟩ := htok
  refine P.ok_bind (m := p.advanceBy 1) (Q := fun _ => True) ?_ fun v _ => P.ok_map (Q := fun _ => True) ?_ fun e _ => rfl
  · obtain ⟨o', t, ho', ht'⟩ := current_isSome hp.valid
    rw [token_eq, ho', ht']
    obtain ⟨t2, ht2, hk2, -⟩ := At.none_sub (s := .t o) hp (by simp)
    rw [ht'] at ht2; cases ht2
    cases t with
    | number m => simp [Token.kind?, Lexeme.kind] at hk2
    | plain k' e =>
      have : k' = o := by simpa [Token.kind?, Lexeme.kind] using hk2
      subst this
      simp only [convTK, if_true]
      exact .ok trivial
  · unfold parseNestedUntil
    dsimp only
    rw [show nestedLen (isTK o) (isTK c) 0 (toks.drop (p.advanceBy 1).off) = xs.length by
      rw [h2]; simp only [Pt.advanceBy] at hnl ⊢; omega]
    obtain ⟨e, he⟩ := ex_isSome hb
    rw [he]
    exact .ok trivial

end Verif
