import Verif.Proofs.LexIter
/-!
# Further lemmas about the token stream
-/

namespace Verif
open Spec

attribute [local irreducible] singleToken

theorem isEOF_plain {k : TK} {e : Extent} (h : k ≠ .EndOfFile) : (Token.plain k e).isEOF = false := by
  cases k <;> first | rfl | exact absurd rfl h

theorem TokenShape.not_eof {X off t body post} (h : TokenShape X off t body post) : t.isEOF = false := by
  cases h with
  | line h =>
    apply isEOF_plain
    rintro rfl
    simp [isLineKind] at h
  | block h =>
    apply isEOF_plain
    rintro rfl
    simp [blockOpener] at h
  | symbol h =>
    apply isEOF_plain
    rintro rfl
    have : ∀ r ∈ symbolTable, r.2 ≠ .EndOfFile := by decide
    exact this _ h rfl
  | keyword _ _ h =>
    apply isEOF_plain
    rintro rfl
    have : ∀ r ∈ keywordTable, r.2 ≠ .EndOfFile := by decide
    exact this _ h rfl
  | _ => rfl

/-- A complete run: tokens, then `None`. -/
theorem run_ok {X : Xid} {clear : Bool} {code : Text} {st : Tokens} (hi : LexInv code st) (hex : st.isExhausted = false)
    {ts : List Token} (h : st.calls X clear (ts.length + 1) = ts.map (fun t => some (.tok t)) ++ [none]) :
    ∃ (body : List Token) (texts : List Text), ts = body ++ [.plain .EndOfFile ⟨blen code, blen code⟩] ∧
      Chain st.pt.offset (body.map Token.extent) (blen code) ∧ (∀ t ∈ body, t.extent.s < t.extent.e) ∧
      (∀ t ∈ body, t.isEOF = false) ∧
      body.map (fun t => sliceText code t.extent) = texts.map some ∧ texts.flatten = st.pt.s := by
  induction ts generalizing st with
  | nil =>
    have hs := (next_spec (X := X) (clear := clear) hi).1
    simp [Tokens.calls] at h
    rw [h] at hs
    generalize (st.next X clear).2 = st' at hs
    cases hs with
    | done h => rw [hex] at h; cases h
  | cons t ts ih =>
    have hs := next_spec (X := X) (clear := clear) hi
    simp only [Tokens.calls, List.length_cons, List.map_cons, List.cons_append, List.cons.injEq] at h
    obtain ⟨h1, h2⟩ := h
    rw [h1] at hs
    obtain ⟨hs, hi'⟩ := hs
    generalize (st.next X clear).2 = st' at hs hi' h2
    cases hs with
    | eof _ hs' ho =>
      have : ts = [] := by
        cases ts with
        | nil => rfl
        | cons t' ts' =>
          simp [Tokens.calls, Tokens.next] at h2
      subst this
      exact ⟨[], [], rfl, ho, by simp, by simp, rfl, by simp [hs']⟩
    | @tok pre body post _ l fails _ hc hpt hst hsh =>
      obtain ⟨b, texts, h3, h4, h5, h5', h6, h7⟩ := ih hi' rfl h2
      have hext := TokenShape.extent hsh
      have hbp := blen_pos (TokenShape.ne_nil hsh)
      refine ⟨t :: b, body :: texts, by simp [h3], ?_, ?_, ?_, ?_, ?_⟩
      · refine ⟨by rw [hext, hpt], by rw [hext]; simp, ?_⟩
        rw [hext]; exact h4
      · intro x hx
        rcases List.mem_cons.mp hx with rfl | hx
        · rw [hext]; simp; omega
        · exact h5 x hx
      · intro x hx
        rcases List.mem_cons.mp hx with rfl | hx
        · exact TokenShape.not_eof hsh
        · exact h5' x hx
      · simp only [List.map_cons, h6, hext]
        congr 1
        rw [hc, List.append_assoc]
        exact sliceText_append pre body post
      · simp [h7, hpt]

/-- A failing run: tokens, then an error. -/
theorem run_err {X : Xid} {clear : Bool} {code : Text} {st : Tokens} (hi : LexInv code st)
    {ts : List Token} {d : LErrorDetail}
    (h : st.calls X clear (ts.length + 1) = ts.map (fun t => some (.tok t)) ++ [some (.err d)]) :
    IsBoundary code d.location ∧ st.pt.offset ≤ d.location ∧ d.errors ≠ [] ∧
      ∀ t ∈ ts, t.extent.e ≤ d.location := by
  induction ts generalizing st with
  | nil =>
    have hs := (next_spec (X := X) (clear := clear) hi).1
    simp [Tokens.calls] at h
    rw [h] at hs
    generalize (st.next X clear).2 = st' at hs
    cases hs with
    | err _ _ _ h1 h2 h3 => exact ⟨h1, h2, h3, by simp⟩
  | cons t ts ih =>
    have hs := next_spec (X := X) (clear := clear) hi
    simp only [Tokens.calls, List.length_cons, List.map_cons, List.cons_append, List.cons.injEq] at h
    obtain ⟨h1, h2⟩ := h
    rw [h1] at hs
    obtain ⟨hs, hi'⟩ := hs
    generalize (st.next X clear).2 = st' at hs hi' h2
    obtain ⟨h3, h4, h5, h6⟩ := ih hi' h2
    cases hs with
    | eof _ hs' ho =>
      refine ⟨h3, h4, h5, ?_⟩
      intro x hx
      rcases List.mem_cons.mp hx with rfl | hx
      · have : st.pt.offset ≤ d.location := h4
        simp [Token.extent]; omega
      · exact h6 x hx
    | @tok pre body post _ l fails _ hc hpt hst hsh =>
      have hext := TokenShape.extent hsh
      have h4' : blen pre + blen body ≤ d.location := h4
      refine ⟨h3, by rw [hpt]; simp; omega, h5, ?_⟩
      intro x hx
      rcases List.mem_cons.mp hx with rfl | hx
      · rw [hext]; exact h4
      · exact h6 x hx

/-- Once an error has been yielded, only errors follow. -/
theorem err_forever {X : Xid} {clear : Bool} {st : Tokens} (hex : st.isExhausted = false) (hne : st.pt.s ≠ [])
    {q : LPoint} {e : LErr} {l : LLog} (hf : singleToken X st.pt = (.fail q e, l)) (n : Nat) :
    ∀ r ∈ st.calls X clear n, ∃ d, r = some (.err d) := by
  induction n generalizing st with
  | zero => simp [Tokens.calls]
  | succ n ih =>
    have hne' : st.pt.s.isEmpty = false := by simpa using hne
    intro r hr
    simp only [Tokens.calls, List.mem_cons] at hr
    rcases hr with rfl | hr
    · simp [Tokens.next, hex, hne', hf]
    · refine ih (st := (st.next X clear).2) ?_ ?_ ?_ r hr
      · simp [Tokens.next, hex, hne', hf]
      · simp [Tokens.next, hex, hne', hf]; exact hne
      · simp [Tokens.next, hex, hne', hf]

theorem err_then_forever {X : Xid} {clear : Bool} {code : Text} {st : Tokens} (hi : LexInv code st) {n : Nat}
    {d : LErrorDetail} (h : some (.err d) ∈ st.calls X clear n) (m : Nat) :
    none ∉ st.calls X clear m := by
  induction n generalizing st m with
  | zero => simp [Tokens.calls] at h
  | succ n ih =>
    have hs := next_spec (X := X) (clear := clear) hi
    simp only [Tokens.calls, List.mem_cons] at h
    obtain ⟨hs, hi'⟩ := hs
    rcases h with h | h
    · rw [← h] at hs
      generalize (st.next X clear).2 = st' at hs
      cases hs with
      | err hex hne hf _ _ _ =>
        intro hm
        obtain ⟨d, hd⟩ := err_forever (clear := clear) hex hne hf m _ hm
        cases hd
    · have hrec := ih hi' h
      cases m with
      | zero => simp [Tokens.calls]
      | succ m =>
        simp only [Tokens.calls, List.mem_cons, not_or]
        refine ⟨?_, hrec m⟩
        intro hn
        rw [← hn] at hs
        generalize hst : (st.next X clear).2 = st' at hs h
        cases hs with
        | done hex =>
          have : ∀ k, ∀ r ∈ st.calls X clear k, r = none := by
            intro k
            induction k with
            | zero => simp [Tokens.calls]
            | succ k ihk =>
              intro r hr
              simp only [Tokens.calls, List.mem_cons, ← hn, hst] at hr
              rcases hr with rfl | hr
              · rfl
              · exact ihk r hr
          have := this _ _ h
          cases this

/-- The state reached after reading tokens that cover exactly `pre`. -/
theorem run_next {X : Xid} {clear : Bool} {code : Text} {st : Tokens} (hi : LexInv code st)
    (hex : st.isExhausted = false) {ts : List Token} {i : Option LItem} {pre rest : Text}
    (h : st.calls X clear (ts.length + 1) = ts.map (fun t => some (.tok t)) ++ [i])
    (hc : Chain st.pt.offset (ts.map Token.extent) (blen pre)) (hcode : code = pre ++ rest) (hr : rest ≠ []) :
    ∃ st', LexInv code st' ∧ st'.pt = ⟨rest, blen pre⟩ ∧ st'.isExhausted = false ∧ i = (st'.next X clear).1 := by
  induction ts generalizing st with
  | nil =>
    simp [Tokens.calls] at h
    refine ⟨st, hi, ?_, hex, h.symm⟩
    obtain ⟨pre', h1, h2⟩ := hi.pos
    have h3 : blen pre = blen pre' := by rw [← h2]; simpa [Chain] using hc.symm
    rw [hcode] at h1
    have h4 : pre = pre' ∧ rest = st.pt.s := by
      have a := splitAtByte_blen pre rest
      rw [h1, h3, splitAtByte_blen] at a
      simp at a
      exact ⟨a.1.symm, a.2.symm⟩
    rw [h4.2, h3, ← h2]
  | cons t ts ih =>
    have hs := next_spec (X := X) (clear := clear) hi
    simp only [Tokens.calls, List.length_cons, List.map_cons, List.cons_append, List.cons.injEq] at h
    obtain ⟨h1, h2⟩ := h
    rw [h1] at hs
    obtain ⟨hs, hi'⟩ := hs
    generalize (st.next X clear).2 = st' at hs hi' h2
    obtain ⟨hc1, hc2, hc3⟩ := hc
    cases hs with
    | eof _ hs' ho =>
      exfalso
      cases ts with
      | nil =>
        simp [Chain, Token.extent] at hc3
        rw [hcode] at hc3
        have := blen_pos hr
        simp at hc3; omega
      | cons t' ts' => simp [Tokens.calls, Tokens.next] at h2
    | @tok pre' body post _ l fails _ hc' hpt hst hsh =>
      have hext := TokenShape.extent hsh
      exact ih hi' rfl h2 (by rw [hext] at hc3; exact hc3)

end Verif
