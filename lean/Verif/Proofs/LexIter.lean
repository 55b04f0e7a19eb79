import Verif.Proofs.LexTok
/-!
# The token iterator: invariant and consequences
-/

namespace Verif
open Spec

attribute [local irreducible] singleToken

theorem TokenShape.extent {X off t body post} (h : TokenShape X off t body post) :
    t.extent = ⟨off, off + blen body⟩ := by
  cases h <;> first | rfl | (rename_i h; exact h.ext)

theorem symbolTable_ne_nil : ∀ r ∈ symbolTable, r.1 ≠ [] := by decide

theorem TokenShape.ne_nil {X off t body post} (h : TokenShape X off t body post) : body ≠ [] := by
  cases h with
  | line h1 h2 h3 =>
    rintro rfl
    cases post with
    | nil => simp [commentKind] at h2
    | cons d t =>
      have := h3.2 d t rfl
      subst this
      simp [commentKind] at h2
  | block h1 h2 h3 =>
    rename_i k op
    have hop : op ≠ [] := by
      rintro rfl
      cases k <;> simp [blockOpener] at h1
    rcases h3 with ⟨inner, rfl, _⟩ | ⟨inner, rfl, _⟩ <;> simp [hop]
  | char h => obtain ⟨b, _, rfl⟩ := h; simp
  | str h => obtain ⟨b, _, rfl⟩ := h; simp
  | strRaw h => obtain ⟨n, c, rfl, _⟩ := h; simp
  | byte h => simp
  | byteStr h => simp
  | byteStrRaw h => simp
  | lifetime h => simp
  | symbol h => exact symbolTable_ne_nil _ h
  | rawIdent h => simp
  | keyword h => obtain ⟨c, cs, rfl, _⟩ := h; simp
  | ident h => obtain ⟨c, cs, rfl, _⟩ := h; simp
  | number h =>
    obtain ⟨ints, frac, mark, exp, suf, rfl, h, _⟩ := h.parts
    simp [h]
  | ws h => exact h

/-- Invariant of the iterator. -/
structure LexInv (code : Text) (st : Tokens) : Prop where
  pos : ∃ pre, code = pre ++ st.pt.s ∧ st.pt.offset = blen pre
  fails : IsBoundary code st.fails.point
  kinds : st.fails.kinds ≠ [] ∨ st.fails.point = 0
  exh : st.isExhausted = true → st.pt.s = []

theorem LexInv.new (code : Text) : LexInv code (.new code) :=
  ⟨⟨[], rfl, rfl⟩, ⟨[], code, rfl, rfl⟩, .inr rfl, by simp [Tokens.new]⟩

theorem Failures.add_point {ε} (f : Failures ε) (p : Nat) (e : ε) (P : Nat → Prop) (h1 : P f.point) (h2 : P p) :
    P (f.add p e).point := by
  unfold Failures.add
  split
  · exact h1
  · split
    · exact h1
    · exact h2

theorem Failures.addAll_point {ε} (f : Failures ε) (l : List (Nat × ε)) (P : Nat → Prop) (h1 : P f.point)
    (h2 : ∀ r ∈ l, P r.1) : P (f.addAll l).point := by
  induction l generalizing f with
  | nil => exact h1
  | cons r rs ih =>
    obtain ⟨p, e⟩ := r
    exact ih (f.add p e) (f.add_point p e P h1 (h2 (p, e) (by simp))) (fun r hr => h2 r (by simp [hr]))

theorem Failures.add_ge {ε} (f : Failures ε) (p : Nat) (e : ε) :
    p ≤ (f.add p e).point ∧ (f.add p e).kinds ≠ [] ∨ (p < f.point ∧ f.add p e = f) := by
  unfold Failures.add
  split
  · right; exact ⟨by omega, rfl⟩
  · split
    · left; simp; omega
    · left; simp

theorem Adv.boundary {code pre : Text} {p q : LPoint} (hc : code = pre ++ p.s) (ho : p.offset = blen pre)
    (h : Adv p q) : IsBoundary code q.offset := by
  obtain ⟨a, h1, h2⟩ := h
  exact ⟨pre ++ a, q.s, by simp [hc, h1], by simp [h2, ho]⟩

/-- What one call of `next` does. -/
inductive NextSpec (X : Xid) (clear : Bool) (code : Text) (st : Tokens) : Option LItem → Tokens → Prop
  | done : st.isExhausted = true → NextSpec X clear code st none st
  | eof : st.isExhausted = false → st.pt.s = [] → st.pt.offset = blen code →
      NextSpec X clear code st (some (.tok (.plain .EndOfFile ⟨blen code, blen code⟩))) { st with isExhausted := true }
  | tok {pre body post t l fails} : st.isExhausted = false → code = pre ++ body ++ post →
      st.pt = ⟨body ++ post, blen pre⟩ →
      singleToken X ⟨body ++ post, blen pre⟩ = (.ok ⟨post, blen pre + blen body⟩ t, l) →
      TokenShape X (blen pre) t body post →
      NextSpec X clear code st (some (.tok t)) ⟨fails, ⟨post, blen pre + blen body⟩, false⟩
  | err {d q e l} : st.isExhausted = false → st.pt.s ≠ [] → singleToken X st.pt = (.fail q e, l) →
      IsBoundary code d.location → st.pt.offset ≤ d.location → d.errors ≠ [] →
      NextSpec X clear code st (some (.err d)) { st with fails := .new }

theorem Failures.kinds_ok_add {ε} {f : Failures ε} (h : f.kinds ≠ [] ∨ f.point = 0) (p : Nat) (e : ε) :
    (f.add p e).kinds ≠ [] := by
  unfold Failures.add
  split
  · rcases h with h | h
    · exact h
    · omega
  · split <;> simp

theorem Failures.kinds_ok_addAll {ε} {f : Failures ε} (h : f.kinds ≠ [] ∨ f.point = 0) (l : List (Nat × ε)) :
    (f.addAll l).kinds ≠ [] ∨ (f.addAll l).point = 0 := by
  induction l generalizing f with
  | nil => exact h
  | cons r rs ih => exact ih (.inl (Failures.kinds_ok_add h r.1 r.2))

theorem next_spec {X : Xid} {clear : Bool} {code : Text} {st : Tokens} (hi : LexInv code st) :
    NextSpec X clear code st (st.next X clear).1 (st.next X clear).2 ∧ LexInv code (st.next X clear).2 := by
  obtain ⟨pre, hc, ho⟩ := hi.pos
  unfold Tokens.next
  split
  · rename_i h
    exact ⟨.done h, hi⟩
  rename_i hex
  simp only [Bool.not_eq_true] at hex
  split
  · rename_i h
    have hs : st.pt.s = [] := by simpa using h
    have hb : st.pt.offset = blen code := by rw [hc, hs, ho]; simp
    refine ⟨?_, ⟨hi.pos, hi.fails, hi.kinds, fun _ => hs⟩⟩
    rw [hb]
    exact .eof hex hs hb
  rename_i hne
  have hne' : st.pt.s ≠ [] := by simpa using hne
  have logOk : ∀ l : LLog, LogOk st.pt l → ∀ r ∈ l.map (fun r => (r.1.offset, r.2)), IsBoundary code r.1 := by
    intro l hl r hr
    obtain ⟨x, hx, rfl⟩ := List.mem_map.mp hr
    exact (hl x hx).boundary hc ho
  rcases (singleToken_spec X st.pt).cases with ⟨q, v, l, hp, ha, ⟨body, he, hsh⟩, hl⟩ | ⟨q, e, l, hp, ha, hl⟩
  · rw [hp]
    simp only []
    have hbp := blen_pos (TokenShape.ne_nil hsh)
    have hneq : st.pt.offset ≠ q.offset := by have := he.2; omega
    simp only [hneq, if_false]
    have hpt : st.pt = ⟨body ++ q.s, blen pre⟩ := by
      rw [← he.1, ← ho]
    have hq : q = ⟨q.s, blen pre + blen body⟩ := by
      have := he.2; rw [ho] at this; rw [← this]
    have hcode : code = pre ++ body ++ q.s := by rw [hc, he.1]; simp
    constructor
    · have := NextSpec.tok (X := X) (clear := clear) (st := st) (t := v) (l := l) (fails := if clear = true then .new else st.fails.addAll (l.map fun r => (r.1.offset, r.2)))
        hex hcode hpt (by rw [← hpt, ← hq]; exact hp) (by rw [← ho]; exact hsh)
      rw [← hq] at this
      rw [hex]
      exact this
    · refine ⟨⟨pre ++ body, hcode, by rw [hq]; simp⟩, ?_, ?_, ?_⟩
      · simp only []
        split
        · exact ⟨[], code, rfl, rfl⟩
        · exact Failures.addAll_point _ _ _ hi.fails (logOk l hl)
      · simp only []
        split
        · exact .inr rfl
        · exact Failures.kinds_ok_addAll hi.kinds _
      · simp [hex]
  · rw [hp]
    simp only []
    have hb := ha.boundary hc ho
    constructor
    · refine .err hex hne' hp ?_ ?_ ?_
      · exact Failures.add_point _ _ _ _ (Failures.addAll_point _ _ _ hi.fails (logOk l hl)) hb
      · have hle := ha.le
        simp only []
        rcases Failures.add_ge (st.fails.addAll (l.map fun r => (r.1.offset, r.2))) q.offset e with h | h
        · omega
        · rw [h.2]; omega
      · exact Failures.kinds_ok_add (Failures.kinds_ok_addAll hi.kinds _) _ _
    · exact ⟨hi.pos, ⟨[], code, rfl, rfl⟩, .inr rfl, by simp [hex]⟩

/-- Every token ever yielded is end-of-file, or is what `single_token` yields at its position. -/
theorem calls_tok {X : Xid} {clear : Bool} {code : Text} {st : Tokens} (hi : LexInv code st) {n : Nat} {t : Token}
    (h : some (.tok t) ∈ st.calls X clear n) :
    t = .plain .EndOfFile ⟨blen code, blen code⟩ ∨
    ∃ pre body post l, code = pre ++ body ++ post ∧
      singleToken X ⟨body ++ post, blen pre⟩ = (.ok ⟨post, blen pre + blen body⟩ t, l) ∧
      TokenShape X (blen pre) t body post := by
  induction n generalizing st with
  | zero => simp [Tokens.calls] at h
  | succ n ih =>
    have hs := next_spec (X := X) (clear := clear) hi
    simp only [Tokens.calls, List.mem_cons] at h
    rcases h with h | h
    · have h1 := hs.1
      rw [← h] at h1
      generalize hst : (st.next X clear).2 = st' at h1
      cases h1 with
      | eof => exact .inl rfl
      | tok _ h2 _ h3 h4 => exact .inr ⟨_, _, _, _, h2, h3, h4⟩
    · exact ih hs.2 h

theorem calls_ne_panic {X : Xid} {clear : Bool} {code : Text} {st : Tokens} (hi : LexInv code st) (n : Nat) :
    some .panic ∉ st.calls X clear n := by
  induction n generalizing st with
  | zero => simp [Tokens.calls]
  | succ n ih =>
    have hs := next_spec (X := X) (clear := clear) hi
    simp only [Tokens.calls, List.mem_cons, not_or]
    refine ⟨?_, ih hs.2⟩
    intro h
    have h1 := hs.1
    rw [← h] at h1
    generalize hst : (st.next X clear).2 = st' at h1
    cases h1

/-- Draining in terms of calls. -/
theorem drain_spec {X : Xid} {clear : Bool} {code : Text} {st : Tokens} (hi : LexInv code st) (acc : List Token)
    (n : Nat) (hn : st.pt.s.length + (if st.isExhausted then 0 else 1) < n) :
    (∃ ts : List Token, Tokens.drain X clear n st acc = .ok (acc.reverse ++ ts) ∧
      ∀ k, st.calls X clear (ts.length + k) = ts.map (fun t => some (.tok t)) ++ List.replicate k none) ∨
    (∃ (ts : List Token) (d : LErrorDetail), Tokens.drain X clear n st acc = .err d ∧
      st.calls X clear (ts.length + 1) = ts.map (fun t => some (.tok t)) ++ [some (.err d)]) := by
  induction n generalizing st acc with
  | zero => omega
  | succ n ih =>
    have hs := next_spec (X := X) (clear := clear) hi
    obtain ⟨h1, h2⟩ := hs
    unfold Tokens.drain
    have hcall : ∀ k, st.calls X clear (k + 1) =
      (st.next X clear).1 :: (st.next X clear).2.calls X clear k := fun _ => rfl
    generalize hr : st.next X clear = r at h1 h2 hcall
    obtain ⟨r, st'⟩ := r
    simp only at h1 h2 hcall
    cases h1 with
    | done hex =>
      left
      refine ⟨[], by simp, ?_⟩
      intro k
      simp only [List.length_nil, Nat.zero_add, List.map_nil, List.nil_append]
      clear hn h2 ih
      induction k with
      | zero => rfl
      | succ k ihk => rw [hcall, ihk, List.replicate_succ]
    | eof hex hs' ho =>
      simp only []
      rcases ih (st := { st with isExhausted := true }) h2 (.plain .EndOfFile ⟨blen code, blen code⟩ :: acc)
        (by simp [hs', hex] at hn ⊢; omega) with ⟨ts, h3, h4⟩ | ⟨ts, d, h3, h4⟩
      · refine .inl ⟨.plain .EndOfFile ⟨blen code, blen code⟩ :: ts, by rw [h3]; simp, ?_⟩
        intro k
        rw [List.length_cons, show ts.length + 1 + k = (ts.length + k) + 1 by omega, hcall, h4]
        simp
      · refine .inr ⟨.plain .EndOfFile ⟨blen code, blen code⟩ :: ts, d, h3, ?_⟩
        rw [List.length_cons, hcall, h4]
        simp
    | @tok pre body post t l fails hex hc hpt hst hsh =>
      simp only []
      have hbp := List.length_pos_iff.mpr (TokenShape.ne_nil hsh)
      rcases ih (st := ⟨fails, ⟨post, blen pre + blen body⟩, false⟩) h2 (t :: acc)
        (by simp [hpt, hex] at hn ⊢; omega) with ⟨ts, h3, h4⟩ | ⟨ts, d, h3, h4⟩
      · refine .inl ⟨t :: ts, by rw [h3]; simp, ?_⟩
        intro k
        rw [List.length_cons, show ts.length + 1 + k = (ts.length + k) + 1 by omega, hcall, h4]
        simp
      · refine .inr ⟨t :: ts, d, h3, ?_⟩
        rw [List.length_cons, hcall, h4]
        simp
    | @err d q e l hex hne hst hb hle hk =>
      right
      exact ⟨[], d, rfl, by rw [List.length_nil, hcall]; rfl⟩

theorem lex_cases (X : Xid) (clear : Bool) (code : Text) :
    (∃ ts : List Token, lex X clear code = .ok ts ∧
      ∀ k, (Tokens.new code).calls X clear (ts.length + k) =
        ts.map (fun t => some (.tok t)) ++ List.replicate k none) ∨
    (∃ (ts : List Token) (d : LErrorDetail), lex X clear code = .err d ∧
      (Tokens.new code).calls X clear (ts.length + 1) =
        ts.map (fun t => some (.tok t)) ++ [some (.err d)]) := by
  have := drain_spec (X := X) (clear := clear) (LexInv.new code) [] (code.length + 2)
    (by simp [Tokens.new])
  simpa [lex] using this

theorem lex_ok_calls {X : Xid} {clear : Bool} {code : Text} {ts : List Token} (h : lex X clear code = .ok ts)
    (k : Nat) : (Tokens.new code).calls X clear (ts.length + k) =
        ts.map (fun t => some (.tok t)) ++ List.replicate k none := by
  rcases lex_cases X clear code with ⟨ts', h1, h2⟩ | ⟨_, _, h1, _⟩
  · rw [h] at h1; cases h1; exact h2 k
  · rw [h] at h1; cases h1

theorem lex_err_calls {X : Xid} {clear : Bool} {code : Text} {d : LErrorDetail} (h : lex X clear code = .err d) :
    ∃ ts : List Token, (Tokens.new code).calls X clear (ts.length + 1) =
        ts.map (fun t => some (.tok t)) ++ [some (.err d)] := by
  rcases lex_cases X clear code with ⟨ts', h1, h2⟩ | ⟨ts, d', h1, h2⟩
  · rw [h] at h1; cases h1
  · rw [h] at h1; cases h1; exact ⟨ts, h2⟩

end Verif
