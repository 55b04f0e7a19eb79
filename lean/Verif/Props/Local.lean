import Verif.Proofs.Local
import Verif.Props.Shape
/-!
# Property theorem: what comes after a syntax error does not matter (C52)
-/

namespace Verif
open Verif.Spec

theorem Spec.SameKinds.append {a b c d : List Token} (h : SameKinds a b) (h' : SameKinds c d) : SameKinds (a ++ c) (b ++ d) := by
  induction h with
  | nil => exact h'
  | cons h _ ih => exact .cons h ih

theorem Spec.SameKinds.of_append {a c d : List Token} (h : SameKinds a (c ++ d)) :
    ∃ c' d', a = c' ++ d' ∧ SameKinds c' c ∧ SameKinds d' d := by
  induction c generalizing a with
  | nil => exact ⟨[], a, rfl, .nil, h⟩
  | cons x c ih =>
    cases h with
    | cons h1 h2 =>
      obtain ⟨c', d', rfl, h3, h4⟩ := ih h2
      exact ⟨_ :: c', d', rfl, .cons h1 h3, h4⟩

theorem Spec.SameKinds.eof {a b : List Token} (h : SameKinds a b) (hb : ∀ u ∈ b, u.isEOF = false) : ∀ u ∈ a, u.isEOF = false := by
  induction h with
  | nil => simp
  | cons h1 _ ih =>
    simp at hb ⊢
    exact ⟨by rw [h1.eof]; exact hb.1, ih hb.2⟩

theorem Spec.SameKind.symm {t u : Token} (h : SameKind t u) : SameKind u t := by
  cases t <;> cases u <;> simp [SameKind] at h ⊢
  · exact h.symm
  · grind

theorem Spec.SameKinds.symm {a b : List Token} (h : SameKinds a b) : SameKinds b a := by
  induction h with
  | nil => exact .nil
  | cons h1 _ ih => exact .cons h1.symm ih

theorem EofLast.of_sameKinds {a b : List Token} (h : SameKinds a b) (hb : EofLast b) : EofLast a := by
  obtain ⟨i, t, rfl, h1, h2⟩ := hb
  obtain ⟨i', d, rfl, h3, h4⟩ := h.of_append
  cases h4 with
  | cons h5 h6 =>
    cases h6
    exact ⟨i', _, rfl, by rw [h5.eof]; exact h1, h3.eof h2⟩

/-- The same token somewhere else. -/
def Token.at (t : Token) (e : Extent) : Token :=
  match t with
  | .plain k _ => .plain k e
  | .number n => .number { n with extent := e }

theorem Token.at_extent (t : Token) (e : Extent) : (t.at e).extent = e := by cases t <;> rfl
theorem Token.at_kind (t : Token) (e : Extent) : SameKind (t.at e) t := by cases t <;> simp [Token.at, SameKind]

theorem sameKinds_at (e : Extent) : ∀ ts : List Token, SameKinds (ts.map (·.at e)) ts
  | [] => .nil
  | t :: ts => .cons (t.at_kind e) (sameKinds_at e ts)

/-- If the tokens up to the error are of the same kinds, the error is the same. -/
theorem parseTokens_prefix {code : Text} {toks : List Token} (hs : Src code toks) {pre pre' rest rest' : List Token} {t t' : Token}
    (ht : EofLast (pre' ++ t' :: rest')) (he : toks = pre ++ t :: rest)
    (hk : SameKinds (pre ++ [t]) (pre' ++ [t'])) {clear : Bool} {errs0 errs : List PErr}
    (h0 : parseTokens toks false = .err t.extent.s errs0) (h : parseTokens toks clear = .err t.extent.s errs) :
    parseTokens (pre' ++ t' :: rest') clear = .err t'.extent.s errs := by
  have hlen : pre.length = pre'.length := by have := hk.length; simpa using this
  -- the first tokens of one text, followed by the others of the other text
  have hsame : SameKinds (pre ++ t :: rest'.map (·.at ⟨t.extent.s + 1, t.extent.s + 1⟩)) (pre' ++ t' :: rest') := by
    have := hk.append (sameKinds_at ⟨t.extent.s + 1, t.extent.s + 1⟩ rest')
    simpa using this
  have hagree : Agree pre.length toks (pre ++ t :: rest'.map (·.at ⟨t.extent.s + 1, t.extent.s + 1⟩)) := by
    subst he
    intro i hi
    rcases Nat.lt_or_eq_of_le hi with hi | rfl
    · rw [List.getElem?_append_left hi, List.getElem?_append_left hi]
    · simp
  have hone : ∀ (ys : List Token), (∀ y ∈ ys, t.extent.s < y.extent.s) → ∀ i u, (pre ++ t :: ys)[i]? = some u →
      u.extent.s = t.extent.s → i = pre.length := by
    intro ys hys i u hu hsu
    rcases Nat.lt_trichotomy i pre.length with hi | hi | hi
    · rw [List.getElem?_append_left hi] at hu
      have hm : u ∈ pre := List.mem_of_getElem? hu
      have h1 := hs.mono
      rw [he, List.pairwise_append] at h1
      have h2 := h1.2.2 u hm t (by simp)
      have h3 : u.isEOF = false := by
        obtain ⟨init, v, h4, -, h5⟩ := hs.eof
        rw [he] at h4
        have : u ∈ init := by
          have h6 : pre <+: init ++ [v] := ⟨t :: rest, h4⟩
          have h7 : pre.length ≤ init.length := by
            have := congrArg List.length h4; simp at this; omega
          exact (List.prefix_of_prefix_length_le h6 (List.prefix_append _ _) h7).mem hm
        exact h5 u this
      have := hs.nonempty u (by rw [he]; simp [hm]) h3
      omega
    · exact hi
    · rw [List.getElem?_append_right (by omega)] at hu
      obtain ⟨j, hj⟩ : ∃ j, i - pre.length = j + 1 := ⟨i - pre.length - 1, by omega⟩
      rw [hj] at hu
      have := hys u (List.mem_of_getElem? (by simpa using hu))
      omega
  have hrest : ∀ y ∈ rest, t.extent.s < y.extent.s := by
    intro y hy
    have h1 := hs.mono
    rw [he, List.pairwise_append, List.pairwise_cons] at h1
    have h2 := h1.2.1.1 y hy
    have h3 : t.isEOF = false := by
      obtain ⟨init, v, h4, -, h5⟩ := hs.eof
      rw [he] at h4
      have : t ∈ init := by
        have h6 : pre ++ [t] <+: init ++ [v] := ⟨rest, by simpa using h4⟩
        have h7 : (pre ++ [t]).length ≤ init.length := by
          have := congrArg List.length h4
          have h8 : 0 < rest.length := List.length_pos_of_mem hy
          simp at this ⊢; omega
        exact (List.prefix_of_prefix_length_le h6 (List.prefix_append _ _) h7).mem (by simp)
      exact h5 t this
    have := hs.nonempty t (by rw [he]; simp) h3
    omega
  have h1 := parseTokens_local hs.eof (ht.of_sameKinds hsame) hagree
    (fun i u hu hsu => Nat.le_of_eq (hone rest hrest i u (by rw [← he]; exact hu) hsu)) h0 h
  have h2 := parseTokens_sim hsame clear
  rw [h1] at h2
  generalize hr : parseTokens (pre' ++ t' :: rest') clear = r at h2
  generalize hl : t.extent.s = loc at h2
  cases h2 with
  | err h3 h4 =>
    have h5 := hone _ (by
      intro y hy
      obtain ⟨z, -, rfl⟩ := List.mem_map.mp hy
      rw [Token.at_extent]; dsimp only; omega) _ _ h3 hl.symm
    subst h5
    rw [hlen] at h4
    simp at h4
    rw [h4]

end Verif

namespace Verif.Props
open Verif Verif.Spec

/-- If a text is rejected at some token, then so is every other text that has tokens of the same kinds up to and including this one:
for the same reasons, at the corresponding token.  (`cp` says whether the failures of a file's complete items are forgotten; if they are,
the error reported must also be the furthest failure of all, that is, the one reported if they are not.) -/
theorem C52_rest_does_not_matter (X X' : Xid) (cl cl' cp : Bool) (code code' : Text) (ts ts' : List Token)
    (h : lex X cl code = .ok ts) (h' : lex X' cl' code' = .ok ts')
    (pre pre' rest rest' : List Token) (t t' : Token)
    (hpre : ts.filter (fun t => !isTrivia t) = pre ++ t :: rest) (hpre' : ts'.filter (fun t => !isTrivia t) = pre' ++ t' :: rest')
    (hk : SameKinds (pre ++ [t]) (pre' ++ [t']))
    (errs0 errs : List PErr) (he0 : parseRustFile X cl false code = .parseErr t.extent.s errs0)
    (he : parseRustFile X cl cp code = .parseErr t.extent.s errs) :
    parseRustFile X' cl' cp code' = .parseErr t'.extent.s errs := by
  rw [← significant_eq] at hpre hpre'
  have h1 : extractWhitespace X cl code = .ok (partitionTokens ts).1 (partitionTokens ts).2 := by simp [extractWhitespace, h]
  have h1' : extractWhitespace X' cl' code' = .ok (partitionTokens ts').1 (partitionTokens ts').2 := by simp [extractWhitespace, h']
  have hs := Src.of_extract h1
  have hs' := Src.of_extract h1'
  have parse : ∀ {c errs}, parseRustFile X cl c code = .parseErr t.extent.s errs →
      parseTokens (partitionTokens ts).2 c = .err t.extent.s errs := by
    intro c errs hc
    unfold parseRustFile at hc
    rw [h1] at hc
    dsimp only at hc
    split at hc
    · cases hc; assumption
    · cases hc
    · cases hc
    · split at hc
      · cases hc
      · split at hc <;> cases hc
  rw [significant, ← partitionTokens_snd] at hpre hpre'
  rw [hpre'] at h1' hs'
  have := parseTokens_prefix hs hs'.eof hpre hk (parse he0) (parse he)
  unfold parseRustFile
  rw [h1']
  dsimp only
  rw [this]

/-- If a change makes an accepted text invalid, then the error reported is not before the change: not all tokens up to the error are
of the same kinds as before. -/
theorem C52_error_not_before_change (X X' : Xid) (cl cl' cp : Bool) (code code' : Text) (ts ts' : List Token) (f : File)
    (h : lex X cl code = .ok ts) (hok : parseRustFile X cl cp code = .ok f)
    (h' : lex X' cl' code' = .ok ts') (pre' rest' : List Token) (t' : Token)
    (hpre' : ts'.filter (fun t => !isTrivia t) = pre' ++ t' :: rest') (errs0 errs : List PErr)
    (he0 : parseRustFile X' cl' false code' = .parseErr t'.extent.s errs0)
    (he : parseRustFile X' cl' cp code' = .parseErr t'.extent.s errs) :
    ¬ ∃ kept rest, ts.filter (fun t => !isTrivia t) = kept ++ rest ∧ SameKinds kept (pre' ++ [t']) := by
  rintro ⟨kept, rest, h1, h2⟩
  obtain ⟨pre, d, rfl, h3, h4⟩ := h2.of_append
  cases h4 with
  | @cons t _ _ _ h5 h6 =>
    cases h6
    have h7 : SameKinds (pre' ++ [t']) (pre ++ [t]) := h2.symm
    have := C52_rest_does_not_matter X' X cl' cl cp code' code ts' ts h' h pre' pre rest' rest t' t hpre' (by simpa using h1) h7
      errs0 errs he0 he
    rw [hok] at this
    cases this

/-- For the examples: whether a text is rejected at a place. -/
def FileResult.errAt (r : FileResult) (n : Nat) : Bool := match r with | .parseErr loc _ => loc == n | _ => false

theorem FileResult.of_errAt {r : FileResult} {n : Nat} (h : FileResult.errAt r n = true) : ∃ errs, r = .parseErr n errs := by
  cases r <;> simp_all [FileResult.errAt]

/-- For the examples: whether a text is accepted. -/
def FileResult.isOk (r : FileResult) : Bool := match r with | .ok _ => true | _ => false

theorem FileResult.of_isOk {r : FileResult} (h : FileResult.isOk r = true) : ∃ f, r = .ok f := by
  cases r <;> simp_all [FileResult.isOk]

/-- For the examples: the tokens before one, this one, and those after it. -/
def cutAt (n : Nat) (r : LexResult) (p : List Token → List Token → Token → List Token → Bool) : Bool :=
  LexResult.okWith r fun ts =>
    let s := ts.filter fun t => !isTrivia t
    match s.drop n with
    | t :: rest => p ts (s.take n) t rest
    | [] => false

theorem of_cutAt {n : Nat} {r : LexResult} {p : List Token → List Token → Token → List Token → Bool} (h : cutAt n r p = true) :
    ∃ ts pre t rest, r = .ok ts ∧ ts.filter (fun t => !isTrivia t) = pre ++ t :: rest ∧ p ts pre t rest = true := by
  obtain ⟨ts, rfl, h'⟩ := LexResult.of_okWith (r := r) h
  clear h
  dsimp only at h'
  split at h'
  · rename_i t rest hd
    exact ⟨ts, _, t, rest, rfl, by rw [← hd, List.take_append_drop], h'⟩
  · cases h'

/-- The hypotheses are met by two texts with an error at their seventh tokens, `=`: after `let` there is no pattern.  What
follows is unrelated: in one of the texts a whole function, in the other one unbalanced brackets. -/
example : ∃ ts ts' pre pre' rest rest' t t' errs, lex asciiXid true c!"fn f() { let = 1; } fn g() {}" = .ok ts ∧
    lex asciiXid true c!"fn  name ( )\n{ let = ) ] + struct" = .ok ts' ∧
    ts.filter (fun t => !isTrivia t) = pre ++ t :: rest ∧ ts'.filter (fun t => !isTrivia t) = pre' ++ t' :: rest' ∧
    SameKinds (pre ++ [t]) (pre' ++ [t']) ∧
    parseRustFile asciiXid true false c!"fn f() { let = 1; } fn g() {}" = .parseErr t.extent.s errs ∧
    t.extent.s = 13 ∧ t'.extent.s = 19 := by
  obtain ⟨ts, pre, t, rest, h1, h2, h⟩ := of_cutAt (n := 6) (r := lex asciiXid true c!"fn f() { let = 1; } fn g() {}")
    (p := fun _ pre t _ => cutAt 6 (lex asciiXid true c!"fn  name ( )\n{ let = ) ] + struct") fun _ pre' t' _ =>
      sameKinds (pre ++ [t]) (pre' ++ [t']) && t.extent.s == 13 && t'.extent.s == 19) (by decide +kernel)
  obtain ⟨ts', pre', t', rest', h1', h2', h⟩ := of_cutAt h
  simp only [Bool.and_eq_true, beq_iff_eq] at h
  obtain ⟨errs, he⟩ := FileResult.of_errAt (r := parseRustFile asciiXid true false c!"fn f() { let = 1; } fn g() {}") (n := 13)
    (by decide +kernel)
  exact ⟨ts, ts', pre, pre', rest, rest', t, t', errs, h1, h1', h2, h2', sameKinds_iff h.1.1, by rw [h.1.2]; exact he, h.1.2, h.2⟩

/-- The hypotheses of the second theorem are met by a file that is accepted and the same file without the `x` after `let`: the error is
at the `=`, which is the first token that is not as before. -/
example : ∃ ts ts' f pre' rest' t' errs0 errs, lex asciiXid true c!"fn f() { let x = 1; }" = .ok ts ∧
    parseRustFile asciiXid true true c!"fn f() { let x = 1; }" = .ok f ∧ lex asciiXid true c!"fn f() { let = 1; }" = .ok ts' ∧
    ts'.filter (fun t => !isTrivia t) = pre' ++ t' :: rest' ∧
    parseRustFile asciiXid true false c!"fn f() { let = 1; }" = .parseErr t'.extent.s errs0 ∧
    parseRustFile asciiXid true true c!"fn f() { let = 1; }" = .parseErr t'.extent.s errs ∧
    ∃ rest, SameKinds (ts.filter (fun t => !isTrivia t)) (pre' ++ rest) := by
  obtain ⟨ts, h1, h⟩ := LexResult.of_okWith (r := lex asciiXid true c!"fn f() { let x = 1; }")
    (p := fun ts => cutAt 6 (lex asciiXid true c!"fn f() { let = 1; }") fun _ pre' t' _ =>
      sameKinds (ts.filter fun t => !isTrivia t) (pre' ++ (ts.filter fun t => !isTrivia t).drop 6) && t'.extent.s == 13)
    (by decide +kernel)
  obtain ⟨ts', pre', t', rest', h1', h2', h⟩ := of_cutAt h
  simp only [Bool.and_eq_true, beq_iff_eq] at h
  obtain ⟨errs, he⟩ := FileResult.of_errAt (r := parseRustFile asciiXid true false c!"fn f() { let = 1; }") (n := 13)
    (by decide +kernel)
  obtain ⟨errs', he'⟩ := FileResult.of_errAt (r := parseRustFile asciiXid true true c!"fn f() { let = 1; }") (n := 13)
    (by decide +kernel)
  obtain ⟨f, hf⟩ := FileResult.of_isOk (r := parseRustFile asciiXid true true c!"fn f() { let x = 1; }") (by decide +kernel)
  exact ⟨ts, ts', f, pre', rest', t', errs, errs', h1, hf, h1', h2', by rw [h.2]; exact he, by rw [h.2]; exact he', _, sameKinds_iff h.1⟩

end Verif.Props
