import Verif.Proofs.ExpectRules
import Verif.Props.Local
/-!
# Property theorem: what an error says is expected can come there (C56)
-/

namespace Verif
open Verif.Spec

/-- The tokens the parser may take only a part of: `<<`, `>>`, `>>=`, `>=`, `||` and `&&`. -/
def Spec.compound : Token → Bool
  | .plain k _ => [TK.DoubleLeftAngle, .DoubleRightAngle, .ShiftRightEquals, .GreaterThanOrEquals, .DoublePipe, .DoubleAmpersand].contains k
  | .number _ => false

theorem split_of_not_compound {t : Token} (h : compound t = false) (m : Nat) : split t m = none := by
  unfold split
  split <;> first | rfl | cases h

theorem compound_at {t : Token} {e : Extent} : compound (t.at e) = compound t := by cases t <;> rfl

/-- The error of a text with another token in the place of the error is not in front of it. -/
theorem parseTokens_expected {code : Text} {toks : List Token} (hs : Src code toks) {pre pre' rest rest' : List Token} {t t' : Token}
    (ht : EofLast (pre' ++ t' :: rest')) (he : toks = pre ++ t :: rest) (hk : SameKinds pre pre') {e0 : PErr} {errs : List PErr}
    (h : parseTokens toks false = .err t.extent.s errs) (h0 : e0 ∈ errs) (hc : compound t = false) (hc' : compound t' = false)
    (h1 : ∀ k, e0 = .Expected k → ∃ e, t' = .plain k e)
    (h2 : e0 = .ExpectedNumber → ∃ m, t' = .number m ∧ m.intoSimple.isSome) (h3 : e0 ≠ .ExpectedExpression)
    (h4 : e0 ≠ .BlockNotAllowedHere) {loc' : Nat} {errs' : List PErr}
    (h' : parseTokens (pre' ++ t' :: rest') false = .err loc' errs') : ∃ v ∈ rest', v.extent.s = loc' := by
  have hlen : pre.length = pre'.length := hk.length
  -- the tokens before the error, followed by those of the other text
  have hsame : SameKinds (pre ++ t'.at ⟨t.extent.s, t.extent.s⟩ :: rest'.map (·.at ⟨t.extent.s + 1, t.extent.s + 1⟩))
      (pre' ++ t' :: rest') :=
    hk.append (.cons (t'.at_kind _) (sameKinds_at _ rest'))
  have hole : Hole toks (pre ++ t'.at ⟨t.extent.s, t.extent.s⟩ :: rest'.map (·.at ⟨t.extent.s + 1, t.extent.s + 1⟩)) pre.length e0 t
      (t'.at ⟨t.extent.s, t.extent.s⟩) := by
    refine ⟨?_, ?_, ?_, ?_, split_of_not_compound hc, split_of_not_compound (by rw [compound_at]; exact hc'), ?_, ?_, h3, h4⟩
    · intro i hi
      rw [he, List.getElem?_append_left hi, List.getElem?_append_left hi]
    · rw [he]; simp
    · simp
    · rw [Token.at_extent]
    · intro k hk
      obtain ⟨e, rfl⟩ := h1 k hk
      exact ⟨_, rfl⟩
    · intro hn
      obtain ⟨m, rfl, hm⟩ := h2 hn
      refine ⟨_, rfl, ?_⟩
      unfold Number.intoSimple at hm ⊢
      dsimp only
      generalize m.base = b at hm
      cases b <;> simp_all
  have hpre : ∀ u ∈ pre, u.extent.s < t.extent.s := by
    intro u hm
    have h1 := hs.mono
    rw [he, List.pairwise_append] at h1
    have h2 := h1.2.2 u hm t (by simp)
    have h3 : u.isEOF = false := by
      obtain ⟨init, v, h4, -, h5⟩ := hs.eof
      rw [he] at h4
      have : u ∈ init := by
        have h6 : pre <+: init ++ [v] := ⟨t :: rest, h4⟩
        have h7 : pre.length ≤ init.length := by
          have := congrArg List.length h4; simp at this; omega
        exact (List.prefix_of_prefix_length_le h6 (List.prefix_append _ _) h7).mem hm
      exact h5 u this
    have := hs.nonempty u (by rw [he]; simp [hm]) h3
    omega
  have hrest : ∀ y ∈ rest, t.extent.s < y.extent.s := by
    intro y hy
    have h1 := hs.mono
    rw [he, List.pairwise_append, List.pairwise_cons] at h1
    have h2 := h1.2.1.1 y hy
    have h3 : t.isEOF = false := by
      obtain ⟨init, v, h4, -, h5⟩ := hs.eof
      rw [he] at h4
      have : t ∈ init := by
        have h6 : pre ++ [t] <+: init ++ [v] := ⟨rest, by simpa using h4⟩
        have h7 : (pre ++ [t]).length ≤ init.length := by
          have := congrArg List.length h4
          have h8 : 0 < rest.length := List.length_pos_of_mem hy
          simp at this ⊢; omega
        exact (List.prefix_of_prefix_length_le h6 (List.prefix_append _ _) h7).mem (by simp)
      exact h5 t this
    have := hs.nonempty t (by rw [he]; simp) h3
    omega
  have hone : ∀ i u, toks[i]? = some u → u.extent.s = t.extent.s → i = pre.length := by
    intro i u hu hsu
    rw [he] at hu
    rcases Nat.lt_trichotomy i pre.length with hi | hi | hi
    · rw [List.getElem?_append_left hi] at hu
      have := hpre u (List.mem_of_getElem? hu)
      omega
    · exact hi
    · rw [List.getElem?_append_right (by omega)] at hu
      obtain ⟨j, hj⟩ : ∃ j, i - pre.length = j + 1 := ⟨i - pre.length - 1, by omega⟩
      rw [hj] at hu
      have := hrest u (List.mem_of_getElem? (by simpa using hu))
      omega
  have h5 := parseTokens_sim hsame false
  rw [h'] at h5
  generalize hr : parseTokens (pre ++ t'.at ⟨t.extent.s, t.extent.s⟩ :: rest'.map (·.at ⟨t.extent.s + 1, t.extent.s + 1⟩)) false = r at h5
  cases h5 with
  | @err i v v' _ h6 h7 =>
    rcases Nat.lt_or_ge pre.length i with hi | hi
    · rw [List.getElem?_append_right (by omega)] at h7
      obtain ⟨j, hj⟩ : ∃ j, i - pre'.length = j + 1 := ⟨i - pre'.length - 1, by omega⟩
      rw [hj] at h7
      exact ⟨v', List.mem_of_getElem? (by simpa using h7), rfl⟩
    · exfalso
      have hv : v.extent.s ≤ t.extent.s := by
        rcases Nat.lt_or_eq_of_le hi with hi | hi
        · rw [List.getElem?_append_left hi] at h6
          exact Nat.le_of_lt (hpre v (List.mem_of_getElem? h6))
        · subst hi
          simp at h6
          rw [← h6, Token.at_extent]
          exact Nat.le_refl _
      refine parseTokens_two hole hs.eof (ht.of_sameKinds hsame) hone ?_ h hr h0
      intro j w hw hws
      rcases Nat.lt_or_ge pre.length j with hj | hj
      · exfalso
        rw [List.getElem?_append_right (by omega)] at hw
        obtain ⟨j', hj'⟩ : ∃ j', j - pre.length = j' + 1 := ⟨j - pre.length - 1, by omega⟩
        rw [hj'] at hw
        obtain ⟨z, -, rfl⟩ := List.mem_map.mp (List.mem_of_getElem? (by simpa using hw : (rest'.map _)[j']? = some w))
        rw [Token.at_extent] at hws
        dsimp only at hws
        omega
      · exact hj

end Verif

namespace Verif.Props
open Verif Verif.Spec

theorem expected_can_come (X X' : Xid) (cl cl' : Bool) (code code' : Text) (ts ts' : List Token)
    (h : lex X cl code = .ok ts) (h' : lex X' cl' code' = .ok ts')
    (pre pre' rest rest' : List Token) (t t' : Token)
    (hpre : ts.filter (fun t => !isTrivia t) = pre ++ t :: rest) (hpre' : ts'.filter (fun t => !isTrivia t) = pre' ++ t' :: rest')
    (hk : SameKinds pre pre') (hc : compound t = false) (hc' : compound t' = false)
    (errs : List PErr) (he : parseRustFile X cl false code = .parseErr t.extent.s errs) (e0 : PErr) (h0 : e0 ∈ errs)
    (h1 : ∀ k, e0 = .Expected k → ∃ e, t' = .plain k e)
    (h2 : e0 = .ExpectedNumber → ∃ m, t' = .number m ∧ m.intoSimple.isSome) (h3 : e0 ≠ .ExpectedExpression)
    (h4 : e0 ≠ .BlockNotAllowedHere) :
    (∃ f, parseRustFile X' cl' false code' = .ok f) ∨
      ∃ v ∈ rest', ∃ errs', parseRustFile X' cl' false code' = .parseErr v.extent.s errs' := by
  rw [← significant_eq] at hpre hpre'
  have hx : extractWhitespace X cl code = .ok (partitionTokens ts).1 (partitionTokens ts).2 := by simp [extractWhitespace, h]
  have hx' : extractWhitespace X' cl' code' = .ok (partitionTokens ts').1 (partitionTokens ts').2 := by simp [extractWhitespace, h']
  have hs := Src.of_extract hx
  have hs' := Src.of_extract hx'
  have hp : parseTokens (partitionTokens ts).2 false = .err t.extent.s errs := by
    unfold parseRustFile at he
    rw [hx] at he
    dsimp only at he
    split at he
    · cases he; assumption
    · cases he
    · cases he
    · split at he
      · cases he
      · split at he <;> cases he
  rw [significant, ← partitionTokens_snd] at hpre hpre'
  rw [hpre'] at hx' hs'
  rcases parseRustFile_cases X' cl' false code' (Ψ := fun _ _ _ _ _ _ => True) (fun _ _ => true_inductive) with
    ⟨d, hd, -⟩ | ⟨us, loc, errs', hl, hp', hr⟩ | ⟨f, us, items, q, hr, -⟩
  · rw [h'] at hd; cases hd
  · rw [h'] at hl; cases hl
    rw [significant, ← partitionTokens_snd, hpre'] at hp'
    obtain ⟨v, hv, rfl⟩ := parseTokens_expected hs hs'.eof hpre hk hp h0 hc hc' h1 h2 h3 h4 hp'
    exact .inr ⟨v, hv, errs', hr⟩
  · exact .inl ⟨f, hr⟩

/-- If a text is rejected at a token and one of the errors is that a token of the kind `k` was expected, then every text with tokens of
the same kinds in front of that place and a token of the kind `k` there, whatever follows, is accepted or rejected only at a token
after it.  (Neither token is one the parser may take only a part of.) -/
theorem C56_expected_can_come (X X' : Xid) (cl cl' : Bool) (code code' : Text) (ts ts' : List Token)
    (h : lex X cl code = .ok ts) (h' : lex X' cl' code' = .ok ts')
    (pre pre' rest rest' : List Token) (t : Token) (k : TK) (e : Extent)
    (hpre : ts.filter (fun t => !isTrivia t) = pre ++ t :: rest)
    (hpre' : ts'.filter (fun t => !isTrivia t) = pre' ++ .plain k e :: rest')
    (hk : SameKinds pre pre') (hc : compound t = false) (hc' : compound (.plain k e) = false)
    (errs : List PErr) (he : parseRustFile X cl false code = .parseErr t.extent.s errs) (h0 : .Expected k ∈ errs) :
    (∃ f, parseRustFile X' cl' false code' = .ok f) ∨
      ∃ v ∈ rest', ∃ errs', parseRustFile X' cl' false code' = .parseErr v.extent.s errs' :=
  expected_can_come X X' cl cl' code code' ts ts' h h' pre pre' rest rest' t _ hpre hpre' hk hc hc' errs he _ h0
    (fun k' hk' => by cases hk'; exact ⟨e, rfl⟩) nofun nofun nofun

/-- The same where a number was expected, and there is a plain decimal number: without fraction, exponent, suffix or underscores. -/
theorem C56_number_can_come (X X' : Xid) (cl cl' : Bool) (code code' : Text) (ts ts' : List Token)
    (h : lex X cl code = .ok ts) (h' : lex X' cl' code' = .ok ts')
    (pre pre' rest rest' : List Token) (t : Token) (m : Number)
    (hpre : ts.filter (fun t => !isTrivia t) = pre ++ t :: rest)
    (hpre' : ts'.filter (fun t => !isTrivia t) = pre' ++ .number m :: rest')
    (hk : SameKinds pre pre') (hc : compound t = false)
    (hm : m.base = .Decimal ∧ m.fractional = none ∧ m.exponent = none ∧ m.type_suffix = none ∧ m.underscores = 0)
    (errs : List PErr) (he : parseRustFile X cl false code = .parseErr t.extent.s errs) (h0 : .ExpectedNumber ∈ errs) :
    (∃ f, parseRustFile X' cl' false code' = .ok f) ∨
      ∃ v ∈ rest', ∃ errs', parseRustFile X' cl' false code' = .parseErr v.extent.s errs' :=
  expected_can_come X X' cl cl' code code' ts ts' h h' pre pre' rest rest' t _ hpre hpre' hk hc rfl errs he _ h0 nofun
    (fun _ => ⟨m, rfl, by simp [Number.intoSimple, hm]⟩) nofun nofun

/-- For the examples: whether a text is rejected at a place with an error that satisfies something. -/
def FileResult.errWith (r : FileResult) (n : Nat) (p : List PErr → Bool) : Bool :=
  match r with | .parseErr loc errs => loc == n && p errs | _ => false

theorem FileResult.of_errWith {r : FileResult} {n : Nat} {p : List PErr → Bool} (h : FileResult.errWith r n p = true) :
    ∃ errs, r = .parseErr n errs ∧ p errs = true := by
  cases r <;> simp_all [FileResult.errWith]

/-- Whether a token that is expected is listed. -/
def lists (e : PErr) (errs : List PErr) : Bool := decide (e ∈ errs)

/-- The hypotheses are met: after `let` a pattern is missing, and an identifier is among what is expected.  The other text has an
identifier there; it is rejected, but only at its next token. -/
example : ∃ ts ts' pre pre' rest rest' t e errs, lex asciiXid true c!"fn f() { let = 1; } fn g() {}" = .ok ts ∧
    lex asciiXid true c!"fn  name ( )\n{ let x ] + struct" = .ok ts' ∧
    ts.filter (fun t => !isTrivia t) = pre ++ t :: rest ∧
    ts'.filter (fun t => !isTrivia t) = pre' ++ .plain .Ident e :: rest' ∧ SameKinds pre pre' ∧
    compound t = false ∧ compound (.plain .Ident e) = false ∧
    parseRustFile asciiXid true false c!"fn f() { let = 1; } fn g() {}" = .parseErr t.extent.s errs ∧ .Expected .Ident ∈ errs ∧
    FileResult.errAt (parseRustFile asciiXid true false c!"fn  name ( )\n{ let x ] + struct") 21 = true ∧ e = ⟨19, 20⟩ := by
  obtain ⟨ts, pre, t, rest, h1, h2, h⟩ := of_cutAt (n := 6) (r := lex asciiXid true c!"fn f() { let = 1; } fn g() {}")
    (p := fun _ pre t _ => cutAt 6 (lex asciiXid true c!"fn  name ( )\n{ let x ] + struct") fun _ pre' t' _ =>
      sameKinds pre pre' && t.extent.s == 13 && !compound t && t' == .plain .Ident ⟨19, 20⟩) (by decide +kernel)
  obtain ⟨ts', pre', t', rest', h1', h2', h⟩ := of_cutAt h
  simp only [Bool.and_eq_true, beq_iff_eq, Bool.not_eq_true'] at h
  obtain ⟨errs, he, he'⟩ := FileResult.of_errWith (r := parseRustFile asciiXid true false c!"fn f() { let = 1; } fn g() {}") (n := 13)
    (p := lists (.Expected .Ident)) (by decide +kernel)
  exact ⟨ts, ts', pre, pre', rest, rest', t, _, errs, h1, h1', h2, by rw [h2', h.2], sameKinds_iff h.1.1.1, h.1.2, rfl,
    by rw [h.1.1.2]; exact he, of_decide_eq_true he', by decide +kernel, rfl⟩

/-- The hypotheses about a number are met: after `=` an expression is missing, and a number is among what is expected. -/
example : ∃ ts ts' pre pre' rest rest' t m errs, lex asciiXid true c!"fn f() { let x = ; }" = .ok ts ∧
    lex asciiXid true c!"fn f() { let x = 17; }" = .ok ts' ∧
    ts.filter (fun t => !isTrivia t) = pre ++ t :: rest ∧
    ts'.filter (fun t => !isTrivia t) = pre' ++ .number m :: rest' ∧ SameKinds pre pre' ∧
    compound t = false ∧ (m.base = .Decimal ∧ m.fractional = none ∧ m.exponent = none ∧ m.type_suffix = none ∧ m.underscores = 0) ∧
    parseRustFile asciiXid true false c!"fn f() { let x = ; }" = .parseErr t.extent.s errs ∧ .ExpectedNumber ∈ errs := by
  obtain ⟨ts, pre, t, rest, h1, h2, h⟩ := of_cutAt (n := 8) (r := lex asciiXid true c!"fn f() { let x = ; }")
    (p := fun _ pre t _ => cutAt 8 (lex asciiXid true c!"fn f() { let x = 17; }") fun _ pre' t' _ =>
      sameKinds pre pre' && t.extent.s == 17 && !compound t &&
        t' == .number ⟨.Decimal, ⟨17, 19⟩, ⟨17, 19⟩, none, none, none, 0⟩) (by decide +kernel)
  obtain ⟨ts', pre', t', rest', h1', h2', h⟩ := of_cutAt h
  simp only [Bool.and_eq_true, beq_iff_eq, Bool.not_eq_true'] at h
  obtain ⟨errs, he, he'⟩ := FileResult.of_errWith (r := parseRustFile asciiXid true false c!"fn f() { let x = ; }") (n := 17)
    (p := lists .ExpectedNumber) (by decide +kernel)
  exact ⟨ts, ts', pre, pre', rest, rest', t, _, errs, h1, h1', h2, by rw [h2', h.2], sameKinds_iff h.1.1.1, h.1.2,
    ⟨rfl, rfl, rfl, rfl, rfl⟩, by rw [h.1.1.2]; exact he, of_decide_eq_true he'⟩

/-- The list of what is expected is not complete.  Where the comma between two parameters is missing, a comma is not listed, although
with the comma the text is accepted. -/
theorem C56_complete_false : ∃ errs, parseRustFile asciiXid true false c!"fn f(a: u8 b: u8) {}" = .parseErr 11 errs ∧
    .Expected .Comma ∉ errs ∧ ∃ f, parseRustFile asciiXid true false c!"fn f(a: u8, b: u8) {}" = .ok f := by
  obtain ⟨errs, h, h'⟩ := FileResult.of_errWith (r := parseRustFile asciiXid true false c!"fn f(a: u8 b: u8) {}") (n := 11)
    (p := fun errs => !lists (.Expected .Comma) errs) (by decide +kernel)
  exact ⟨errs, h, by simpa [lists] using h', FileResult.of_isOk (by decide +kernel)⟩

/-- It matters that the token at the error is not one the parser may take only a part of.  Here the first `>` of `>>` ends the type, the
second one is the error, the place reported is that of `>>`, and `{` is expected after the first `>`; but in the place of `>>` it is
wrong. -/
theorem C56_compound_false : ∃ errs errs', parseRustFile asciiXid true false c!"fn f() -> A<B>> {}" = .parseErr 13 errs ∧
    .Expected .LeftCurly ∈ errs ∧ parseRustFile asciiXid true false c!"fn f() -> A<B{ {}" = .parseErr 13 errs' := by
  obtain ⟨errs, h, h'⟩ := FileResult.of_errWith (r := parseRustFile asciiXid true false c!"fn f() -> A<B>> {}") (n := 13)
    (p := lists (.Expected .LeftCurly)) (by decide +kernel)
  obtain ⟨errs', h2⟩ := FileResult.of_errAt (r := parseRustFile asciiXid true false c!"fn f() -> A<B{ {}") (n := 13) (by decide +kernel)
  exact ⟨errs, errs', h, of_decide_eq_true h', h2⟩

end Verif.Props
