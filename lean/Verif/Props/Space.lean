import Verif.Proofs.SpaceSwap
import Verif.Props.Contents
import Verif.Props.Syntax
/-!
# Property theorem: white space can be replaced by other white space (C69)
-/

namespace Verif.Props
open Verif Verif.Spec

/-- White space is replaced by other white space, which starts with a newline if it follows a line comment.  Nothing else about the
tokens changes, but those behind it are moved. -/
theorem C69_space_tokens (X : Xid) (hX : Sane X) (cl : Bool) (a w w' b : Text) (ts : List Token)
    (h : lex X cl (a ++ w ++ b) = .ok ts) (ht : .plain .Whitespace ⟨blen a, blen (a ++ w)⟩ ∈ ts)
    (hne : w' ≠ []) (hw : ∀ c ∈ w', c ∈ wsChars)
    (hl : ∀ u ∈ ts, ∀ k, u.kind? = some k → isLineKind k → u.extent.e = blen a → StartsIn (· = '\n') w') :
    ∃ A B : List Token, ts = A ++ .plain .Whitespace ⟨blen a, blen (a ++ w)⟩ :: B.map (·.moved (blen (a ++ w))) ∧
      lex X cl (a ++ w' ++ b) = .ok (A ++ .plain .Whitespace ⟨blen a, blen (a ++ w')⟩ :: B.map (·.moved (blen (a ++ w')))) := by
  rw [lex_spelled hX] at h
  obtain ⟨A, B0, rfl⟩ := List.append_of_mem ht
  obtain ⟨P, v, c, he, h1, h2, h3, h4⟩ := spelled_space hX rfl A h
  have hext := (spelling_ext hX h1).2.1
  simp only [Token.extent, Extent.mk.injEq] at hext
  rw [List.append_assoc] at he
  obtain ⟨rfl, he2⟩ := front_unique he (by omega)
  have hlen : blen w = blen v := by have := hext.2; rw [blen_append] at this; omega
  obtain ⟨rfl, rfl⟩ := front_unique he2 hlen
  obtain ⟨U, hU, rfl⟩ := spelled_base hX h2
  refine ⟨A, U, by rw [blen_append, Nat.zero_add], ?_⟩
  rw [lex_spelled hX]
  have h5 := spelled_moved hU (blen (a ++ w'))
  have := h4 (t' := .plain .Whitespace ⟨blen a, blen (a ++ w')⟩) hne hw (fun u hu k hk hlk he => hl u (by simp [hu]) k hk hlk (by omega))
    (by rw [blen_append, Nat.zero_add]; exact .ws hne hw (spelling_blank h1 rfl).2) (by simpa using h5)
  simpa using this

/-- White space is replaced by other white space.  If the text was accepted, it still is, with a tree of the same shape; if it was
rejected, it still is, for the same reasons and at the same token. -/
theorem C69_space (X : Xid) (hX : Sane X) (cl cp : Bool) (a w w' b : Text) (ts : List Token)
    (h : lex X cl (a ++ w ++ b) = .ok ts) (ht : .plain .Whitespace ⟨blen a, blen (a ++ w)⟩ ∈ ts)
    (hne : w' ≠ []) (hw : ∀ c ∈ w', c ∈ wsChars)
    (hl : ∀ u ∈ ts, ∀ k, u.kind? = some k → isLineKind k → u.extent.e = blen a → StartsIn (· = '\n') w') :
    ∃ ts', lex X cl (a ++ w' ++ b) = .ok ts' ∧
      SameOutcome (ts.filter fun t => !isTrivia t) (ts'.filter fun t => !isTrivia t)
        (parseRustFile X cl cp (a ++ w ++ b)) (parseRustFile X cl cp (a ++ w' ++ b)) := by
  obtain ⟨A, B, rfl, h'⟩ := C69_space_tokens X hX cl a w w' b ts h ht hne hw hl
  refine ⟨_, h', C41_layout X X cl cl cp _ _ _ _ h h' ?_⟩
  have tr : ∀ d, (B.map (·.moved d)).filter (fun t => !isTrivia t) = (B.filter fun t => !isTrivia t).map (·.moved d) := by
    intro d
    rw [List.filter_map]
    congr 1
    exact List.filter_congr fun t _ => by simp [isTrivia_moved]
  simp only [List.filter_append, List.filter_cons, tr]
  exact sameKinds_append (sameKinds_refl _) (sameKinds_moved _ _ _)

/-- The tokens that the parser may cut in two. -/
def cutKinds : List TK :=
  [.DoubleLeftAngle, .DoubleRightAngle, .ShiftRightEquals, .GreaterThanOrEquals, .DoublePipe, .DoubleAmpersand]

/-- The result is then the same, at the places where things are in the new text, if what comes next, but for more white space and
comments, is not one of the tokens that may be cut.  (The parser measures the front of such a token from the end of the token before it,
see C51.) -/
theorem C69_space_places (X : Xid) (hX : Sane X) (cl cp : Bool) (a w w' b : Text) (ts : List Token)
    (h : lex X cl (a ++ w ++ b) = .ok ts) (ht : .plain .Whitespace ⟨blen a, blen (a ++ w)⟩ ∈ ts)
    (hne : w' ≠ []) (hw : ∀ c ∈ w', c ∈ wsChars)
    (hl : ∀ u ∈ ts, ∀ k, u.kind? = some k → isLineKind k → u.extent.e = blen a → StartsIn (· = '\n') w')
    (hc : ∀ A t B, ts = A ++ .plain .Whitespace ⟨blen a, blen (a ++ w)⟩ :: B → (B.filter fun t => !isTrivia t).head? = some t →
      ∀ k, t.kind? = some k → k ∉ cutKinds) :
    parseRustFile X cl cp (a ++ w' ++ b) =
      (parseRustFile X cl cp (a ++ w ++ b)).placed (replacedAt 1 (blen a) (blen (a ++ w)) (blen (a ++ w'))) := by
  have hpos := Place.lex_nonempty h _ ht (by simp [Token.kind?])
  simp only [Token.extent] at hpos
  have hpos' : blen a < blen (a ++ w') := by
    obtain ⟨x, xs, rfl⟩ := List.exists_cons_of_ne_nil hne
    have := x.utf8Size_pos
    simp
    omega
  obtain ⟨A, B, rfl, h'⟩ := C69_space_tokens X hX cl a w w' b ts h ht hne hw hl
  have hcut : ∀ t ∈ (significant B).head?, ∀ n, split t n = none := by
    intro t hm n
    rw [Option.mem_def, significant_eq] at hm
    have tr : (B.map (·.moved (blen (a ++ w)))).filter (fun t => !isTrivia t) = (B.filter fun t => !isTrivia t).map (·.moved (blen (a ++ w))) := by
      rw [List.filter_map]
      congr 1
      exact List.filter_congr fun t _ => by simp [isTrivia_moved]
    have := hc A (t.moved (blen (a ++ w))) _ rfl (by rw [tr, List.head?_map, hm]; rfl)
    cases t with
    | number => rfl
    | plain k e =>
      have hk := this k rfl
      obtain ⟨x, y⟩ := e
      match n with
      | 0 => cases k <;> first | rfl | exact absurd (by decide) hk
      | 1 => cases k <;> first | rfl | exact absurd (by decide) hk
      | n + 2 => cases k <;> rfl
  by_cases hlong : blen a + 1 < blen (a ++ w)
  · exact Place.replace_token h h' hlong hpos' (.inr (.inl (by decide))) (.inr (.inr hcut)) fun _ => rfl
  · have hone : blen (a ++ w) = blen a + 1 := by omega
    have e : replacedAt 1 (blen a) (blen (a ++ w)) (blen (a ++ w')) = replacedAt 0 (blen a) (blen (a ++ w)) (blen (a ++ w')) := by
      funext x
      unfold replacedAt
      split <;> omega
    rw [e]
    exact Place.replace_token h h' (by omega) (by omega) (.inr (.inr ⟨hone, hpos'⟩)) (.inr (.inr hcut)) fun _ => rfl

/-- It is also the same, whatever comes next, if there was white space of more than two bytes, and there still is of at least two. -/
theorem C69_space_long (X : Xid) (hX : Sane X) (cl cp : Bool) (a w w' b : Text) (ts : List Token)
    (h : lex X cl (a ++ w ++ b) = .ok ts) (ht : .plain .Whitespace ⟨blen a, blen (a ++ w)⟩ ∈ ts)
    (hne : w' ≠ []) (hw : ∀ c ∈ w', c ∈ wsChars)
    (hl : ∀ u ∈ ts, ∀ k, u.kind? = some k → isLineKind k → u.extent.e = blen a → StartsIn (· = '\n') w')
    (hlong : 2 < blen w) (hlong' : 2 ≤ blen w') :
    parseRustFile X cl cp (a ++ w' ++ b) =
      (parseRustFile X cl cp (a ++ w ++ b)).placed (replacedAt 2 (blen a) (blen (a ++ w)) (blen (a ++ w'))) := by
  obtain ⟨A, B, rfl, h'⟩ := C69_space_tokens X hX cl a w w' b ts h ht hne hw hl
  exact Place.replace_token h h' (by simp; omega) (by simp; omega) (.inr (.inl (by decide))) (.inr (.inl (by decide))) fun _ => rfl

/-- The hypotheses are met: the line break behind a comment and the indentation after it are replaced. -/
example : ∃ ts, lex asciiXid true (c!"fn f() { // x" ++ c!"\n    " ++ c!"1.5 }") = .ok ts ∧
      .plain .Whitespace ⟨blen c!"fn f() { // x", blen (c!"fn f() { // x" ++ c!"\n    ")⟩ ∈ ts ∧
      (∃ u ∈ ts, ∃ k, u.kind? = some k ∧ isLineKind k ∧ u.extent.e = blen c!"fn f() { // x") ∧ StartsIn (· = '\n') c!"\n\t" ∧
      (∀ c ∈ c!"\n\t", c ∈ wsChars) ∧
      ∀ A t B, ts = A ++ .plain .Whitespace ⟨blen c!"fn f() { // x", blen (c!"fn f() { // x" ++ c!"\n    ")⟩ :: B →
        (B.filter fun t => !isTrivia t).head? = some t → ∀ k, t.kind? = some k → k ∉ cutKinds := by
  obtain ⟨ts, h1, h2⟩ := LexResult.of_okWith (r := lex asciiXid true (c!"fn f() { // x" ++ c!"\n    " ++ c!"1.5 }"))
    (p := fun ts => decide (.plain .Whitespace ⟨blen c!"fn f() { // x", blen (c!"fn f() { // x" ++ c!"\n    ")⟩ ∈ ts ∧
      .plain .CommentLine ⟨9, 13⟩ ∈ ts ∧ ∀ t ∈ ts, ∀ k ∈ cutKinds, t.kind? ≠ some k)) (by decide +kernel)
  obtain ⟨h2, h3, h4⟩ := of_decide_eq_true h2
  refine ⟨ts, h1, h2, ⟨_, h3, _, rfl, by unfold isLineKind; decide, by decide⟩, ⟨_, _, rfl, rfl⟩, by decide, ?_⟩
  rintro A t B rfl ht k hk hm
  have := List.mem_of_mem_head? (Option.mem_def.mpr ht)
  exact h4 t (by simp [(List.mem_filter.mp this).1]) k hm hk

/-- The condition on the next token is needed: in front of `>>` the inner type is said to end one byte behind the `8`, whether there is
one space or there are three. -/
example : (∃ f, parseRustFile asciiXid true true (c!"fn f(a: Vec<Vec<u8" ++ c!" " ++ c!">>) {}") = .ok f ∧
      decide ((.TypeNamed, some c!"Vec<u8 ") ∈ texts c!"fn f(a: Vec<Vec<u8 >>) {}" f) = true) ∧
    ∃ f, parseRustFile asciiXid true true (c!"fn f(a: Vec<Vec<u8" ++ c!"   " ++ c!">>) {}") = .ok f ∧
      decide ((.TypeNamed, some c!"Vec<u8 ") ∈ texts c!"fn f(a: Vec<Vec<u8   >>) {}" f) = true :=
  ⟨FileResult.of_okWith (by decide +kernel), FileResult.of_okWith (by decide +kernel)⟩

/-- The condition on line comments is needed: with a space for the newline, what comes next is in the comment. -/
example : (∃ ts, lex asciiXid true (c!"//" ++ c!"\n" ++ c!"a") = .ok ts ∧ ts.length = 4) ∧
    ∃ ts, lex asciiXid true (c!"//" ++ c!" " ++ c!"a") = .ok ts ∧ ts.length = 2 := by
  refine ⟨?_, ?_⟩
  · obtain ⟨ts, h1, h2⟩ := LexResult.of_okWith (r := lex asciiXid true (c!"//" ++ c!"\n" ++ c!"a")) (p := fun ts => ts.length == 4) (by decide +kernel)
    exact ⟨ts, h1, by simpa using h2⟩
  · obtain ⟨ts, h1, h2⟩ := LexResult.of_okWith (r := lex asciiXid true (c!"//" ++ c!" " ++ c!"a")) (p := fun ts => ts.length == 2) (by decide +kernel)
    exact ⟨ts, h1, by simpa using h2⟩

end Verif.Props
