import Verif.Proofs.PlaceFile
import Verif.Proofs.Rename
import Verif.Props.Shape
import Verif.Props.Spelling
/-!
# Property theorem: an identifier can be renamed (C67)
-/

namespace Verif.Props
open Verif Verif.Spec

/-- Texts of the same length at the front of a text are the same. -/
theorem front_unique : ∀ {a p x y : Text}, a ++ x = p ++ y → blen a = blen p → a = p ∧ x = y
  | [], [], _, _, e, _ => ⟨rfl, e⟩
  | [], d :: p, _, _, _, h => by have := d.utf8Size_pos; simp at h; omega
  | c :: a, [], _, _, _, h => by have := c.utf8Size_pos; simp at h; omega
  | c :: a, d :: p, x, y, e, h => by
    simp at e h
    obtain ⟨rfl, e⟩ := e
    obtain ⟨rfl, rfl⟩ := front_unique e (by omega)
    exact ⟨rfl, rfl⟩

theorem sameKinds_refl (ts : List Token) : SameKinds ts ts := by
  induction ts with
  | nil => exact .nil
  | cons t ts ih => exact .cons (by cases t <;> simp [SameKind]) ih

theorem sameKinds_moved (ts : List Token) (d d' : Nat) : SameKinds (ts.map (·.moved d)) (ts.map (·.moved d')) := by
  induction ts with
  | nil => exact .nil
  | cons t ts ih => exact .cons (by cases t <;> simp [SameKind, Token.moved, Number.moved]) ih

theorem sameKinds_append {a a' b b' : List Token} (h : SameKinds a a') (h' : SameKinds b b') : SameKinds (a ++ b) (a' ++ b') := by
  induction h with
  | nil => exact h'
  | cons h _ ih => exact .cons h ih

/-- An identifier is replaced by another one.  Nothing else about the tokens changes, but those behind it are moved. -/
theorem C67_rename_tokens (X : Xid) (hX : Sane X) (hS : ∀ c, X.start c = true → X.cont c = true) (cl : Bool) (a w w' b : Text) (ts : List Token)
    (h : lex X cl (a ++ w ++ b) = .ok ts) (ht : .plain .Ident ⟨blen a, blen (a ++ w)⟩ ∈ ts)
    (hw : Word X w') (hk : ∀ k, keywordText k ≠ some w') (hl : ¬ LiteralAt (w' ++ b)) (hr : ¬ c!"r#" <+: w' ++ b) :
    ∃ A B : List Token, ts = A ++ .plain .Ident ⟨blen a, blen (a ++ w)⟩ :: B.map (·.moved (blen (a ++ w))) ∧
      lex X cl (a ++ w' ++ b) = .ok (A ++ .plain .Ident ⟨blen a, blen (a ++ w')⟩ :: B.map (·.moved (blen (a ++ w')))) := by
  rw [lex_spelled hX] at h
  obtain ⟨A, B0, rfl⟩ := List.append_of_mem ht
  obtain ⟨P, v, c, he, h1, h2, h3, h4⟩ := spelled_swap hX hS rfl A h
  have hext := (spelling_ext hX h1).2.1
  simp only [Token.extent, Extent.mk.injEq] at hext
  rw [List.append_assoc] at he
  obtain ⟨rfl, he2⟩ := front_unique he (by omega)
  have hlen : blen w = blen v := by have := hext.2; rw [blen_append] at this; omega
  obtain ⟨rfl, rfl⟩ := front_unique he2 hlen
  obtain ⟨U, hU, rfl⟩ := spelled_base hX h2
  refine ⟨A, U, by rw [blen_append, Nat.zero_add], ?_⟩
  rw [lex_spelled hX]
  have h5 := spelled_moved hU (blen (a ++ w'))
  have := h4 hw (Spelling.ident hw hk (spelling_ident hX h1 rfl).2 hl hr) (by simpa using h5)
  simpa using this

/-- An identifier is replaced by another one.  If the text was accepted, it still is, with a tree of the same shape; if it was
rejected, it still is, for the same reasons and at the same token. -/
theorem C67_rename (X : Xid) (hX : Sane X) (hS : ∀ c, X.start c = true → X.cont c = true) (cl cp : Bool) (a w w' b : Text) (ts : List Token)
    (h : lex X cl (a ++ w ++ b) = .ok ts) (ht : .plain .Ident ⟨blen a, blen (a ++ w)⟩ ∈ ts)
    (hw : Word X w') (hk : ∀ k, keywordText k ≠ some w') (hl : ¬ LiteralAt (w' ++ b)) (hr : ¬ c!"r#" <+: w' ++ b) :
    ∃ ts', lex X cl (a ++ w' ++ b) = .ok ts' ∧
      SameOutcome (ts.filter fun t => !isTrivia t) (ts'.filter fun t => !isTrivia t)
        (parseRustFile X cl cp (a ++ w ++ b)) (parseRustFile X cl cp (a ++ w' ++ b)) := by
  obtain ⟨A, B, rfl, h'⟩ := C67_rename_tokens X hX hS cl a w w' b ts h ht hw hk hl hr
  refine ⟨_, h', C41_layout X X cl cl cp _ _ _ _ h h' ?_⟩
  have tr : ∀ d, (B.map (·.moved d)).filter (fun t => !isTrivia t) = (B.filter fun t => !isTrivia t).map (·.moved d) := by
    intro d
    rw [List.filter_map]
    congr 1
    exact List.filter_congr fun t _ => by simp [isTrivia_moved]
  simp only [List.filter_append, List.filter_cons, tr]
  refine sameKinds_append (sameKinds_refl _) ?_
  exact SameKinds.cons rfl (sameKinds_moved _ _ _)

/-- An identifier is replaced by another one: the result is the same, at the places where things are in the new text: what is before the
name stays, what is behind it moves by the difference of the lengths. -/
theorem C67_rename_places (X : Xid) (hX : Sane X) (hS : ∀ c, X.start c = true → X.cont c = true) (cl cp : Bool) (a w w' b : Text) (ts : List Token)
    (h : lex X cl (a ++ w ++ b) = .ok ts) (ht : .plain .Ident ⟨blen a, blen (a ++ w)⟩ ∈ ts)
    (hw : Word X w') (hk : ∀ k, keywordText k ≠ some w') (hl : ¬ LiteralAt (w' ++ b)) (hr : ¬ c!"r#" <+: w' ++ b) :
    parseRustFile X cl cp (a ++ w' ++ b) =
      (parseRustFile X cl cp (a ++ w ++ b)).placed (replacedAt 0 (blen a) (blen (a ++ w)) (blen (a ++ w'))) := by
  have hne := Place.lex_nonempty h _ ht (by simp [Token.kind?])
  obtain ⟨A, B, rfl, h'⟩ := C67_rename_tokens X hX hS cl a w w' b ts h ht hw hk hl hr
  exact Place.replace_token h h' hne (by simp) (.inl rfl) (.inl rfl) fun _ => rfl

/-- If the new name is as long as the old one, the result is the very same, places and all. -/
theorem C67_rename_same_length (X : Xid) (hX : Sane X) (hS : ∀ c, X.start c = true → X.cont c = true) (cl cp : Bool) (a w w' b : Text) (ts : List Token)
    (h : lex X cl (a ++ w ++ b) = .ok ts) (ht : .plain .Ident ⟨blen a, blen (a ++ w)⟩ ∈ ts)
    (hw : Word X w') (hk : ∀ k, keywordText k ≠ some w') (hl : ¬ LiteralAt (w' ++ b)) (hr : ¬ c!"r#" <+: w' ++ b) (he : blen w' = blen w) :
    parseRustFile X cl cp (a ++ w' ++ b) = parseRustFile X cl cp (a ++ w ++ b) := by
  obtain ⟨A, B, rfl, h'⟩ := C67_rename_tokens X hX hS cl a w w' b ts h ht hw hk hl hr
  have e : blen (a ++ w') = blen (a ++ w) := by simp [he]
  rw [e] at h'
  have : extractWhitespace X cl (a ++ w' ++ b) = extractWhitespace X cl (a ++ w ++ b) := by
    unfold extractWhitespace
    rw [h, h']
  unfold parseRustFile
  rw [this]

/-- The hypotheses are met: a field behind a number and a period, in a text with raw strings and comments, is renamed. -/
example : Sane asciiXid ∧ (∀ c, asciiXid.start c = true → asciiXid.cont c = true) ∧
    (∃ ts, lex asciiXid true (c!"fn f() { g(/* x */ 1." ++ c!"x" ++ c!" + r\"x\") }") = .ok ts ∧
      .plain .Ident ⟨blen c!"fn f() { g(/* x */ 1.", blen (c!"fn f() { g(/* x */ 1." ++ c!"x")⟩ ∈ ts) ∧
    Word asciiXid c!"length" ∧ (∀ k, keywordText k ≠ some c!"length") ∧ ¬ LiteralAt (c!"length" ++ c!" + r\"x\") }") ∧
    ¬ c!"r#" <+: c!"length" ++ c!" + r\"x\") }" := by
  refine ⟨asciiXid_sane, ?_, ?_, ⟨'l', c!"ength", rfl, by decide, by decide⟩, ?_, ?_, by decide⟩
  · intro c h
    simp only [asciiXid, Char.isAlphanum] at *
    simp [h]
  · obtain ⟨ts, h1, h2⟩ := LexResult.of_okWith
      (r := lex asciiXid true (c!"fn f() { g(/* x */ 1." ++ c!"x" ++ c!" + r\"x\") }"))
      (p := fun ts => ts.contains (.plain .Ident ⟨blen c!"fn f() { g(/* x */ 1.", blen (c!"fn f() { g(/* x */ 1." ++ c!"x")⟩)) (by decide +kernel)
    exact ⟨ts, h1, by simpa using h2⟩
  · intro k
    cases k <;> decide
  · intro h
    rcases literalAt_cases h with ⟨d, t, e, hd⟩ | ⟨d, t, e, hd⟩ | ⟨d, t, e, hd⟩ <;> simp at e

/-- The condition on what comes behind is needed: in front of a string, the name `x` is a token of its own, but `b` is not. -/
example : (∃ ts, lex asciiXid true c!"x\"s\"" = .ok ts ∧ ts.length = 3) ∧ ∃ ts, lex asciiXid true c!"b\"s\"" = .ok ts ∧ ts.length = 2 := by
  refine ⟨?_, ?_⟩
  · obtain ⟨ts, h1, h2⟩ := LexResult.of_okWith (r := lex asciiXid true c!"x\"s\"") (p := fun ts => ts.length == 3) (by decide +kernel)
    exact ⟨ts, h1, by simpa using h2⟩
  · obtain ⟨ts, h1, h2⟩ := LexResult.of_okWith (r := lex asciiXid true c!"b\"s\"") (p := fun ts => ts.length == 2) (by decide +kernel)
    exact ⟨ts, h1, by simpa using h2⟩

end Verif.Props
