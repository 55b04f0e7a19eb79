import Verif.Props.Contents
/-!
# Property theorem: a character literal or a lifetime can be replaced by another (C71)
-/

namespace Verif.Props
open Verif Verif.Spec

theorem spelling_char {X : Xid} {o : Nat} {t : Token} {w b : Text} (h : Spelling X o t w b) (hk : t.kind? = some .Character) : CharLit w := by
  cases h with
  | char h => exact h
  | keyword h1 => cases hk; cases h1
  | symbol h1 => cases hk; cases h1
  | line h1 => cases hk; rcases h1 with h | h | h <;> cases h
  | block h1 => cases hk; cases h1
  | number => cases hk
  | _ => cases hk

theorem spelling_lifetime {X : Xid} {o : Nat} {t : Token} {w b : Text} (h : Spelling X o t w b) (hk : t.kind? = some .Lifetime) :
    ∃ v, w = '\'' :: v ∧ NoCont X b := by
  cases h with
  | lifetime _ h _ => exact ⟨_, rfl, h⟩
  | keyword h1 => cases hk; cases h1
  | symbol h1 => cases hk; cases h1
  | line h1 => cases hk; rcases h1 with h | h | h <;> cases h
  | block h1 => cases hk; cases h1
  | number => cases hk
  | _ => cases hk

theorem CharLit.tick {w : Text} (h : CharLit w) : ∃ cs, w = '\'' :: cs := by
  obtain ⟨b, -, rfl⟩ := h
  exact ⟨_, rfl⟩

/-- A character literal is replaced by another one, which is not that of the quote.  Nothing else about the tokens changes, but those
behind it are moved. -/
theorem C71_character_tokens (X : Xid) (hX : Sane X) (cl : Bool) (a w w' b : Text) (ts : List Token)
    (h : lex X cl (a ++ w ++ b) = .ok ts) (ht : .plain .Character ⟨blen a, blen (a ++ w)⟩ ∈ ts) (hw : CharLit w') (hq : '"' ∉ w') :
    ∃ A B : List Token, ts = A ++ .plain .Character ⟨blen a, blen (a ++ w)⟩ :: B.map (·.moved (blen (a ++ w))) ∧
      lex X cl (a ++ w' ++ b) = .ok (A ++ .plain .Character ⟨blen a, blen (a ++ w')⟩ :: B.map (·.moved (blen (a ++ w')))) := by
  refine swap_tail hX (by simp) h ht fun o h1 => ?_
  have h2 := spelling_char h1 rfl
  obtain ⟨cs, rfl⟩ := CharLit.tick h2
  obtain ⟨cs', rfl⟩ := CharLit.tick hw
  refine ⟨'\'', cs, cs', b, .inr (.inr ⟨rfl, .inl ⟨_, b, rfl, h2⟩⟩), rfl, rfl, fun hm => hq (by simp [hm]), fun h => (by cases h), ?_⟩
  rw [blen_append]
  exact .char hw

/-- The result is then the same, at the places where things are in the new text. -/
theorem C71_character (X : Xid) (hX : Sane X) (cl cp : Bool) (a w w' b : Text) (ts : List Token)
    (h : lex X cl (a ++ w ++ b) = .ok ts) (ht : .plain .Character ⟨blen a, blen (a ++ w)⟩ ∈ ts) (hw : CharLit w') (hq : '"' ∉ w') :
    parseRustFile X cl cp (a ++ w' ++ b) =
      (parseRustFile X cl cp (a ++ w ++ b)).placed (replacedAt 0 (blen a) (blen (a ++ w)) (blen (a ++ w'))) := by
  have hne := Place.lex_nonempty h _ ht (by simp [Token.kind?])
  obtain ⟨A, B, rfl, h'⟩ := C71_character_tokens X hX cl a w w' b ts h ht hw hq
  exact Place.replace_token h h' hne (by simp) (.inl rfl) (.inl rfl) fun _ => rfl

/-- A lifetime is replaced by another one.  Nothing else about the tokens changes, but those behind it are moved.  The condition is that
the new one, if its name is one letter, is not made a character literal by what follows it. -/
theorem C71_lifetime_tokens (X : Xid) (hX : Sane X) (cl : Bool) (a w v b : Text) (ts : List Token)
    (h : lex X cl (a ++ w ++ b) = .ok ts) (ht : .plain .Lifetime ⟨blen a, blen (a ++ w)⟩ ∈ ts) (hw : Word X v)
    (hv : v.length = 1 → ¬ StartsIn (· = '\'') b) :
    ∃ A B : List Token, ts = A ++ .plain .Lifetime ⟨blen a, blen (a ++ w)⟩ :: B.map (·.moved (blen (a ++ w))) ∧
      lex X cl (a ++ '\'' :: v ++ b) = .ok (A ++ .plain .Lifetime ⟨blen a, blen (a ++ '\'' :: v)⟩ :: B.map (·.moved (blen (a ++ '\'' :: v)))) := by
  refine swap_tail hX (by simp) h ht fun o h1 => ?_
  obtain ⟨cs, rfl, hno⟩ := spelling_lifetime h1 rfl
  obtain ⟨y, ys, rfl, hy, hys⟩ := hw
  have word : ∀ d ∈ c!"'\"\\", d ∉ y :: ys := by
    intro d hd h0
    rcases List.mem_cons.mp h0 with rfl | hm
    · have : d ∈ symHeads ++ c!"'\"0123456789" := by
        revert hd
        simp
        rintro (rfl | rfl | rfl) <;> decide
      exact not_start hX d this hy
    · have h3 := hys d hm
      have h4 : d.toNat < 128 ∧ (d.isAlphanum || decide (d = '_')) = false := by
        clear h0 hm h3
        revert d
        decide
      rw [hX.cont d h4.1, h4.2] at h3
      cases h3
  refine ⟨'\'', cs, y :: ys, b, .inr (.inr ⟨rfl, .inr ?_⟩), rfl, rfl, word _ (by decide), fun h => (by cases h), ?_⟩
  · rintro q ⟨cb, hcb, rfl⟩ ⟨r, hr⟩
    cases hcb with
    | single hne =>
      simp at hr
      obtain ⟨rfl, hr⟩ := hr
      cases ys with
      | nil => simp at hr; exact hv rfl ⟨_, _, hr.symm, rfl⟩
      | cons z zs => simp at hr; exact word '\'' (by decide) (by rw [hr.1]; simp)
    | esc hne =>
      simp at hr
      exact word '\\' (by decide) (by rw [hr.1]; simp)
  · rw [blen_append]
    exact .lifetime ⟨y, ys, rfl, hy, hys⟩ hno fun h => hv h.1 h.2

/-- The result is then the same, at the places where things are in the new text. -/
theorem C71_lifetime (X : Xid) (hX : Sane X) (cl cp : Bool) (a w v b : Text) (ts : List Token)
    (h : lex X cl (a ++ w ++ b) = .ok ts) (ht : .plain .Lifetime ⟨blen a, blen (a ++ w)⟩ ∈ ts) (hw : Word X v)
    (hv : v.length = 1 → ¬ StartsIn (· = '\'') b) :
    parseRustFile X cl cp (a ++ '\'' :: v ++ b) =
      (parseRustFile X cl cp (a ++ w ++ b)).placed (replacedAt 0 (blen a) (blen (a ++ w)) (blen (a ++ '\'' :: v))) := by
  have hne := Place.lex_nonempty h _ ht (by simp [Token.kind?])
  obtain ⟨A, B, rfl, h'⟩ := C71_lifetime_tokens X hX cl a w v b ts h ht hw hv
  exact Place.replace_token h h' hne (by simp) (.inl rfl) (.inl rfl) fun _ => rfl

/-- The hypotheses are met. -/
example : (∃ ts, lex asciiXid true (c!"fn f() { g(" ++ c!"'\\n'" ++ c!") }") = .ok ts ∧
      .plain .Character ⟨blen c!"fn f() { g(", blen (c!"fn f() { g(" ++ c!"'\\n'")⟩ ∈ ts) ∧ CharLit c!"'#'" ∧ '"' ∉ c!"'#'" := by
  refine ⟨?_, ⟨_, .single (c := '#') (by decide), rfl⟩, by decide⟩
  obtain ⟨ts, h1, h2⟩ := LexResult.of_okWith (r := lex asciiXid true (c!"fn f() { g(" ++ c!"'\\n'" ++ c!") }"))
    (p := fun ts => ts.contains (.plain .Character ⟨blen c!"fn f() { g(", blen (c!"fn f() { g(" ++ c!"'\\n'")⟩)) (by decide +kernel)
  exact ⟨ts, h1, by simpa using h2⟩

/-- The hypotheses are met. -/
example : (∃ ts, lex asciiXid true (c!"fn f(x: &" ++ c!"'static" ++ c!" u8) {}") = .ok ts ∧
      .plain .Lifetime ⟨blen c!"fn f(x: &", blen (c!"fn f(x: &" ++ c!"'static")⟩ ∈ ts) ∧ Word asciiXid c!"a" ∧
    (c!"a".length = 1 → ¬ StartsIn (· = '\'') c!" u8) {}") := by
  refine ⟨?_, ⟨_, _, rfl, .inl (by decide), by simp⟩, ?_⟩
  · obtain ⟨ts, h1, h2⟩ := LexResult.of_okWith (r := lex asciiXid true (c!"fn f(x: &" ++ c!"'static" ++ c!" u8) {}"))
      (p := fun ts => ts.contains (.plain .Lifetime ⟨blen c!"fn f(x: &", blen (c!"fn f(x: &" ++ c!"'static")⟩)) (by decide +kernel)
    exact ⟨ts, h1, by simpa using h2⟩
  · rintro - ⟨d, t, e, rfl⟩
    simp at e

/-- The condition on lifetimes is needed: with one letter, and a quote behind it, it is a character. -/
example : (∃ ts, lex asciiXid true (c!"'ab" ++ c!"'c") = .ok ts ∧ ts.length = 3) ∧
    ∃ ts, lex asciiXid true (c!"'a" ++ c!"'c") = .ok ts ∧ .plain .Character ⟨0, 3⟩ ∈ ts := by
  refine ⟨?_, ?_⟩
  · obtain ⟨ts, h1, h2⟩ := LexResult.of_okWith (r := lex asciiXid true (c!"'ab" ++ c!"'c")) (p := fun ts => ts.length == 3) (by decide +kernel)
    exact ⟨ts, h1, by simpa using h2⟩
  · obtain ⟨ts, h1, h2⟩ := LexResult.of_okWith (r := lex asciiXid true (c!"'a" ++ c!"'c"))
      (p := fun ts => ts.contains (.plain .Character ⟨0, 3⟩)) (by decide +kernel)
    exact ⟨ts, h1, by simpa using h2⟩

end Verif.Props
