import Verif.Human
import Verif.Props.Parse
/-!
# Property theorems about showing errors (C40)
-/

namespace Verif.Props
open Verif Verif.Spec

/-- The text `pre ++ cur ++ rest ++ post` cut at a place: `cur` is what is before the place on its line and `rest` what is
after it on its line. -/
structure OnLine (text : Text) (loc : Nat) (pre cur rest post : Text) : Prop where
  text : text = pre ++ cur ++ rest ++ post
  loc : loc = blen pre + blen cur
  before : pre = [] ∨ ∃ p, pre = p ++ ['\n']
  after : post = [] ∨ ∃ p, post = '\n' :: p
  same : '\n' ∉ cur ++ rest

theorem rfindChar_none {c : Char} {t : Text} (h : c ∉ t) : rfindChar c t = none := by
  induction t with
  | nil => rfl
  | cons d ds ih =>
    simp at h
    simp [rfindChar, ih h.2, Ne.symm h.1]

theorem rfindChar_last (c : Char) (a b : Text) (h : c ∉ b) : rfindChar c (a ++ c :: b) = some (blen a) := by
  induction a with
  | nil => simp [rfindChar, rfindChar_none h]
  | cons d ds ih => simp [rfindChar, ih]

theorem findChar_none' {c : Char} {t : Text} (h : c ∉ t) : findChar c t = none := by
  induction t with
  | nil => rfl
  | cons d ds ih =>
    simp at h
    simp [findChar, ih h.2, Ne.symm h.1]

theorem findChar_first (c : Char) (a b : Text) (h : c ∉ a) : findChar c (a ++ c :: b) = some (blen a) := by
  induction a with
  | nil => simp [findChar]
  | cons d ds ih =>
    simp at h
    simp [findChar, ih h.2, Ne.symm h.1]

/-- Every place of a text is on a line. -/
theorem onLine_exists {text : Text} {loc : Nat} (h : IsBoundary text loc) : ∃ pre cur rest post,
    OnLine text loc pre cur rest post := by
  obtain ⟨hd, tl, rfl, rfl⟩ := h
  have h1 : ∃ pre cur, hd = pre ++ cur ∧ (pre = [] ∨ ∃ p, pre = p ++ ['\n']) ∧ '\n' ∉ cur := by
    induction hd with
    | nil => exact ⟨[], [], rfl, .inl rfl, by simp⟩
    | cons d ds ih =>
      obtain ⟨pre, cur, rfl, h1, h2⟩ := ih
      rcases h1 with rfl | ⟨p, rfl⟩
      · by_cases hd : d = '\n'
        · subst hd; exact ⟨['\n'], cur, rfl, .inr ⟨[], rfl⟩, h2⟩
        · exact ⟨[], d :: cur, rfl, .inl rfl, by simp [Ne.symm hd]; simpa using h2⟩
      · exact ⟨d :: (p ++ ['\n']), cur, by simp, .inr ⟨d :: p, by simp⟩, h2⟩
  have h2 : ∃ rest post, tl = rest ++ post ∧ (post = [] ∨ ∃ p, post = '\n' :: p) ∧ '\n' ∉ rest := by
    induction tl with
    | nil => exact ⟨[], [], rfl, .inl rfl, by simp⟩
    | cons d ds ih =>
      by_cases hd : d = '\n'
      · subst hd; exact ⟨[], _, rfl, .inr ⟨_, rfl⟩, by simp⟩
      · obtain ⟨rest, post, rfl, h3, h4⟩ := ih
        exact ⟨d :: rest, post, rfl, h3, by simp [Ne.symm hd]; exact h4⟩
  obtain ⟨pre, cur, rfl, h3, h4⟩ := h1
  obtain ⟨rest, post, rfl, h5, h6⟩ := h2
  exact ⟨pre, cur, rest, post, by simp, by simp, h3, h5, by simp [h4, h6]⟩

/-- The line number is one plus the number of newlines before the place.  What is shown is the line of the place, and the
column is the distance in bytes from the start of the line.  What is missing: on every line but the first the newline before
it is shown and counted too. -/
theorem C40_line_and_column_partial (text : Text) (loc : Nat) (pre cur rest post : Text)
    (h : OnLine text loc pre cur rest post) :
    ∃ hu, Human.new text loc = some hu ∧ hu.line = pre.count '\n' + 1 ∧ hu.tailOfLine = rest ∧
      (pre = [] → hu.headOfLine = cur ∧ hu.column = blen cur) ∧
      (pre ≠ [] → hu.headOfLine = '\n' :: cur ∧ hu.column = blen cur + 1) := by
  obtain ⟨rfl, rfl, h3, h4, h5⟩ := h
  simp at h5
  unfold Human.new
  have h6 : splitAtByte (blen pre + blen cur) (pre ++ cur ++ rest ++ post) = some (pre ++ cur, rest ++ post) := by
    rw [← blen_append, List.append_assoc (pre ++ cur)]; exact splitAtByte_blen ..
  rw [h6]
  dsimp only
  have h7 : splitAtByte ((findChar '\n' (rest ++ post)).getD (blen (rest ++ post))) (rest ++ post) = some (rest, post) := by
    rcases h4 with rfl | ⟨p, rfl⟩
    · rw [findChar_none' (by simpa using h5.2)]
      simp only [List.append_nil, Option.getD_none]
      have := splitAtByte_blen rest []
      simpa using this
    · rw [findChar_first _ _ _ h5.2]
      exact splitAtByte_blen ..
  rw [h7]
  have h8 : cur.count '\n' = 0 := List.count_eq_zero.mpr h5.1
  rcases h3 with rfl | ⟨p, rfl⟩
  · rw [List.nil_append, rfindChar_none h5.1]
    exact ⟨⟨cur, rest, cur.count '\n' + 1, blen cur⟩, by simp [splitAtByte], by simp [h8], rfl, by simp, by simp⟩
  · rw [List.append_assoc p, List.singleton_append, rfindChar_last _ _ _ h5.1]
    simp only [Option.getD_some]
    rw [splitAtByte_blen]
    refine ⟨_, rfl, by simp [h8, List.count_append], rfl, by simp, ?_⟩
    intro _
    simp [Char.utf8Size]
    omega

/-- The negation: there are places whose column is not the distance from the start of the line. -/
theorem C40_false : ∃ hu, OnLine c!"a\nbc" 3 c!"a\n" c!"b" c!"c" [] ∧ Human.new c!"a\nbc" 3 = some hu ∧
    hu.column ≠ blen c!"b" ∧ hu.shown ≠ c!"bc" :=
  ⟨⟨c!"\nb", c!"c", 2, 2⟩, ⟨by decide, by decide, .inr ⟨c!"a", by decide⟩, .inl rfl, by decide⟩, by decide, by decide, by decide⟩

/-- Showing an error of `parse_rust_file` does not panic. -/
theorem C40_no_panic (X : Xid) (cl cp : Bool) (code : Text) :
    (∀ d, parseRustFile X cl cp code = .lexErr d → (Human.new code d.location).isSome = true) ∧
    (∀ loc errs, parseRustFile X cl cp code = .parseErr loc errs → (Human.new code loc).isSome = true) := by
  have key : ∀ loc, IsBoundary code loc → (Human.new code loc).isSome = true := by
    intro loc h
    obtain ⟨pre, cur, rest, post, h⟩ := onLine_exists h
    obtain ⟨hu, h, -⟩ := C40_line_and_column_partial _ _ _ _ _ _ h
    rw [h]; rfl
  refine ⟨fun d h => key _ ?_, fun loc errs h => key _ ?_⟩
  · rcases parseRustFile_cases X cl cp code (Ψ := fun _ _ _ _ _ _ => True) (fun _ _ => true_inductive) with
      ⟨d', hl, h'⟩ | ⟨ts, loc', errs', -, -, h'⟩ | ⟨f, ts, items, q, h', -, -⟩
    · rw [h] at h'; cases h'
      exact (C04_error_location X cl code d hl).1
    · rw [h] at h'; cases h'
    · rw [h] at h'; cases h'
  · obtain ⟨-, ts, -, -, -, h, -⟩ := C36_error_location X cl cp code loc errs h
    exact h

/-- The caret is under the place on all lines but the first (if the line has no wide characters), where it is one to the
left. -/
theorem C40_caret (text : Text) (loc : Nat) (pre cur rest post : Text) (h : OnLine text loc pre cur rest post) :
    ∃ hu, Human.new text loc = some hu ∧ (pre ≠ [] → hu.caret = List.replicate (blen cur) ' ' ++ ['^']) ∧
      (pre = [] → hu.caret = List.replicate (blen cur - 1) ' ' ++ ['^']) := by
  obtain ⟨hu, h1, -, -, h2, h3⟩ := C40_line_and_column_partial _ _ _ _ _ _ h
  refine ⟨hu, h1, fun hp => ?_, fun hp => ?_⟩
  · simp [Human.caret, (h3 hp).2]
  · simp [Human.caret, (h2 hp).2]

example : OnLine c!"ab" 1 [] c!"a" c!"b" [] ∧ Human.new c!"ab" 1 = some ⟨c!"a", c!"b", 1, 1⟩ :=
  ⟨⟨by decide, by decide, .inl rfl, .inl rfl, by decide⟩, by decide⟩

example : FileResult.errorAt (parseRustFile asciiXid true true c!"fn a()\n  + {}") = some 9 ∧
    Human.new c!"fn a()\n  + {}" 9 = some ⟨c!"\n  ", c!"+ {}", 2, 3⟩ := by decide +kernel

end Verif.Props
