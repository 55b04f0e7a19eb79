/-!
# Source text, byte offsets and extents

Rust `&str` is modelled as `List Char`; every offset in the crate is a byte offset, so lengths are
measured with `Char.utf8Size` (the UTF-8 length of a character).
-/

namespace Verif

/-- `src/lib.rs` 151-154: `pub struct Extent(pub usize, pub usize)`.
Simplified: `usize` is `Nat` (no overflow). -/
structure Extent where
  s : Nat
  e : Nat
deriving DecidableEq, Repr, Inhabited

/-- The text being tokenized (`&str`). -/
abbrev Text := List Char

/-- `str::len`: the length in bytes. -/
def blen : Text → Nat
  | [] => 0
  | c :: cs => c.utf8Size + blen cs

/-- `str::starts_with`. -/
def startsWith (pat s : Text) : Bool := pat.isPrefixOf s

/-- `str::split_at(i)`: `none` is the panic of the standard library when `i` is past the end or not on a
character boundary. -/
def splitAtByte : Nat → Text → Option (Text × Text)
  | 0, s => some ([], s)
  | _ + 1, [] => none
  | n + 1, c :: cs =>
    if c.utf8Size ≤ n + 1 then
      match splitAtByte (n + 1 - c.utf8Size) cs with
      | some (a, b) => some (c :: a, b)
      | none => none
    else none
termination_by structural _ s => s

/-- `&text[a..b]` (`src/lib.rs` 180-186, `Index<Extent> for str`): `none` is the panic. -/
def sliceText (t : Text) (x : Extent) : Option Text :=
  if x.s ≤ x.e then
    match splitAtByte x.s t with
    | some (_, tl) =>
      match splitAtByte (x.e - x.s) tl with
      | some (m, _) => some m
      | none => none
    | none => none
  else none

/-- `str::find(char)`: byte index of the first occurrence. -/
def findChar (c : Char) : Text → Option Nat
  | [] => none
  | d :: ds => if d = c then some 0 else (findChar c ds).map (d.utf8Size + ·)

/-- `str::find(&str)`: byte index of the first occurrence of a substring. -/
def findStr (pat : Text) : Text → Option Nat
  | [] => if pat = [] then some 0 else none
  | d :: ds => if startsWith pat (d :: ds) then some 0 else (findStr pat ds).map (d.utf8Size + ·)

/-- Byte offset `n` is a character boundary of `t` (`str::is_char_boundary`). -/
def IsBoundary (t : Text) (n : Nat) : Prop := ∃ pre suf, t = pre ++ suf ∧ blen pre = n

@[simp] theorem blen_nil : blen [] = 0 := rfl
@[simp] theorem blen_cons (c : Char) (cs : Text) : blen (c :: cs) = c.utf8Size + blen cs := rfl

@[simp] theorem blen_append (a b : Text) : blen (a ++ b) = blen a + blen b := by
  induction a with
  | nil => simp
  | cons c cs ih => simp [ih, Nat.add_assoc]

theorem blen_pos {t : Text} (h : t ≠ []) : 0 < blen t := by
  cases t with
  | nil => exact absurd rfl h
  | cons c cs => have := c.utf8Size_pos; simp; omega

theorem blen_eq_zero {t : Text} : blen t = 0 ↔ t = [] := by
  constructor
  · intro h
    by_cases ht : t = []
    · exact ht
    · have := blen_pos ht; omega
  · rintro rfl; rfl

theorem splitAtByte_blen (a b : Text) : splitAtByte (blen a) (a ++ b) = some (a, b) := by
  induction a with
  | nil => simp [splitAtByte]
  | cons c cs ih =>
    have hp := c.utf8Size_pos
    obtain ⟨n, hn⟩ : ∃ n, blen (c :: cs) = n + 1 := ⟨blen (c :: cs) - 1, by simp; omega⟩
    have hn' : c.utf8Size + blen cs = n + 1 := by simpa using hn
    rw [hn, List.cons_append, splitAtByte]
    have h1 : n + 1 - c.utf8Size = blen cs := by omega
    rw [h1, ih]
    have h2 : c.utf8Size ≤ n + 1 := by omega
    simp [h2]

theorem splitAtByte_some {n : Nat} {t a b : Text} (h : splitAtByte n t = some (a, b)) :
    t = a ++ b ∧ blen a = n := by
  induction t generalizing n a b with
  | nil =>
    cases n with
    | zero => simp [splitAtByte] at h; simp [h]
    | succ n => simp [splitAtByte] at h
  | cons c cs ih =>
    cases n with
    | zero =>
      simp [splitAtByte] at h
      obtain ⟨rfl, rfl⟩ := h
      simp
    | succ n =>
      rw [splitAtByte] at h
      split at h
      · rename_i hle
        split at h
        · rename_i a' b' heq
          simp at h
          obtain ⟨h1, h2⟩ := ih heq
          obtain ⟨rfl, rfl⟩ := h
          simp [h1, h2]; omega
        · simp at h
      · simp at h

theorem isBoundary_iff (t : Text) (n : Nat) : IsBoundary t n ↔ (splitAtByte n t).isSome := by
  constructor
  · rintro ⟨a, b, rfl, rfl⟩; simp [splitAtByte_blen]
  · intro h
    obtain ⟨⟨a, b⟩, h⟩ := Option.isSome_iff_exists.mp h
    exact ⟨a, b, splitAtByte_some h⟩

theorem IsBoundary.le {t : Text} {n : Nat} (h : IsBoundary t n) : n ≤ blen t := by
  obtain ⟨a, b, rfl, rfl⟩ := h; simp

/-- Slicing succeeds exactly on ordered, character-aligned ranges. -/
theorem sliceText_isSome (t : Text) (x : Extent) :
    (sliceText t x).isSome ↔ x.s ≤ x.e ∧ IsBoundary t x.s ∧ IsBoundary t x.e := by
  constructor
  · intro h
    unfold sliceText at h
    split at h
    · rename_i hle
      split at h
      · rename_i a tl h1
        split at h
        · rename_i m r h2
          obtain ⟨rfl, ha⟩ := splitAtByte_some h1
          obtain ⟨rfl, hm⟩ := splitAtByte_some h2
          exact ⟨hle, ⟨a, _, rfl, ha⟩, ⟨a ++ m, r, by simp, by simp; omega⟩⟩
        · simp at h
      · simp at h
    · simp at h
  · rintro ⟨hle, ⟨a, b, rfl, ha⟩, ⟨c, d, hcd, hc⟩⟩
    have hpre : a <+: c := by
      have h1 : a <+: a ++ b := List.prefix_append a b
      have h2 : c <+: a ++ b := hcd ▸ List.prefix_append c d
      rcases List.prefix_or_prefix_of_prefix h1 h2 with h | h
      · exact h
      · obtain ⟨k, rfl⟩ := h
        have : k = [] := by apply blen_eq_zero.mp; simp at ha; omega
        simp [this]
    obtain ⟨k, rfl⟩ := hpre
    have hb : b = k ++ d := by simpa using hcd
    subst hb
    have hk : x.e - x.s = blen k := by simp at hc; omega
    simp only [sliceText, hle, if_true]
    rw [← ha, splitAtByte_blen]
    simp only [ha, hk]
    simp [splitAtByte_blen]

/-- What a successful slice contains. -/
theorem sliceText_append (a m r : Text) :
    sliceText (a ++ (m ++ r)) ⟨blen a, blen a + blen m⟩ = some m := by
  simp [sliceText, splitAtByte_blen]

end Verif
