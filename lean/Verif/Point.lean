import Verif.Ast
/-!
# Token points, token splitting and extents of parsed things

`src/parser/mod.rs` 24-172 and 478-576.
-/

namespace Verif

/-- `src/parser/mod.rs` 49-53, `TokenPoint { offset, sub_offset, s }`.
Simplified: `s` is always the token list from `offset` on, so it is looked up in the list that the parsers are given;
`sub_offset : Option<u8>` is an `Option Nat` (values 0 and 1 only). -/
structure Pt where
  off : Nat
  sub : Option Nat
deriving DecidableEq, Repr, Inhabited

/-- `sub_offset.map_or(0, |x| x + 1)`: how many bytes of the current token have been split off. -/
def Pt.subw (p : Pt) : Nat := match p.sub with | none => 0 | some x => x + 1

/-- `src/parser/mod.rs` 66-72, `TokenPoint::new`. -/
def Pt.zero : Pt := ⟨0, none⟩

/-- `src/parser/mod.rs` 75-81, `TokenPoint::advance_by`.
Simplified: the slice `&self.s[offset..]` panics past the end of the tokens; callers only advance over tokens they have
seen. -/
def Pt.advanceBy (p : Pt) (n : Nat) : Pt := ⟨p.off + n, none⟩

/-- `src/parser/mod.rs` 99-109, `TokenPoint::cmp`: lexicographic in `(offset, sub_offset)` (and `None < Some(_)`). -/
def Pt.lt (p q : Pt) : Prop := p.off < q.off ∨ p.off = q.off ∧ p.subw < q.subw

instance (p q : Pt) : Decidable (p.lt q) := inferInstanceAs (Decidable (_ ∨ _))

/-- `src/parser/mod.rs` 530-576, `split`: the two halves of token `t` when `n + 1` of its characters are split off
(the first half is just the `n`-th character). -/
def split (t : Token) (n : Nat) : Option (Token × Token) :=
  match t, n with
  | .plain .DoubleLeftAngle ⟨s, e⟩, 0 =>
    some (.plain .LeftAngle ⟨s, s + 1⟩, .plain .LeftAngle ⟨s + 1, e⟩)
  | .plain .DoubleRightAngle ⟨s, e⟩, 0 =>
    some (.plain .RightAngle ⟨s, s + 1⟩, .plain .RightAngle ⟨s + 1, e⟩)
  | .plain .ShiftRightEquals ⟨s, e⟩, 0 =>
    some (.plain .RightAngle ⟨s, s + 1⟩, .plain .GreaterThanOrEquals ⟨s + 1, e⟩)
  | .plain .ShiftRightEquals ⟨s, e⟩, 1 =>
    some (.plain .RightAngle ⟨s + 1, s + 2⟩, .plain .Equals ⟨s + 2, e⟩)
  | .plain .GreaterThanOrEquals ⟨s, e⟩, 0 =>
    some (.plain .RightAngle ⟨s, s + 1⟩, .plain .Equals ⟨s + 1, e⟩)
  | .plain .DoublePipe ⟨s, e⟩, 0 =>
    some (.plain .Pipe ⟨s, s + 1⟩, .plain .Pipe ⟨s + 1, e⟩)
  | .plain .DoubleAmpersand ⟨s, e⟩, 0 =>
    some (.plain .Ampersand ⟨s, s + 1⟩, .plain .Ampersand ⟨s + 1, e⟩)
  | _, _ => none

/-- `src/parser/mod.rs` 127-171, `State::ex`: the extent from `start` to `end`; `none` is the panic "points are backwards"
or the index panic of `relative_tokens[_]`. -/
def ex (toks : List Token) (start «end» : Pt) : Option Extent :=
  match toks[start.off]? with
  | none => none
  | some t =>
    let a := t.extent.s + start.subw
    if start.off < «end».off then
      match toks[«end».off - 1]? with
      | none => none
      | some u => some ⟨a, u.extent.e + «end».subw⟩
    else if start.off = «end».off then
      if start.subw < «end».subw then some ⟨a, t.extent.s + «end».subw⟩
      else if start.subw = «end».subw then some ⟨a, a⟩
      else none
    else none

end Verif
