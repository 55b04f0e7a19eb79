import Verif.Spec.Shape
/-!
# Programs as sequences of symbols

The symbols a program consists of, and how they appear as tokens.
-/

namespace Verif.Spec
open Verif

/-- One symbol of a program. -/
inductive Lexeme
  /-- a token of this kind -/
  | t (k : TK)
  /-- the same, and it may be written together with the next symbol, as in `Vec<Vec<u8>>` or `&&T` -/
  | j (k : TK)
  /-- a number like this one -/
  | num (n : Number)
deriving Repr

/-- The kind of the token (`none` for numbers). -/
def Lexeme.kind : Lexeme → Option TK
  | .t k | .j k => some k
  | .num _ => none

/-- How two tokens look when written together. -/
def glue : TK → TK → Option TK
  | .LeftAngle, .LeftAngle => some .DoubleLeftAngle
  | .RightAngle, .RightAngle => some .DoubleRightAngle
  | .RightAngle, .Equals => some .GreaterThanOrEquals
  | .RightAngle, .GreaterThanOrEquals => some .ShiftRightEquals
  | .Pipe, .Pipe => some .DoublePipe
  | .Ampersand, .Ampersand => some .DoubleAmpersand
  | _, _ => none

/-- The symbols appear as these tokens. -/
inductive Written : List Lexeme → List Token → Prop
  | nil : Written [] []
  | t {k e ss ts} : Written ss ts → Written (.t k :: ss) (.plain k e :: ts)
  | j {k e ss ts} : Written ss ts → Written (.j k :: ss) (.plain k e :: ts)
  | num {n m ss ts} : SameKind (.number n) (.number m) → Written ss ts → Written (.num m :: ss) (.number n :: ts)
  | glue {k s k' k'' e ss ts} : s.kind = some k' → Spec.glue k k' = some k'' → Written ss ts →
      Written (.j k :: s :: ss) (.plain k'' e :: ts)
  | glue3 {e ss ts} : Written ss ts →
      Written (.j .RightAngle :: .j .RightAngle :: .t .Equals :: ss) (.plain .ShiftRightEquals e :: ts)

/-- Symbols between the brackets `o` and `c` (`d` more of which are open), in which these brackets are balanced. -/
def inside (o c : TK) : Nat → List Lexeme → Bool
  | d, [] => d == 0
  | d, .t k :: xs =>
    if k = .EndOfFile then false
    else if k = o then inside o c (d + 1) xs
    else if k = c then
      match d with
      | 0 => false
      | d + 1 => inside o c d xs
    else inside o c d xs
  | _, .j _ :: _ => false
  | d, .num _ :: xs => inside o c d xs

/-- The tree of a number. -/
def numberTree (n : Number) : V :=
  let part (e : Option Extent) : V := .list (e.toList.map fun _ => .ext ⟨0, 0⟩)
  let parts := [.ext ⟨0, 0⟩, part n.fractional, part n.exponent, part n.type_suffix]
  .node .Number ⟨0, 0⟩ [] [.list [],
    match n.base with
    | .Binary => .enm .NumberValue_Binary [.node .NumberBinary ⟨0, 0⟩ [] parts]
    | .Octal => .enm .NumberValue_Octal [.node .NumberOctal ⟨0, 0⟩ [] parts]
    | .Hexadecimal => .enm .NumberValue_Hexadecimal [.node .NumberHexadecimal ⟨0, 0⟩ [] parts]
    | .Decimal => .enm .NumberValue_Decimal [.node .NumberDecimal ⟨0, 0⟩ [] parts]]

end Verif.Spec
