import Verif.Text
/-!
# Showing an error to a person

`src/lib.rs` 255-276.
-/

namespace Verif

/-- `str::rfind(char)`: byte index of the last occurrence. -/
def rfindChar (c : Char) : Text → Option Nat
  | [] => none
  | d :: ds =>
    match rfindChar c ds with
    | some n => some (d.utf8Size + n)
    | none => if d = c then some 0 else none

/-- `src/lib.rs` 255-260, `HumanTextError`. -/
structure Human where
  headOfLine : Text
  tailOfLine : Text
  line : Nat
  column : Nat
deriving DecidableEq, Repr

/-- `src/lib.rs` 263-275, `HumanTextError::new`; `none` is a panic of `split_at` or of slicing. -/
def Human.new (text : Text) (location : Nat) : Option Human :=
  match splitAtByte location text with
  | none => none
  | some (head, tail) =>
    let startOfLine := (rfindChar '\n' head).getD 0
    let endOfLine := (findChar '\n' tail).getD (blen tail)
    match splitAtByte startOfLine head, splitAtByte endOfLine tail with
    | some (_, headOfLine), some (tailOfLine, _) =>
      some ⟨headOfLine, tailOfLine, head.count '\n' + 1, blen headOfLine⟩
    | _, _ => none

/-- `{:>width$}` of `"^"` (`src/parser/mod.rs` 321, `src/tokenizer.rs` 376): the line with the caret. -/
def Human.caret (h : Human) : Text := List.replicate (h.column - 1) ' ' ++ ['^']

/-- The line that is shown above the caret (`src/parser/mod.rs` 320, `src/tokenizer.rs` 375). -/
def Human.shown (h : Human) : Text := h.headOfLine ++ h.tailOfLine

end Verif
