import Verif.Apportion
import Verif.ParseLoop
/-!
# `parse_rust_file`

`src/lib.rs` 278-345.
-/

namespace Verif

/-- What `parse_rust_file` leads to. -/
inductive FileResult
  | ok (f : File)
  /-- `ErrorDetail::Tokenizer` -/
  | lexErr (d : LErrorDetail)
  /-- `ErrorDetail::Parser` -/
  | parseErr (location : Nat) (errors : List PErr)
  | panic
  | hang
deriving Repr

/-- `src/lib.rs` 307-345, `parse_rust_file`.  `cl` and `cp` say whether `finish` of the tokenizer's and the parser's master
forgets the failures on success. -/
def parseRustFile (X : Xid) (cl cp : Bool) (code : Text) : FileResult :=
  match extractWhitespace X cl code with
  | .err d => .lexErr d
  | .panic => .panic
  | .hang => .hang
  | .ok ws toks =>
    match parseTokens toks cp with
    | .err loc errs => .parseErr loc errs
    | .panic => .panic
    | .hang => .hang
    | .ok items =>
      match apportionFile ⟨items, []⟩ (ws.foldl Apportioner.push []) with
      | none => .panic
      | some (f, m) => if m.isEmpty then .ok f else .panic -- "Did not assign all whitespace"

end Verif
