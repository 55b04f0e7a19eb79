import Verif.Text
import Lean
/-!
# Token kinds and tokens

`src/tokenizer.rs` 10-319.
-/

namespace Verif

open Lean in
/-- `c!"abc"` is the list of characters of the literal. -/
macro:max "c!" s:str : term => do
  let cs := s.getString.toList.map fun c => Syntax.mkCharLit c
  `(([$(cs.toArray),*] : List Char))

/-- `src/tokenizer.rs` 11-131, `enum Token`, all variants that carry just an extent (so all but `Number`). -/
inductive TK
  -- paired delimiters
  | LeftAngle | LeftCurly | LeftParen | LeftSquare | RightAngle | RightCurly | RightParen | RightSquare
  -- symbols
  | Ampersand | AmpersandEquals | Asterisk | At | Backslash | Bang | Caret | CaretEquals | Colon | Comma
  | DivideEquals | Dollar | DoubleAmpersand | DoubleColon | DoubleEquals | DoubleLeftAngle | DoublePeriod
  | DoublePeriodEquals | DoublePipe | DoubleRightAngle | Equals | GreaterThanOrEquals | Hash
  | LessThanOrEquals | Minus | MinusEquals | NotEqual | Percent | PercentEquals | Period | Pipe
  | PipeEquals | Plus | PlusEquals | QuestionMark | Semicolon | ShiftLeftEquals | ShiftRightEquals
  | Slash | ThickArrow | ThinArrow | Tilde | TimesEquals | TriplePeriod
  -- keywords
  | As | Async | Auto | Box | Break | Const | Continue | Crate | Default | Dyn | Else | Enum | Extern | Fn
  | For | If | Impl | In | Let | Loop | Match | Mod | Move | Mut | Pub | Ref | Return | SelfIdent | Static
  | Struct | Trait | Type | Union | Unsafe | Use | Where | While
  -- string-like
  | Character | String | StringRaw | Byte | ByteString | ByteStringRaw
  -- other
  | Ident | Whitespace | CommentLine | CommentBlock | DocCommentOuterLine | DocCommentInnerLine
  | DocCommentOuterBlock | DocCommentInnerBlock | Lifetime | EndOfFile
deriving DecidableEq, Repr, Inhabited

/-- `src/tokenizer.rs` 249-255: the four number bases (`enum Number`). -/
inductive NumBase | Binary | Decimal | Hexadecimal | Octal
deriving DecidableEq, Repr, Inhabited

/-- `src/tokenizer.rs` 249-319: `Number` with the fields of `NumberBinary` … `NumberOctal`, which are all the same. -/
structure Number where
  base : NumBase
  extent : Extent
  integral : Extent
  fractional : Option Extent
  exponent : Option Extent
  type_suffix : Option Extent
  underscores : Nat
deriving DecidableEq, Repr, Inhabited

/-- `src/tokenizer.rs` 11-131, `enum Token`. -/
inductive Token
  | plain (k : TK) (e : Extent)
  | number (n : Number)
deriving DecidableEq, Repr, Inhabited

/-- `src/tokenizer.rs` 133-247 and 257-267, `Token::extent`. -/
def Token.extent : Token → Extent
  | .plain _ e => e
  | .number n => n.extent

/-- The variant of a token; `none` for `Token::Number`. -/
def Token.kind? : Token → Option TK
  | .plain k _ => some k
  | .number _ => none

/-- `Token::is_end_of_file` (derived by `Decompose`, used in `src/lib.rs` 321). -/
def Token.isEOF : Token → Bool
  | .plain .EndOfFile _ => true
  | _ => false

/-- `src/tokenizer.rs` 269-284, `Number::into_simple`. -/
def Number.intoSimple (d : Number) : Option Extent :=
  match d.base with
  | .Decimal =>
    if d.fractional.isNone && d.exponent.isNone && d.type_suffix.isNone && d.underscores == 0 then
      some d.extent
    else none
  | _ => none

end Verif
