import Verif.Human
import Verif.ParseFile
/-!
# The message for an error

`Display` of `ErrorDetailText` (`src/lib.rs` 246-253, `src/parser/mod.rs` 315-328, `src/tokenizer.rs` 370-383).
-/

namespace Verif

/-- `src/parser/mod.rs` 178-288, the variants of `Error` in the order they are declared, with their names (`derive(Debug)`). -/
def PErr.variants : List (PErr × Text) :=
  [(.Expected .Ampersand, c!"ExpectedAmpersand"), (.Expected .AmpersandEquals, c!"ExpectedAmpersandEquals"),
   (.Expected .As, c!"ExpectedAs"), (.Expected .Asterisk, c!"ExpectedAsterisk"), (.Expected .Async, c!"ExpectedAsync"),
   (.Expected .At, c!"ExpectedAt"), (.Expected .Auto, c!"ExpectedAuto"), (.Expected .Backslash, c!"ExpectedBackslash"),
   (.Expected .Bang, c!"ExpectedBang"), (.Expected .Box, c!"ExpectedBox"), (.Expected .Break, c!"ExpectedBreak"),
   (.Expected .Byte, c!"ExpectedByte"), (.Expected .ByteString, c!"ExpectedByteString"),
   (.Expected .ByteStringRaw, c!"ExpectedByteStringRaw"), (.Expected .Caret, c!"ExpectedCaret"),
   (.Expected .CaretEquals, c!"ExpectedCaretEquals"), (.Expected .Character, c!"ExpectedCharacter"),
   (.Expected .Colon, c!"ExpectedColon"), (.Expected .Comma, c!"ExpectedComma"), (.Expected .Const, c!"ExpectedConst"),
   (.Expected .Continue, c!"ExpectedContinue"), (.Expected .Crate, c!"ExpectedCrate"), (.Expected .Default, c!"ExpectedDefault"),
   (.Expected .Dyn, c!"ExpectedDyn"), (.Expected .DivideEquals, c!"ExpectedDivideEquals"),
   (.Expected .DocCommentInnerBlock, c!"ExpectedDocCommentInnerBlock"),
   (.Expected .DocCommentInnerLine, c!"ExpectedDocCommentInnerLine"),
   (.Expected .DocCommentOuterBlock, c!"ExpectedDocCommentOuterBlock"),
   (.Expected .DocCommentOuterLine, c!"ExpectedDocCommentOuterLine"), (.Expected .Dollar, c!"ExpectedDollar"),
   (.Expected .DoubleAmpersand, c!"ExpectedDoubleAmpersand"), (.Expected .DoubleColon, c!"ExpectedDoubleColon"),
   (.Expected .DoubleEquals, c!"ExpectedDoubleEquals"), (.Expected .DoubleLeftAngle, c!"ExpectedDoubleLeftAngle"),
   (.Expected .DoublePeriod, c!"ExpectedDoublePeriod"), (.Expected .DoublePeriodEquals, c!"ExpectedDoublePeriodEquals"),
   (.Expected .DoublePipe, c!"ExpectedDoublePipe"), (.Expected .DoubleRightAngle, c!"ExpectedDoubleRightAngle"),
   (.Expected .Else, c!"ExpectedElse"), (.Expected .Enum, c!"ExpectedEnum"), (.Expected .Equals, c!"ExpectedEquals"),
   (.Expected .Extern, c!"ExpectedExtern"), (.Expected .Fn, c!"ExpectedFn"), (.Expected .For, c!"ExpectedFor"),
   (.Expected .GreaterThanOrEquals, c!"ExpectedGreaterThanOrEquals"), (.Expected .Hash, c!"ExpectedHash"),
   (.Expected .Ident, c!"ExpectedIdent"), (.Expected .If, c!"ExpectedIf"), (.Expected .Impl, c!"ExpectedImpl"),
   (.Expected .In, c!"ExpectedIn"), (.Expected .LeftAngle, c!"ExpectedLeftAngle"), (.Expected .LeftCurly, c!"ExpectedLeftCurly"),
   (.Expected .LeftParen, c!"ExpectedLeftParen"), (.Expected .LeftSquare, c!"ExpectedLeftSquare"),
   (.Expected .LessThanOrEquals, c!"ExpectedLessThanOrEquals"), (.Expected .Let, c!"ExpectedLet"),
   (.Expected .Lifetime, c!"ExpectedLifetime"), (.Expected .Loop, c!"ExpectedLoop"), (.Expected .Match, c!"ExpectedMatch"),
   (.Expected .Minus, c!"ExpectedMinus"), (.Expected .MinusEquals, c!"ExpectedMinusEquals"), (.Expected .Mod, c!"ExpectedMod"),
   (.Expected .Move, c!"ExpectedMove"), (.Expected .Mut, c!"ExpectedMut"), (.Expected .NotEqual, c!"ExpectedNotEqual"),
   (.ExpectedNumber, c!"ExpectedNumber"), (.Expected .Percent, c!"ExpectedPercent"),
   (.Expected .PercentEquals, c!"ExpectedPercentEquals"), (.Expected .Period, c!"ExpectedPeriod"),
   (.Expected .Pipe, c!"ExpectedPipe"), (.Expected .PipeEquals, c!"ExpectedPipeEquals"), (.Expected .Plus, c!"ExpectedPlus"),
   (.Expected .PlusEquals, c!"ExpectedPlusEquals"), (.Expected .Pub, c!"ExpectedPub"),
   (.Expected .QuestionMark, c!"ExpectedQuestionMark"), (.Expected .Ref, c!"ExpectedRef"), (.Expected .Return, c!"ExpectedReturn"),
   (.Expected .RightAngle, c!"ExpectedRightAngle"), (.Expected .RightCurly, c!"ExpectedRightCurly"),
   (.Expected .RightParen, c!"ExpectedRightParen"), (.Expected .RightSquare, c!"ExpectedRightSquare"),
   (.Expected .SelfIdent, c!"ExpectedSelfIdent"), (.Expected .Semicolon, c!"ExpectedSemicolon"),
   (.Expected .ShiftLeftEquals, c!"ExpectedShiftLeftEquals"), (.Expected .ShiftRightEquals, c!"ExpectedShiftRightEquals"),
   (.Expected .Slash, c!"ExpectedSlash"), (.Expected .Static, c!"ExpectedStatic"), (.Expected .String, c!"ExpectedString"),
   (.Expected .StringRaw, c!"ExpectedStringRaw"), (.Expected .Struct, c!"ExpectedStruct"),
   (.Expected .ThickArrow, c!"ExpectedThickArrow"), (.Expected .ThinArrow, c!"ExpectedThinArrow"),
   (.Expected .Tilde, c!"ExpectedTilde"), (.Expected .TimesEquals, c!"ExpectedTimesEquals"), (.Expected .Trait, c!"ExpectedTrait"),
   (.Expected .TriplePeriod, c!"ExpectedTriplePeriod"), (.Expected .Type, c!"ExpectedType"), (.Expected .Union, c!"ExpectedUnion"),
   (.Expected .Unsafe, c!"ExpectedUnsafe"), (.Expected .Use, c!"ExpectedUse"), (.Expected .Where, c!"ExpectedWhere"),
   (.Expected .While, c!"ExpectedWhile"), (.ExpectedExpression, c!"ExpectedExpression"),
   (.BlockNotAllowedHere, c!"BlockNotAllowedHere")]

/-- `{:?}` of an error of the parser.  (The other `Expected k` are no variants of `Error`; the parser has no such errors, see
`Proofs/Errors.lean`.) -/
def PErr.debug (e : PErr) : Text := ((PErr.variants.find? (·.1 = e)).map (·.2)).getD []

/-- `derive(PartialOrd, Ord)` of `Error`: by the place in the declaration.  Errors are compared by comparing these lists. -/
def PErr.key (e : PErr) : List Nat := [PErr.variants.findIdx (·.1 = e)]

/-- One character in `{:?}` of a string.  Simplified: characters that are not printable are as they are; none are in the strings of the
tokenizer. -/
def escapeDebug : Char → Text
  | '\\' => ['\\', '\\']
  | '"' => ['\\', '"']
  | '\n' => ['\\', 'n']
  | '\r' => ['\\', 'r']
  | '\t' => ['\\', 't']
  | '\x00' => ['\\', '0']
  | c => [c]

/-- `{:?}` of an error of the tokenizer (`src/tokenizer.rs` 321-336, `derive(Debug)`). -/
def LErr.debug : LErr → Text
  | .Literal s => c!"Literal(\"" ++ s.flatMap escapeDebug ++ c!"\")"
  | .ExpectedIdentOrKeyword => c!"ExpectedIdentOrKeyword"
  | .ExpectedIdent => c!"ExpectedIdent"
  | .ExpectedNumber => c!"ExpectedNumber"
  | .ExpectedHex => c!"ExpectedHex"
  | .ExpectedWhitespace => c!"ExpectedWhitespace"
  | .ExpectedComment => c!"ExpectedComment"
  | .ExpectedCharacter => c!"ExpectedCharacter"
  | .UnterminatedRawString => c!"UnterminatedRawString"
  | .RawIdentifierMissingIdentifier => c!"RawIdentifierMissingIdentifier"
  | .InvalidFollowForFractionalNumber => c!"InvalidFollowForFractionalNumber"

/-- `derive(PartialOrd, Ord)` of `Error`: by the place in the declaration; strings are compared as such (comparing UTF-8 byte by byte is
comparing the characters). -/
def LErr.key : LErr → List Nat
  | .Literal s => 0 :: s.map Char.toNat
  | .ExpectedIdentOrKeyword => [1]
  | .ExpectedIdent => [2]
  | .ExpectedNumber => [3]
  | .ExpectedHex => [4]
  | .ExpectedWhitespace => [5]
  | .ExpectedComment => [6]
  | .ExpectedCharacter => [7]
  | .UnterminatedRawString => [8]
  | .RawIdentifierMissingIdentifier => [9]
  | .InvalidFollowForFractionalNumber => [10]

/-- `BTreeSet::insert`; the set is the list of its elements in order. -/
def btreeInsert {α : Type} (key : α → List Nat) (x : α) : List α → List α
  | [] => [x]
  | y :: ys =>
    match compare (key x) (key y) with
    | .lt => x :: y :: ys
    | .eq => y :: ys
    | .gt => y :: btreeInsert key x ys

/-- `errors: e.into_iter().collect()` (`src/lib.rs` 334, `src/tokenizer.rs` 430), a `BTreeSet`, as `for` goes through it. -/
def btree {α : Type} (key : α → List Nat) (l : List α) : List α := l.foldl (fun s x => btreeInsert key x s) []

/-- `{}` of a `usize`. -/
def decimal (n : Nat) : Text := Nat.toDigits 10 n

/-- `src/parser/mod.rs` 316-327 and `src/tokenizer.rs` 371-382, `fmt`; they differ in one word.  `errors` are those of the set, as
printed. -/
def Human.message (h : Human) (word : Text) (errors : List Text) : Text :=
  c!"Unable to " ++ word ++ c!" text (line " ++ decimal h.line ++ c!", column " ++ decimal h.column ++ c!")\n" ++
  h.shown ++ c!"\n" ++
  h.caret ++ c!"\n" ++
  c!"Expected:\n" ++
  errors.flatMap fun e => c!"  " ++ e ++ c!"\n"

/-- `detail.with_text(text).to_string()` for the error of a parse (`src/lib.rs` 246-253); `none` is a panic.  There is nothing to
show if there is no error. -/
def FileResult.message (text : Text) : FileResult → Option Text
  | .lexErr d => (Human.new text d.location).map fun h => h.message c!"tokenize" ((btree LErr.key d.errors).map LErr.debug)
  | .parseErr loc errs => (Human.new text loc).map fun h => h.message c!"parse" ((btree PErr.key errs).map PErr.debug)
  | _ => some []

end Verif
