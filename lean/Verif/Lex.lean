import Verif.Tok
/-!
# The tokenizer

`src/tokenizer.rs` 321-946, function by function, on top of the part of `peresil` it uses.

Modelling of `peresil` (external crate, see DESIGN.md):
* `Progress` is `LRes` (success / failure at a point), extended with `panic` (a Rust panic) and `hang` (fuel ran
  out in a loop; shown impossible).
* `ParseMaster` collects failures that were recovered from.  A parser never reads them, so instead of
  threading the `Failures` record, parsers return the list of failures handed to `Failures::add`, in order
  (the `log`); `Failures.addAll` replays them.
-/

namespace Verif

/-- `src/tokenizer.rs` 321-336, `enum Error`. -/
inductive LErr
  | Literal (s : Text) | ExpectedIdentOrKeyword | ExpectedIdent | ExpectedNumber | ExpectedHex
  | ExpectedWhitespace | ExpectedComment | ExpectedCharacter | UnterminatedRawString
  | RawIdentifierMissingIdentifier | InvalidFollowForFractionalNumber
deriving DecidableEq, Repr, Inhabited

/-- `src/tokenizer.rs` 338-347, `Recoverable for Error`. -/
def LErr.recoverable : LErr → Bool
  | .RawIdentifierMissingIdentifier => false
  | _ => true

/-- `peresil::StringPoint { s, offset }`. -/
structure LPoint where
  s : Text
  offset : Nat
deriving DecidableEq, Repr, Inhabited

/-- The outcome of a parser: `peresil::Progress` plus `panic` and `hang`. -/
inductive LRes (α : Type)
  | ok (pt : LPoint) (v : α)
  | fail (pt : LPoint) (e : LErr)
  | panic
  | hang
deriving Repr, DecidableEq

abbrev LLog := List (LPoint × LErr)

/-- A tokenizer function: `fn(&mut Master, Point) -> Progress<T>`. -/
abbrev LP (α : Type) := LPoint → LRes α × LLog

namespace LP

/-- `Progress::success(pt, v)`. -/
def pure {α} (v : α) : LP α := fun pt => (.ok pt v, [])

/-- One step of `sequence!` / `try_parse!`: failures return early. -/
def bind {α β} (p : LP α) (f : α → LP β) : LP β := fun pt =>
  match p pt with
  | (.ok pt' v, l) => match f v pt' with | (r, l') => (r, l ++ l')
  | (.fail pt' e, l) => (.fail pt' e, l)
  | (.panic, l) => (.panic, l)
  | (.hang, l) => (.hang, l)

instance : Monad LP where
  pure := LP.pure
  bind := LP.bind

/-- `peresil::combinators::point`. -/
def point : LP LPoint := fun pt => (.ok pt pt, [])

/-- A Rust panic. -/
def panic {α} : LP α := fun _ => (.panic, [])

/-- `Progress::failure(pt, e)` at the current point. -/
def failure {α} (e : LErr) : LP α := fun pt => (.fail pt e, [])

/-- `peresil::combinators::map`. -/
def map {α β} (p : LP α) (f : α → β) : LP β := p.bind fun v => .pure (f v)

/-- `pm.alternate(pt).one(p).one(q).finish()`: `q` runs when `p` fails recoverably; then the failure of `p` is
consumed. -/
def orElse {α} (p q : LP α) : LP α := fun pt =>
  match p pt with
  | (.fail pt' e, l) =>
    if e.recoverable then
      match q pt with | (r, l') => (r, l ++ l' ++ [(pt', e)])
    else (.fail pt' e, l)
  | r => r

/-- `pm.alternate(pt).one(p₁)…one(pₙ).finish()`. -/
def alts {α} (p : LP α) : List (LP α) → LP α
  | [] => p
  | q :: qs => alts (orElse p q) qs

/-- `peresil::combinators::optional`. -/
def optional {α} (p : LP α) : LP (Option α) := fun pt =>
  match p pt with
  | (.ok pt' v, l) => (.ok pt' (some v), l)
  | (.fail pt' e, l) => if e.recoverable then (.ok pt none, l ++ [(pt', e)]) else (.fail pt' e, l)
  | (.panic, l) => (.panic, l)
  | (.hang, l) => (.hang, l)

/-- `peresil::combinators::zero_or_more`, with fuel. -/
def zeroOrMoreF {α} (p : LP α) : Nat → LP (List α)
  | 0 => fun _ => (.hang, [])
  | n + 1 => fun pt =>
    match p pt with
    | (.ok pt' v, l) =>
      match zeroOrMoreF p n pt' with
      | (.ok pt'' vs, l') => (.ok pt'' (v :: vs), l ++ l')
      | (r, l') => (r, l ++ l')
    | (.fail pt' e, l) => if e.recoverable then (.ok pt [], l ++ [(pt', e)]) else (.fail pt' e, l)
    | (.panic, l) => (.panic, l)
    | (.hang, l) => (.hang, l)

/-- `peresil::combinators::zero_or_more`; the fuel is the number of remaining characters plus one, which is enough
for any parser that consumes (`hang` is proved impossible). -/
def zeroOrMore {α} (p : LP α) : LP (List α) := fun pt => zeroOrMoreF p (pt.s.length + 1) pt

/-- `src/combinators.rs` 2-19, `not`: the inner parser's failure is dropped. -/
def not {α} (p : LP α) (e : LErr) : LP Unit := fun pt =>
  match p pt with
  | (.ok _ _, l) => (.fail pt e, l)
  | (.fail _ _, l) => (.ok pt (), l)
  | (.panic, l) => (.panic, l)
  | (.hang, l) => (.hang, l)

/-- `src/combinators.rs` 22-39, `peek`. -/
def peek {α} (p : LP α) : LP α := fun pt =>
  match p pt with
  | (.ok _ v, l) => (.ok pt v, l)
  | (.fail _ e, l) => (.fail pt e, l)
  | (.panic, l) => (.panic, l)
  | (.hang, l) => (.hang, l)

end LP

/-- The Unicode identifier tables of the crate `unicode_xid`, as parameters. -/
structure Xid where
  start : Char → Bool
  cont : Char → Bool

/-- `char::is_digit(radix)` of the Rust standard library. -/
def isDigit (radix : Nat) (c : Char) : Bool :=
  let n := c.toNat
  if 48 ≤ n ∧ n ≤ 57 then n - 48 < radix
  else if 97 ≤ n ∧ n ≤ 122 then n - 97 + 10 < radix
  else if 65 ≤ n ∧ n ≤ 90 then n - 65 + 10 < radix
  else false

/-- `src/tokenizer.rs` 928-932, `ex`; the assertion failing is a panic. -/
def lexEx (start end_ : LPoint) : Option Extent :=
  if end_.offset ≥ start.offset then some ⟨start.offset, end_.offset⟩ else none

/-- `ex(spt, pt)` where `pt` is the current point. -/
def exHere (spt : LPoint) : LP Extent := fun pt =>
  match lexEx spt pt with
  | some e => (.ok pt e, [])
  | none => (.panic, [])

/-- `pt.s.split_at(i)` followed by moving to the tail: `Point { s: tail, offset: pt.offset + i }`. -/
def advance (i : Nat) : LP Text := fun pt =>
  match splitAtByte i pt.s with
  | some (head, tail) => (.ok ⟨tail, pt.offset + i⟩ head, [])
  | none => (.panic, [])

/-- `src/tokenizer.rs` 919-926, `literal` (`StringPoint::consume_literal` is `starts_with` + advance). -/
def literal (expected : Text) : LP Extent := fun spt =>
  if startsWith expected spt.s then
    (do let _ ← advance (blen expected); exHere spt : LP Extent) spt
  else (.fail spt (.Literal expected), [])

/-- `src/tokenizer.rs` 934-946, `split_point_at_non_zero_offset`. -/
def splitPointAtNonZeroOffset (idx : Nat) (e : LErr) : LP (Text × Extent) := fun pt =>
  if idx = 0 then (.fail pt e, [])
  else
    match splitAtByte idx pt.s with
    | some (matched, tail) =>
      (.ok ⟨tail, pt.offset + idx⟩ (matched, ⟨pt.offset, pt.offset + idx⟩), [])
    | none => (.panic, [])

/-- `take_while(f).map(len_utf8).sum()`. -/
def takeWhileLen (f : Char → Bool) (s : Text) : Nat := blen (s.takeWhile f)

/-- `src/tokenizer.rs` 576-592, `ident_len`. -/
def identLen (X : Xid) : Text → Nat
  | [] => 0
  | c :: ci => if X.start c || c = '_' then c.utf8Size + takeWhileLen X.cont ci else 0

/-- `src/tokenizer.rs` 528-567: the keyword table of `keyword_or_ident`. -/
def keywordTable : List (Text × TK) :=
  [ (c!"as", .As), (c!"async", .Async), (c!"auto", .Auto), (c!"box", .Box), (c!"break", .Break),
    (c!"const", .Const), (c!"continue", .Continue), (c!"crate", .Crate), (c!"default", .Default),
    (c!"dyn", .Dyn), (c!"else", .Else), (c!"enum", .Enum), (c!"extern", .Extern), (c!"fn", .Fn),
    (c!"for", .For), (c!"if", .If), (c!"impl", .Impl), (c!"in", .In), (c!"let", .Let), (c!"loop", .Loop),
    (c!"match", .Match), (c!"mod", .Mod), (c!"move", .Move), (c!"mut", .Mut), (c!"pub", .Pub),
    (c!"ref", .Ref), (c!"return", .Return), (c!"self", .SelfIdent), (c!"static", .Static),
    (c!"struct", .Struct), (c!"trait", .Trait), (c!"type", .Type), (c!"use", .Use), (c!"union", .Union),
    (c!"unsafe", .Unsafe), (c!"where", .Where), (c!"while", .While) ]

/-- `src/tokenizer.rs` 528-567: the `match s { "as" => …, _ => Ident }`. -/
def keywordOf (s : Text) : TK := (keywordTable.lookup s).getD .Ident

/-- `src/tokenizer.rs` 515-569, `keyword_or_ident`.  `&pt.s[2..]` cannot panic here since `r#` is two bytes; it is
modelled by `splitAtByte`. -/
def keywordOrIdent (X : Xid) : LP Token := fun pt =>
  if startsWith c!"r#" pt.s then
    match splitAtByte 2 pt.s with
    | none => (.panic, [])
    | some (_, s2) =>
      let idx := identLen X s2
      if idx = 0 then (.fail pt .RawIdentifierMissingIdentifier, [])
      else (LP.map (splitPointAtNonZeroOffset (2 + idx) .ExpectedIdentOrKeyword)
              fun r => Token.plain .Ident r.2) pt
  else
    (LP.map (splitPointAtNonZeroOffset (identLen X pt.s) .ExpectedIdentOrKeyword)
      fun r => Token.plain (keywordOf r.1) r.2) pt

/-- `src/tokenizer.rs` 571-574, `simple_ident`. -/
def simpleIdent (X : Xid) : LP Extent := fun pt =>
  LP.map (splitPointAtNonZeroOffset (identLen X pt.s) .ExpectedIdent) (fun r => r.2) pt

/-- `src/tokenizer.rs` 622-626, `NumberDetailsPartial` together with the variant of `NumberPartial` (594-599). -/
structure NumberPartial where
  base : NumBase
  integral : Extent
  fractional : Option Extent
  underscores : Nat

/-- `src/tokenizer.rs` 601-620 and 300-307, `NumberPartial::finish`. -/
def NumberPartial.finish (v : NumberPartial) (extent : Extent) (exponent typeSuffix : Option Extent) :
    Number :=
  { base := v.base, extent := extent, integral := v.integral, fractional := v.fractional,
    exponent := exponent, type_suffix := typeSuffix, underscores := v.underscores }

/-- The characters accepted by `number_digits`. -/
def isDigitOrUnderscore (radix : Nat) (c : Char) : Bool := isDigit radix c || c = '_'

/-- `src/tokenizer.rs` 672-686, `number_digits`. -/
def numberDigits (radix : Nat) : LP (Extent × Nat) := fun pt =>
  let digits := pt.s.takeWhile (isDigitOrUnderscore radix)
  let underscores := digits.count '_'
  LP.map (splitPointAtNonZeroOffset (blen digits) .ExpectedNumber) (fun r => (r.2, underscores)) pt

/-- `src/tokenizer.rs` 658-670, `number_fractional`. -/
def numberFractional (X : Xid) (radix : Nat) : LP Extent := do
  let spt ← LP.point
  let _ ← literal c!"."
  LP.not (LP.peek (literal c!".")) .InvalidFollowForFractionalNumber
  LP.not (LP.peek (simpleIdent X)) .InvalidFollowForFractionalNumber
  let _ ← LP.optional (numberDigits radix)
  exHere spt

/-- `src/tokenizer.rs` 646-656, `number_base`. -/
def numberBase (X : Xid) (base : NumBase) (pre : Text) (radix : Nat) : LP NumberPartial := do
  let _ ← literal pre
  let r ← numberDigits radix
  let fractional ← LP.optional (numberFractional X radix)
  LP.pure { base := base, integral := r.1, fractional := fractional, underscores := r.2 }

/-- `src/tokenizer.rs` 637-644, `number_value`. -/
def numberValue (X : Xid) : LP NumberPartial :=
  LP.alts (numberBase X .Binary c!"0b" 2)
    [ numberBase X .Hexadecimal c!"0x" 16,
      numberBase X .Octal c!"0o" 8,
      numberBase X .Decimal c!"" 10 ]

/-- `src/tokenizer.rs` 696-708, `number_exponent_lowercase` / `number_exponent_uppercase`. -/
def numberExponentWith (marker : Text) : LP Extent := do
  let _ ← literal marker
  let r ← numberDigits 10
  LP.pure r.1

/-- `src/tokenizer.rs` 689-694, `number_exponent`. -/
def numberExponent : LP Extent :=
  LP.alts (numberExponentWith c!"e") [numberExponentWith c!"E"]

/-- `src/tokenizer.rs` 628-635, `number`. -/
def number (X : Xid) : LP Number := do
  let spt ← LP.point
  let value ← numberValue X
  let exponent ← LP.optional numberExponent
  let typeSuffix ← LP.optional (simpleIdent X)
  let e ← exHere spt
  LP.pure (value.finish e exponent typeSuffix)

/-- `src/tokenizer.rs` 713: the characters of a whitespace token. -/
def isWs (c : Char) : Bool :=
  c = ' ' || c = '\t' || c = '\r' || c = '\n' || c = '\u200e' || c = '\u200f'

/-- `src/tokenizer.rs` 710-717, `whitespace`. -/
def whitespace : LP Extent := fun pt =>
  LP.map (splitPointAtNonZeroOffset (takeWhileLen isWs pt.s) .ExpectedWhitespace) (fun r => r.2) pt

/-- `src/tokenizer.rs` 722-724 (and 726-728, 730-732): up to the next newline. -/
def lineComment (k : TK) : LP Token := fun spt =>
  let eol := (findChar '\n' spt.s).getD (blen spt.s)
  (do let _ ← advance eol
      let e ← exHere spt
      LP.pure (Token.plain k e) : LP Token) spt

/-- `src/tokenizer.rs` 734-736 (and 738-740, 742-744): `pt.s[n..].find("*/").map(|x| n + x + 2)`, up to the end of the
text when there is none. -/
def blockComment (k : TK) (n : Nat) : LP Token := fun spt =>
  match splitAtByte n spt.s with
  | none => (.panic, [])
  | some (_, sn) =>
    let eol := ((findStr c!"*/" sn).map (fun x => n + x + 2)).getD (blen spt.s)
    (do let _ ← advance eol
        let e ← exHere spt
        LP.pure (Token.plain k e) : LP Token) spt

/-- `src/tokenizer.rs` 719-748, `comment_or_doc_comment`. -/
def commentOrDocComment : LP Token := fun pt =>
  if startsWith c!"///" pt.s && !startsWith c!"////" pt.s then lineComment .DocCommentOuterLine pt
  else if startsWith c!"//!" pt.s then lineComment .DocCommentInnerLine pt
  else if startsWith c!"//" pt.s then lineComment .CommentLine pt
  else if startsWith c!"/**" pt.s && !startsWith c!"/***" pt.s && !startsWith c!"/**/" pt.s then
    blockComment .DocCommentOuterBlock 3 pt
  else if startsWith c!"/*!" pt.s then blockComment .DocCommentInnerBlock 3 pt
  else if startsWith c!"/*" pt.s then blockComment .CommentBlock 2 pt
  else (.fail pt .ExpectedComment, [])

/-- `src/tokenizer.rs` 805-811, `hex_string`. -/
def hexString : LP Text := fun pt =>
  let idx := takeWhileLen (isDigit 16) pt.s
  if idx = 0 then (.fail pt .ExpectedHex, []) else advance idx pt

/-- `src/tokenizer.rs` 788-794, `escaped_char_hex`. -/
def escapedCharHex : LP Extent := do
  let spt ← LP.point
  let _ ← literal c!"x"
  let _ ← hexString
  exHere spt

/-- `src/tokenizer.rs` 796-803, `escaped_char_unicode`. -/
def escapedCharUnicode : LP Extent := do
  let spt ← LP.point
  let _ ← literal c!"u{"
  let _ ← hexString
  let _ ← literal c!"}"
  exHere spt

/-- `src/tokenizer.rs` 774-786, `escaped_char_code`. -/
def escapedCharCode : LP Extent :=
  LP.alts (literal c!"n")
    [ literal c!"r", literal c!"t", literal c!"\\", literal c!"'", literal c!"\"", literal c!"0",
      escapedCharHex, escapedCharUnicode ]

/-- `src/tokenizer.rs` 766-772, `escaped_char`.  Simplified: the returned slice is never used and dropped here. -/
def escapedChar : LP Unit := do
  let _ ← literal c!"\\"
  let _ ← escapedCharCode
  LP.pure ()

/-- `src/tokenizer.rs` 813-825, `single_char`. -/
def singleChar : LP Unit := fun pt =>
  match pt.s with
  | c :: _ => (LP.map (advance c.utf8Size) fun _ => ()) pt
  | [] => (.fail pt .ExpectedCharacter, [])

/-- `src/tokenizer.rs` 759-764, `character_char`. -/
def characterChar : LP Unit := LP.alts escapedChar [singleChar]

/-- `src/tokenizer.rs` 750-757, `character`. -/
def character : LP Extent := do
  let spt ← LP.point
  let _ ← literal c!"'"
  let _ ← characterChar
  let _ ← literal c!"'"
  exHere spt

/-- `src/tokenizer.rs` 843-853: the index at which the loop of `string_char` stops. -/
def stringCharIdx (escaped : Bool) : Text → Nat
  | [] => 0
  | c :: cs =>
    match escaped with
    | true => c.utf8Size + stringCharIdx false cs
    | false =>
      if c = '\\' then c.utf8Size + stringCharIdx true cs
      else if c = '"' then 0
      else c.utf8Size + stringCharIdx false cs

/-- `src/tokenizer.rs` 836-854, `string_char`. -/
def stringChar : LP Text := fun pt => advance (stringCharIdx false pt.s) pt

/-- `src/tokenizer.rs` 827-834, `string`. -/
def string : LP Extent := do
  let spt ← LP.point
  let _ ← literal c!"\""
  let _ ← stringChar
  let _ ← literal c!"\""
  exHere spt

/-- `src/tokenizer.rs` 866-885, `raw_string_tail`. -/
def rawStringTail (hashes : Nat) : LP Text := fun pt =>
  let s := '"' :: List.replicate hashes '#'
  match findStr s pt.s with
  | some end_ =>
    match splitAtByte end_ pt.s with
    | none => (.panic, [])
    | some (strContent, quoteTail) =>
      match splitAtByte (blen s) quoteTail with
      | none => (.panic, [])
      | some (_, tail) => (.ok ⟨tail, pt.offset + end_ + blen s⟩ strContent, [])
  | none => (.fail pt .UnterminatedRawString, [])

/-- `src/tokenizer.rs` 856-864, `string_raw`. -/
def stringRaw : LP Extent := do
  let spt ← LP.point
  let _ ← literal c!"r"
  let h ← LP.zeroOrMore (literal c!"#")
  let _ ← literal c!"\""
  let _ ← rawStringTail h.length
  exHere spt

/-- `src/tokenizer.rs` 887-893, `byte`. -/
def byte : LP Extent := do
  let spt ← LP.point
  let _ ← literal c!"b"
  let _ ← character
  exHere spt

/-- `src/tokenizer.rs` 895-901, `byte_string`. -/
def byteString : LP Extent := do
  let spt ← LP.point
  let _ ← literal c!"b"
  let _ ← string
  exHere spt

/-- `src/tokenizer.rs` 903-909, `byte_string_raw`. -/
def byteStringRaw : LP Extent := do
  let spt ← LP.point
  let _ ← literal c!"b"
  let _ ← stringRaw
  exHere spt

/-- `src/tokenizer.rs` 911-917, `lifetime`. -/
def lifetime (X : Xid) : LP Extent := do
  let spt ← LP.point
  let _ ← literal c!"'"
  let _ ← simpleIdent X
  exHere spt

/-- `src/tokenizer.rs` 448-506: the symbols, in the order in which they are tried. -/
def symbolTable : List (Text × TK) :=
  [ (c!">>=", .ShiftRightEquals), (c!"<<=", .ShiftLeftEquals), (c!"...", .TriplePeriod),
    (c!"..=", .DoublePeriodEquals),
    (c!"!=", .NotEqual), (c!"%=", .PercentEquals), (c!"&&", .DoubleAmpersand), (c!"&=", .AmpersandEquals),
    (c!"*=", .TimesEquals), (c!"+=", .PlusEquals), (c!"-=", .MinusEquals), (c!"->", .ThinArrow),
    (c!"/=", .DivideEquals), (c!"<<", .DoubleLeftAngle), (c!"<=", .LessThanOrEquals),
    (c!"==", .DoubleEquals), (c!"=>", .ThickArrow), (c!">=", .GreaterThanOrEquals),
    (c!">>", .DoubleRightAngle), (c!"^=", .CaretEquals), (c!"|=", .PipeEquals), (c!"..", .DoublePeriod),
    (c!"::", .DoubleColon), (c!"||", .DoublePipe),
    (c!"!", .Bang), (c!"#", .Hash), (c!"$", .Dollar), (c!"%", .Percent), (c!"&", .Ampersand),
    (c!"*", .Asterisk), (c!"+", .Plus), (c!",", .Comma), (c!"-", .Minus), (c!".", .Period), (c!"/", .Slash),
    (c!":", .Colon), (c!";", .Semicolon), (c!"=", .Equals), (c!"?", .QuestionMark), (c!"@", .At),
    (c!"^", .Caret), (c!"|", .Pipe), (c!"~", .Tilde), (c!"\\", .Backslash),
    (c!"(", .LeftParen), (c!")", .RightParen), (c!"<", .LeftAngle), (c!">", .RightAngle),
    (c!"[", .LeftSquare), (c!"]", .RightSquare), (c!"{", .LeftCurly), (c!"}", .RightCurly) ]

/-- `map(p, Token::Kind)`. -/
def mapTok (p : LP Extent) (k : TK) : LP Token := LP.map p (Token.plain k)

/-- `src/tokenizer.rs` 440-511: the alternatives of `single_token` after the first.  The 52 literal alternatives are
written as a map over `symbolTable`. -/
def singleTokenAlts (X : Xid) : List (LP Token) :=
  [ mapTok character .Character,
    mapTok string .String,
    mapTok stringRaw .StringRaw,
    mapTok byte .Byte,
    mapTok byteString .ByteString,
    mapTok byteStringRaw .ByteStringRaw,
    mapTok (lifetime X) .Lifetime ]
  ++ symbolTable.map (fun r => mapTok (literal r.1) r.2)
  ++ [ keywordOrIdent X,
       LP.map (number X) Token.number,
       mapTok whitespace .Whitespace ]

/-- `src/tokenizer.rs` 437-513, `single_token`. -/
def singleToken (X : Xid) : LP Token := LP.alts commentOrDocComment (singleTokenAlts X)

/-- `peresil::Failures { point, kinds }`; the point is represented by its offset, which is all that is compared and
reported. -/
structure Failures (ε : Type) where
  point : Nat
  kinds : List ε
deriving Repr

/-- `Failures::new`. -/
def Failures.new {ε} : Failures ε := ⟨0, []⟩

/-- `Failures::add`: only the furthest failures are kept. -/
def Failures.add {ε} (f : Failures ε) (p : Nat) (e : ε) : Failures ε :=
  if p < f.point then f
  else if p = f.point then ⟨f.point, f.kinds ++ [e]⟩
  else ⟨p, [e]⟩

/-- Replay of a log of recorded failures. -/
def Failures.addAll {ε} (f : Failures ε) : List (Nat × ε) → Failures ε
  | [] => f
  | (p, e) :: l => Failures.addAll (f.add p e) l

/-- `src/tokenizer.rs` 351-354, `ErrorDetail`.  Simplified: the `BTreeSet` of errors is the list of recorded kinds (order
and duplicates are irrelevant to the claims). -/
structure LErrorDetail where
  location : Nat
  errors : List LErr
deriving Repr, DecidableEq

/-- `src/tokenizer.rs` 389-393, `struct Tokens`: parse master (its failures), point, exhausted flag. -/
structure Tokens where
  fails : Failures LErr
  pt : LPoint
  isExhausted : Bool

/-- `src/tokenizer.rs` 395-403, `Tokens::new`. -/
def Tokens.new (code : Text) : Tokens := ⟨.new, ⟨code, 0⟩, false⟩

/-- The item type of the iterator, plus `panic`. -/
inductive LItem
  | tok (t : Token)
  | err (d : LErrorDetail)
  | panic
deriving Repr, DecidableEq

/-- `src/tokenizer.rs` 408-434, `Tokens::next`.  `clear` says whether `ParseMaster::finish` drops the recorded failures
on success (not known from the sources at hand; everything is proved for both). -/
def Tokens.next (X : Xid) (clear : Bool) (st : Tokens) : Option LItem × Tokens :=
  if st.isExhausted then (none, st)
  else if st.pt.s.isEmpty then
    (some (.tok (.plain .EndOfFile ⟨st.pt.offset, st.pt.offset⟩)), { st with isExhausted := true })
  else
    match singleToken X st.pt with
    | (.ok point value, log) =>
      if st.pt.offset = point.offset then (some .panic, st)
      else
        let fails := if clear then .new else st.fails.addAll (log.map fun r => (r.1.offset, r.2))
        (some (.tok value), { st with pt := point, fails := fails })
    | (.fail pt e, log) =>
      let f := (st.fails.addAll (log.map fun r => (r.1.offset, r.2))).add pt.offset e
      (some (.err ⟨f.point, f.kinds⟩), { st with fails := .new })
    | (.panic, _) => (some .panic, st)
    | (.hang, _) => (some .panic, st)

/-- The results of the first `n` calls of `Tokens::next` (`src/tokenizer.rs` 408-434). -/
def Tokens.calls (X : Xid) (clear : Bool) : Nat → Tokens → List (Option LItem)
  | 0, _ => []
  | n + 1, st => (st.next X clear).1 :: Tokens.calls X clear n (st.next X clear).2

/-- The result of draining the iterator with `?` on every item (`src/lib.rs` 284-285). -/
inductive LexResult
  | ok (ts : List Token)
  | err (d : LErrorDetail)
  | panic
  | hang
deriving Repr, DecidableEq

/-- `for token in Tokens::new(file) { let token = token?; … }` (`src/lib.rs` 284-301), with fuel. -/
def Tokens.drain (X : Xid) (clear : Bool) : Nat → Tokens → List Token → LexResult
  | 0, _, _ => .hang
  | n + 1, st, acc =>
    match st.next X clear with
    | (none, _) => .ok acc.reverse
    | (some (.tok t), st') => Tokens.drain X clear n st' (t :: acc)
    | (some (.err d), _) => .err d
    | (some .panic, _) => .panic

/-- Tokenize a whole text.  The fuel (one step per character, one for end-of-file, one for the final `None`) is proved
sufficient. -/
def lex (X : Xid) (clear : Bool) (code : Text) : LexResult :=
  Tokens.drain X clear (code.length + 2) (.new code) []

end Verif
