import Verif.Tok
import Verif.Lex
/-!
# Lexical shapes, stated on their own

What the tokens of the language look like, as predicates on texts.  Nothing here mentions the tokenizer's functions;
only the tables `keywordTable`, `symbolTable` (spellings) and the Unicode parameters `Xid` are shared.
-/

namespace Verif.Spec
open Verif

/-- Digits of a base, as an explicit list of characters. -/
def digitChars : NumBase → List Char
  | .Binary => c!"01"
  | .Octal => c!"01234567"
  | .Decimal => c!"0123456789"
  | .Hexadecimal => c!"0123456789abcdefABCDEF"

/-- The marker written before the digits of a base. -/
def basePrefix : NumBase → Text
  | .Binary => c!"0b"
  | .Octal => c!"0o"
  | .Decimal => []
  | .Hexadecimal => c!"0x"

/-- A word: a start character or underscore, then continue characters. -/
def Word (X : Xid) (w : Text) : Prop :=
  ∃ c cs, w = c :: cs ∧ (X.start c = true ∨ c = '_') ∧ ∀ d ∈ cs, X.cont d = true

/-- The text that follows cannot continue a word. -/
def NoCont (X : Xid) (post : Text) : Prop := ∀ d t, post = d :: t → X.cont d = false

/-- The body of a string literal: plain characters (neither quote nor backslash) and escape pairs. -/
inductive StrBody : Text → Prop
  | nil : StrBody []
  | plain {c t} : c ≠ '"' → c ≠ '\\' → StrBody t → StrBody (c :: t)
  | esc {c t} : StrBody t → StrBody ('\\' :: c :: t)

/-- `a` is what precedes the first occurrence of `pat` in `s`. -/
def FirstOcc (pat s a : Text) : Prop :=
  (∃ b, s = a ++ pat ++ b) ∧ ∀ a' b', s = a' ++ pat ++ b' → a.length ≤ a'.length

/-- `pat` does not occur in `s`. -/
def NoOcc (pat s : Text) : Prop := ∀ a b, s ≠ a ++ pat ++ b

/-- What may follow the backslash of an escaped character. -/
inductive Escape : Text → Prop
  | simple {c} : c ∈ c!"nrt\\'\"0" → Escape [c]
  | hex {ds} : ds ≠ [] → (∀ d ∈ ds, d ∈ digitChars .Hexadecimal) → Escape ('x' :: ds)
  | unicode {ds} : ds ≠ [] → (∀ d ∈ ds, d ∈ digitChars .Hexadecimal) → Escape (c!"u{" ++ ds ++ c!"}")

/-- What may stand between the quotes of a character literal: one character other than a backslash, or an escape. -/
inductive CharBody : Text → Prop
  | single {c} : c ≠ '\\' → CharBody [c]
  | esc {t} : Escape t → CharBody ('\\' :: t)

/-- A character literal. -/
def CharLit (t : Text) : Prop := ∃ b, CharBody b ∧ t = c!"'" ++ b ++ c!"'"

/-- A string literal. -/
def StrLit (t : Text) : Prop := ∃ b, StrBody b ∧ t = c!"\"" ++ b ++ c!"\""

/-- A quote and `n` hashes: the end of a raw string. -/
def rawClose (n : Nat) : Text := '"' :: List.replicate n '#'

/-- A raw string literal with `n` hashes, followed by `post`. -/
def RawStrLit (t post : Text) : Prop :=
  ∃ n content, t = c!"r" ++ List.replicate n '#' ++ c!"\"" ++ content ++ rawClose n ∧
    FirstOcc (rawClose n) (content ++ rawClose n ++ post) content

/-- White space characters. -/
def wsChars : List Char := [' ', '\t', '\r', '\n', '\u200e', '\u200f']

/-- A comment running up to the end of the line. -/
def LineTo (body post : Text) : Prop := '\n' ∉ body ∧ ∀ d t, post = d :: t → d = '\n'

/-- A comment opened by `op` running up to and including the first `*/` after the opener, or to the end of the
text when there is none. -/
def BlockTo (op body post : Text) : Prop :=
  (∃ inner, body = op ++ inner ++ c!"*/" ∧ FirstOcc c!"*/" (inner ++ c!"*/" ++ post) inner) ∨
  (∃ inner, body = op ++ inner ∧ NoOcc c!"*/" inner ∧ post = [])

/-- The kind of comment that the text `s` starts with, if any. -/
def commentKind (s : Text) : Option TK :=
  if c!"//".isPrefixOf s then
    if c!"///".isPrefixOf s ∧ ¬ c!"////".isPrefixOf s then some .DocCommentOuterLine
    else if c!"//!".isPrefixOf s then some .DocCommentInnerLine
    else some .CommentLine
  else if c!"/*".isPrefixOf s then
    if c!"/**".isPrefixOf s ∧ ¬ c!"/***".isPrefixOf s ∧ ¬ c!"/**/".isPrefixOf s then some .DocCommentOuterBlock
    else if c!"/*!".isPrefixOf s then some .DocCommentInnerBlock
    else some .CommentBlock
  else none

def isLineKind (k : TK) : Prop := k = .DocCommentOuterLine ∨ k = .DocCommentInnerLine ∨ k = .CommentLine

/-- The opener of a block comment kind. -/
def blockOpener : TK → Option Text
  | .DocCommentOuterBlock => some c!"/**"
  | .DocCommentInnerBlock => some c!"/*!"
  | .CommentBlock => some c!"/*"
  | _ => none

/-- An optional part of a number: absent with empty text, or present right at its text. -/
def Part (x : Option Extent) (off : Nat) (t : Text) : Prop :=
  (x = none ∧ t = []) ∨ x = some ⟨off, off + blen t⟩

/-- A number literal starting at byte `off`: prefix, integral part, fraction, exponent marker and digits,
type suffix; nothing else. -/
structure NumberShape (X : Xid) (n : Number) (off : Nat) (body : Text) : Prop where
  ext : n.extent = ⟨off, off + blen body⟩
  parts : ∃ ints frac mark exp suf,
    body = basePrefix n.base ++ ints ++ frac ++ mark ++ exp ++ suf ∧
    ints ≠ [] ∧ (∀ c ∈ ints, c ∈ digitChars n.base ∨ c = '_') ∧
    n.integral = ⟨off + blen (basePrefix n.base), off + blen (basePrefix n.base ++ ints)⟩ ∧
    n.underscores = ints.count '_' ∧
    Part n.fractional (off + blen (basePrefix n.base ++ ints)) frac ∧
    (n.fractional ≠ none → ∃ ds, frac = '.' :: ds ∧ ∀ c ∈ ds, c ∈ digitChars n.base ∨ c = '_') ∧
    Part n.exponent (off + blen (basePrefix n.base ++ ints ++ frac ++ mark)) exp ∧
    ((n.exponent = none ∧ mark = []) ∨ (n.exponent ≠ none ∧ (mark = c!"e" ∨ mark = c!"E") ∧ exp ≠ [] ∧
      ∀ c ∈ exp, c ∈ digitChars .Decimal ∨ c = '_')) ∧
    Part n.type_suffix (off + blen (basePrefix n.base ++ ints ++ frac ++ mark ++ exp)) suf ∧
    (n.type_suffix ≠ none → Word X suf)

/-- All shapes of tokens: token, start offset, its text, the text that follows. -/
inductive TokenShape (X : Xid) (off : Nat) : Token → Text → Text → Prop
  | line {k body post} : isLineKind k → commentKind (body ++ post) = some k → LineTo body post →
      TokenShape X off (.plain k ⟨off, off + blen body⟩) body post
  | block {k op body post} : blockOpener k = some op → commentKind (body ++ post) = some k →
      BlockTo op body post → TokenShape X off (.plain k ⟨off, off + blen body⟩) body post
  | char {body post} : CharLit body → TokenShape X off (.plain .Character ⟨off, off + blen body⟩) body post
  | str {body post} : StrLit body → TokenShape X off (.plain .String ⟨off, off + blen body⟩) body post
  | strRaw {body post} : RawStrLit body post →
      TokenShape X off (.plain .StringRaw ⟨off, off + blen body⟩) body post
  | byte {b post} : CharLit b →
      TokenShape X off (.plain .Byte ⟨off, off + blen ('b' :: b)⟩) ('b' :: b) post
  | byteStr {b post} : StrLit b →
      TokenShape X off (.plain .ByteString ⟨off, off + blen ('b' :: b)⟩) ('b' :: b) post
  | byteStrRaw {b post} : RawStrLit b post →
      TokenShape X off (.plain .ByteStringRaw ⟨off, off + blen ('b' :: b)⟩) ('b' :: b) post
  | lifetime {w post} : Word X w → NoCont X post →
      TokenShape X off (.plain .Lifetime ⟨off, off + blen ('\'' :: w)⟩) ('\'' :: w) post
  | symbol {w k post} : (w, k) ∈ symbolTable → TokenShape X off (.plain k ⟨off, off + blen w⟩) w post
  | rawIdent {w post} : Word X w → NoCont X post →
      TokenShape X off (.plain .Ident ⟨off, off + blen (c!"r#" ++ w)⟩) (c!"r#" ++ w) post
  | keyword {w k post} : Word X w → NoCont X post → (w, k) ∈ keywordTable →
      TokenShape X off (.plain k ⟨off, off + blen w⟩) w post
  | ident {w post} : Word X w → NoCont X post → (∀ k, (w, k) ∉ keywordTable) →
      TokenShape X off (.plain .Ident ⟨off, off + blen w⟩) w post
  | number {n body post} : NumberShape X n off body → TokenShape X off (.number n) body post
  | ws {body post} : body ≠ [] → (∀ c ∈ body, c ∈ wsChars) → (∀ d t, post = d :: t → d ∉ wsChars) →
      TokenShape X off (.plain .Whitespace ⟨off, off + blen body⟩) body post

/-- Spelling of each keyword. -/
def keywordText : TK → Option Text
  | .As => some c!"as"
  | .Async => some c!"async"
  | .Auto => some c!"auto"
  | .Box => some c!"box"
  | .Break => some c!"break"
  | .Const => some c!"const"
  | .Continue => some c!"continue"
  | .Crate => some c!"crate"
  | .Default => some c!"default"
  | .Dyn => some c!"dyn"
  | .Else => some c!"else"
  | .Enum => some c!"enum"
  | .Extern => some c!"extern"
  | .Fn => some c!"fn"
  | .For => some c!"for"
  | .If => some c!"if"
  | .Impl => some c!"impl"
  | .In => some c!"in"
  | .Let => some c!"let"
  | .Loop => some c!"loop"
  | .Match => some c!"match"
  | .Mod => some c!"mod"
  | .Move => some c!"move"
  | .Mut => some c!"mut"
  | .Pub => some c!"pub"
  | .Ref => some c!"ref"
  | .Return => some c!"return"
  | .SelfIdent => some c!"self"
  | .Static => some c!"static"
  | .Struct => some c!"struct"
  | .Trait => some c!"trait"
  | .Type => some c!"type"
  | .Union => some c!"union"
  | .Unsafe => some c!"unsafe"
  | .Use => some c!"use"
  | .Where => some c!"where"
  | .While => some c!"while"
  | _ => none

/-- Spelling of each symbol (operators, punctuation, brackets). -/
def symbolText : TK → Option Text
  | .Ampersand => some c!"&"
  | .AmpersandEquals => some c!"&="
  | .Asterisk => some c!"*"
  | .At => some c!"@"
  | .Backslash => some c!"\\"
  | .Bang => some c!"!"
  | .Caret => some c!"^"
  | .CaretEquals => some c!"^="
  | .Colon => some c!":"
  | .Comma => some c!","
  | .DivideEquals => some c!"/="
  | .Dollar => some c!"$"
  | .DoubleAmpersand => some c!"&&"
  | .DoubleColon => some c!"::"
  | .DoubleEquals => some c!"=="
  | .DoubleLeftAngle => some c!"<<"
  | .DoublePeriod => some c!".."
  | .DoublePeriodEquals => some c!"..="
  | .DoublePipe => some c!"||"
  | .DoubleRightAngle => some c!">>"
  | .Equals => some c!"="
  | .GreaterThanOrEquals => some c!">="
  | .Hash => some c!"#"
  | .LeftAngle => some c!"<"
  | .LeftCurly => some c!"{"
  | .LeftParen => some c!"("
  | .LeftSquare => some c!"["
  | .LessThanOrEquals => some c!"<="
  | .Minus => some c!"-"
  | .MinusEquals => some c!"-="
  | .NotEqual => some c!"!="
  | .Percent => some c!"%"
  | .PercentEquals => some c!"%="
  | .Period => some c!"."
  | .Pipe => some c!"|"
  | .PipeEquals => some c!"|="
  | .Plus => some c!"+"
  | .PlusEquals => some c!"+="
  | .QuestionMark => some c!"?"
  | .RightAngle => some c!">"
  | .RightCurly => some c!"}"
  | .RightParen => some c!")"
  | .RightSquare => some c!"]"
  | .Semicolon => some c!";"
  | .ShiftLeftEquals => some c!"<<="
  | .ShiftRightEquals => some c!">>="
  | .Slash => some c!"/"
  | .ThickArrow => some c!"=>"
  | .ThinArrow => some c!"->"
  | .Tilde => some c!"~"
  | .TimesEquals => some c!"*="
  | .TriplePeriod => some c!"..."
  | _ => none

/-- The kinds of comments, ordinary and doc. -/
def commentKinds : List TK :=
  [.CommentLine, .CommentBlock, .DocCommentOuterLine, .DocCommentInnerLine, .DocCommentOuterBlock,
   .DocCommentInnerBlock]

/-- White space and comments that are not documentation. -/
def isTrivia (t : Token) : Bool :=
  t.kind? = some .Whitespace || t.kind? = some .CommentLine || t.kind? = some .CommentBlock

/-- Extents that follow each other without gaps from `a` to `b`. -/
def Chain : Nat → List Extent → Nat → Prop
  | a, [], b => a = b
  | a, x :: xs, b => x.s = a ∧ x.s ≤ x.e ∧ Chain x.e xs b

/-- All the extents a token carries. -/
def allExtents : Token → List Extent
  | .plain _ e => [e]
  | .number n => [n.extent, n.integral] ++ n.fractional.toList ++ n.exponent.toList ++ n.type_suffix.toList

/-- Rust's rule for block comments: `scan d s` starts inside `d` open comments and yields what follows the
matching end. -/
def nestEnd : Nat → Text → Option Text
  | 0, s => some s
  | _ + 1, [] => none
  | d + 1, '/' :: '*' :: s => nestEnd (d + 2) s
  | d + 1, '*' :: '/' :: s => nestEnd d s
  | d + 1, _ :: s => nestEnd (d + 1) s
termination_by structural _ s => s

/-- Token `t` of `code` has text `body`, with `pre` before and `post` after it. -/
structure Located (code : Text) (t : Token) (pre body post : Text) : Prop where
  code_eq : code = pre ++ body ++ post
  extent_eq : t.extent = ⟨blen pre, blen pre + blen body⟩

end Verif.Spec
