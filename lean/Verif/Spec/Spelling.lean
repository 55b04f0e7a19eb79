import Verif.Spec.Lex
/-!
# How tokens are written

The lexical grammar of the language, as a relation between tokens and texts.  It says for each kind of token how it may be spelt
and what may follow it; nothing here mentions the tokenizer's functions.
-/

namespace Verif.Spec
open Verif

/-- What is assumed of the Unicode tables: on ASCII they are the usual ones, and white space belongs to no word. -/
structure Sane (X : Xid) : Prop where
  start : ∀ c : Char, c.toNat < 128 → X.start c = c.isAlpha
  cont : ∀ c : Char, c.toNat < 128 → X.cont c = (c.isAlphanum || c = '_')
  ws : ∀ c ∈ wsChars, X.start c = false ∧ X.cont c = false

/-- The text starts with one of these characters. -/
def StartsIn (P : Char → Prop) (s : Text) : Prop := ∃ d t, s = d :: t ∧ P d

/-- A character with which a word may start. -/
def WordStart (X : Xid) (c : Char) : Prop := X.start c = true ∨ c = '_'

/-- A digit of the base, or an underscore. -/
def DigitOr_ (b : NumBase) (c : Char) : Prop := c ∈ digitChars b ∨ c = '_'

/-- The fraction of a number: a period and digits.  The period is not one of `..`, and not that of a field or method. -/
structure Fraction (X : Xid) (b : NumBase) (ds post : Text) : Prop where
  digits : ∀ c ∈ ds, DigitOr_ b c
  longest : ¬ StartsIn (DigitOr_ b) post
  notRange : ¬ StartsIn (· = '.') (ds ++ post)
  notAccess : ¬ StartsIn (WordStart X) (ds ++ post)

/-- The text does not continue with a fraction. -/
def NoFraction (X : Xid) (s : Text) : Prop := ∀ t, s = '.' :: t → StartsIn (· = '.') t ∨ StartsIn (WordStart X) t

/-- The text does not continue with an exponent. -/
def NoExponent (s : Text) : Prop := ∀ m t, s = m :: t → m = 'e' ∨ m = 'E' → ¬ StartsIn (DigitOr_ .Decimal) t

/-- The parts of a number: base, digits, digits after the period, exponent marker and digits, suffix. -/
structure NumParts where
  base : NumBase
  ints : Text
  frac : Option Text
  exp : Option (Char × Text)
  suf : Option Text

/-- The text of the fraction. -/
def NumParts.fracText (p : NumParts) : Text := p.frac.elim [] ('.' :: ·)

/-- The text of the exponent. -/
def NumParts.expText (p : NumParts) : Text := p.exp.elim [] fun r => r.1 :: r.2

/-- The text of the suffix. -/
def NumParts.sufText (p : NumParts) : Text := p.suf.getD []

/-- The text of a number. -/
def NumParts.text (p : NumParts) : Text := basePrefix p.base ++ p.ints ++ p.fracText ++ p.expText ++ p.sufText

/-- The token of a number written at byte `off`: each part has its own extent. -/
def NumParts.number (p : NumParts) (off : Nat) : Number :=
  let a := off + blen (basePrefix p.base)
  let b := a + blen p.ints
  let c := b + blen p.fracText
  let d := c + blen p.expText
  let e := d + blen p.sufText
  { base := p.base, extent := ⟨off, e⟩, integral := ⟨a, b⟩, fractional := p.frac.map fun _ => ⟨b, c⟩,
    exponent := p.exp.map fun r => ⟨c + r.1.utf8Size, d⟩, type_suffix := p.suf.map fun _ => ⟨d, e⟩,
    underscores := p.ints.count '_' }

/-- A number followed by `post`: each part is as long as can be, and is absent only if it is not there. -/
structure NumText (X : Xid) (p : NumParts) (post : Text) : Prop where
  ne : p.ints ≠ []
  digits : ∀ c ∈ p.ints, DigitOr_ p.base c
  longest : ¬ StartsIn (DigitOr_ p.base) (p.fracText ++ p.expText ++ p.sufText ++ post)
  decimal : p.base = .Decimal → ∀ b ≠ .Decimal, ∀ t, p.text ++ post = basePrefix b ++ t → ¬ StartsIn (DigitOr_ b) t
  frac : ∀ ds, p.frac = some ds → Fraction X p.base ds (p.expText ++ p.sufText ++ post)
  noFrac : p.frac = none → NoFraction X (p.expText ++ p.sufText ++ post)
  exp : ∀ m ds, p.exp = some (m, ds) → (m = 'e' ∨ m = 'E') ∧ ds ≠ [] ∧ (∀ c ∈ ds, DigitOr_ .Decimal c) ∧
    ¬ StartsIn (DigitOr_ .Decimal) (p.sufText ++ post)
  noExp : p.exp = none → NoExponent (p.sufText ++ post)
  suf : ∀ w, p.suf = some w → Word X w ∧ NoCont X post
  noSuf : p.suf = none → ¬ StartsIn (WordStart X) post

/-- A raw string or byte literal, which starts like a word, stands at the front of the text. -/
def LiteralAt (s : Text) : Prop :=
  ∃ a post, s = a ++ post ∧ (RawStrLit a post ∨ ∃ b, a = 'b' :: b ∧ (CharLit b ∨ StrLit b ∨ RawStrLit b post))

/-- How the token `t`, standing at byte `off` and followed by `post`, is written. -/
inductive Spelling (X : Xid) (off : Nat) : Token → Text → Text → Prop
  | ident {w post} : Word X w → (∀ k, keywordText k ≠ some w) → NoCont X post → ¬ LiteralAt (w ++ post) → ¬ c!"r#" <+: w ++ post →
      Spelling X off (.plain .Ident ⟨off, off + blen w⟩) w post
  | keyword {k w post} : keywordText k = some w → NoCont X post → Spelling X off (.plain k ⟨off, off + blen w⟩) w post
  | rawIdent {w post} : Word X w → NoCont X post →
      Spelling X off (.plain .Ident ⟨off, off + blen (c!"r#" ++ w)⟩) (c!"r#" ++ w) post
  | symbol {k w post} : symbolText k = some w →
      (∀ k' w', symbolText k' = some w' → w' <+: w ++ post → w'.length ≤ w.length) → commentKind (w ++ post) = none →
      Spelling X off (.plain k ⟨off, off + blen w⟩) w post
  | char {body post} : CharLit body → Spelling X off (.plain .Character ⟨off, off + blen body⟩) body post
  | str {body post} : StrLit body → Spelling X off (.plain .String ⟨off, off + blen body⟩) body post
  | strRaw {body post} : RawStrLit body post → Spelling X off (.plain .StringRaw ⟨off, off + blen body⟩) body post
  | byte {b post} : CharLit b → Spelling X off (.plain .Byte ⟨off, off + blen ('b' :: b)⟩) ('b' :: b) post
  | byteStr {b post} : StrLit b → Spelling X off (.plain .ByteString ⟨off, off + blen ('b' :: b)⟩) ('b' :: b) post
  | byteStrRaw {b post} : RawStrLit b post → Spelling X off (.plain .ByteStringRaw ⟨off, off + blen ('b' :: b)⟩) ('b' :: b) post
  | lifetime {w post} : Word X w → NoCont X post → ¬ (w.length = 1 ∧ StartsIn (· = '\'') post) →
      Spelling X off (.plain .Lifetime ⟨off, off + blen ('\'' :: w)⟩) ('\'' :: w) post
  | number {p post} : NumText X p post → ¬ StartsIn (· = '_') p.text → Spelling X off (.number (p.number off)) p.text post
  | line {k body post} : isLineKind k → commentKind (body ++ post) = some k → LineTo body post →
      Spelling X off (.plain k ⟨off, off + blen body⟩) body post
  | block {k op body post} : blockOpener k = some op → commentKind (body ++ post) = some k → BlockTo op body post →
      Spelling X off (.plain k ⟨off, off + blen body⟩) body post
  | ws {body post} : body ≠ [] → (∀ c ∈ body, c ∈ wsChars) → ¬ StartsIn (· ∈ wsChars) post →
      Spelling X off (.plain .Whitespace ⟨off, off + blen body⟩) body post

/-- The text, starting at byte `off`, writes these tokens; the last one marks the end. -/
inductive Spelled (X : Xid) : Nat → List Token → Text → Prop
  | done {off} : Spelled X off [.plain .EndOfFile ⟨off, off⟩] []
  | token {off t body post ts} : Spelling X off t body post → Spelled X (off + blen body) ts post → Spelled X off (t :: ts) (body ++ post)

/-- The tokens of `code` (the last being the end-of-file token), each written on a line of its own. -/
inductive OnePerLine (code : Text) : List Token → Text → Prop
  | done {e} : OnePerLine code [.plain .EndOfFile e] []
  | line {t ts body text} : sliceText code t.extent = some body → OnePerLine code ts text → OnePerLine code (t :: ts) (body ++ '\n' :: text)

end Verif.Spec
