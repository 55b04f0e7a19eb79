import Verif.Spec.Spelling
/-!
# Where no token can be read

The texts at which the lexical grammar has no token: how far one gets in such a text, and what is missing there.  Nothing here
mentions the tokenizer's functions; only the names of the errors are shared.
-/

namespace Verif.Spec
open Verif

/-- The body of a string that is never closed: plain characters and escape pairs up to the end of the text, where there may be
a single backslash. -/
inductive OpenStr : Text → Prop
  | nil : OpenStr []
  | slash : OpenStr ['\\']
  | plain {c t} : c ≠ '"' → c ≠ '\\' → OpenStr t → OpenStr (c :: t)
  | esc {c t} : OpenStr t → OpenStr ('\\' :: c :: t)

/-- What is missing where no token starts: any of them. -/
def AnyToken (e : LErr) : Prop :=
  (∃ k w, symbolText k = some w ∧ e = .Literal w) ∨
  e ∈ [LErr.ExpectedComment, .ExpectedIdentOrKeyword, .ExpectedNumber, .ExpectedWhitespace, .Literal c!"'", .Literal c!"\"", .Literal c!"r",
    .Literal c!"b", .Literal c!"0b", .Literal c!"0x", .Literal c!"0o"]

/-- What is missing after a backslash in a character literal. -/
def AnyEscape (e : LErr) : Prop :=
  e ∈ [LErr.Literal c!"n", .Literal c!"r", .Literal c!"t", .Literal c!"\\", .Literal c!"'", .Literal c!"\"", .Literal c!"0",
    .Literal c!"x", .Literal c!"u{"]

/-- A hexadecimal digit. -/
def Hex (c : Char) : Prop := c ∈ digitChars .Hexadecimal

/-- No token can be read at the beginning of this text; one gets so many bytes far, and this is missing there. -/
inductive NoToken (X : Xid) : Text → Nat → (LErr → Prop) → Prop
  /-- A character that starts nothing. -/
  | stray {c t} : ¬ WordStart X c → c ∉ digitChars .Decimal → c ∉ wsChars → c ≠ '\'' → c ≠ '"' → (∀ k, symbolText k ≠ some [c]) →
      NoToken X (c :: t) 0 AnyToken
  /-- A string that is never closed: its closing quote is missing at the end of the text. -/
  | str {t} : OpenStr t → NoToken X ('"' :: t) (1 + blen t) (· = .Literal c!"\"")
  /-- `r` and hashes, followed neither by a quote nor, if there is just one hash, by a word. -/
  | rawStart {n t} : 0 < n → ¬ StartsIn (fun c => c = '#' ∨ c = '"') t → (n = 1 → ¬ StartsIn (WordStart X) t) →
      NoToken X (c!"r" ++ List.replicate n '#' ++ t) (1 + n) (fun e => e = .Literal c!"#" ∨ e = .Literal c!"\"")
  /-- A raw string (with hashes) that is never closed: this is reported at its first character. -/
  | rawEnd {n t} : 0 < n → NoOcc (rawClose n) t →
      NoToken X (c!"r" ++ List.replicate n '#' ++ c!"\"" ++ t) (2 + n) (· = .UnterminatedRawString)
  /-- A single quote at the end of the text. -/
  | quoteEnd : NoToken X c!"'" 1 (· ∈ [LErr.ExpectedCharacter, .ExpectedIdent, .Literal c!"\\"])
  /-- A single quote and a character that starts no lifetime, without a closing quote. -/
  | quote {c t} : c ≠ '\\' → ¬ WordStart X c → ¬ StartsIn (· = '\'') t → NoToken X ('\'' :: c :: t) (1 + c.utf8Size) (· = .Literal c!"'")
  /-- A single quote and an escaped character, without a closing quote. -/
  | escaped {b t} : Escape b → ¬ StartsIn (· = '\'') t → (∀ ds, b = 'x' :: ds → ¬ StartsIn Hex t) →
      NoToken X (c!"'\\" ++ b ++ t) (2 + blen b) (· = .Literal c!"'")
  /-- An unknown escape. -/
  | escape {t} : ¬ StartsIn (· ∈ c!"nrt\\'\"0x") t → ¬ c!"u{" <+: t → NoToken X (c!"'\\" ++ t) 2 AnyEscape
  /-- An escape by number, without the number. -/
  | hex {t} : ¬ StartsIn Hex t → NoToken X (c!"'\\x" ++ t) 3 (· = .ExpectedHex)
  | unicode {t} : ¬ StartsIn Hex t → NoToken X (c!"'\\u{" ++ t) 4 (· = .ExpectedHex)
  /-- An escape by number in braces, the second of which is missing. -/
  | unicodeEnd {ds t} : ds ≠ [] → (∀ d ∈ ds, Hex d) → ¬ StartsIn (fun c => Hex c ∨ c = '}') t →
      NoToken X (c!"'\\u{" ++ ds ++ t) (4 + blen ds) (· = .Literal c!"}")

/-- The text, starting at byte `off`, begins with these tokens, and this is the rest of it. -/
inductive Begins (X : Xid) : Nat → List Token → Text → Text → Prop
  | none {off s} : Begins X off [] s s
  | token {off t body post ts rest} : Spelling X off t body post → Begins X (off + blen body) ts post rest →
      Begins X off (t :: ts) (body ++ post) rest

end Verif.Spec
