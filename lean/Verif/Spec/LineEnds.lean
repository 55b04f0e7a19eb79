import Verif.Spec.Spelling
import Verif.Spec.Shape
/-!
# Line ends

Texts that differ only in the carriage returns before line feeds.
-/

namespace Verif.Spec
open Verif

/-- The two texts are the same but for how many carriage returns stand directly before each line feed. -/
inductive SameLines : Text → Text → Prop
  | nil : SameLines [] []
  | char {c s s'} : c ≠ '\n' → SameLines s s' → SameLines (c :: s) (c :: s')
  | line {i j s s'} : SameLines s s' → SameLines (List.replicate i '\r' ++ '\n' :: s) (List.replicate j '\r' ++ '\n' :: s')

/-- Somewhere in the text a line feed stands alone between two single quotes, as a character literal may be written. -/
def QuotedFeed (s : Text) : Prop := c!"'\n'" <:+: s

/-- Each line feed becomes a carriage return and a line feed. -/
def crlf : Text → Text
  | [] => []
  | c :: s => if c = '\n' then '\r' :: '\n' :: crlf s else c :: crlf s

/-- As many tokens of the same kinds in the same order, and each has in the one text the characters that it has in the other, but for
carriage returns before line feeds.  A comment up to the end of the line is compared together with the line feed that ends it. -/
inductive SameTokens (code code' : Text) : List Token → List Token → Prop
  | nil : SameTokens code code' [] []
  | cons {t t' b b' ts ts'} : SameKind t t' → sliceText code t.extent = some b → sliceText code' t'.extent = some b' →
      SameLines (b ++ ['\n']) (b' ++ ['\n']) → SameTokens code code' ts ts' → SameTokens code code' (t :: ts) (t' :: ts')

end Verif.Spec
