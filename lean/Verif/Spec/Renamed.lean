import Verif.Spec.Spelling
/-!
# A text with some of its names replaced by others
-/

namespace Verif.Spec
open Verif

/-- What can be written for a name, whatever comes behind it: a word that is no keyword and cannot be the start of a literal, or any word
written raw. -/
def NameText (X : Xid) (y : Text) : Prop :=
  (Word X y ∧ (∀ k, keywordText k ≠ some y) ∧ y ≠ c!"b" ∧ y ≠ c!"r" ∧ y ≠ c!"br") ∨ ∃ v, Word X v ∧ y = c!"r#" ++ v

/-- The texts of the tokens of `code` (the last being the end-of-file token), where `ρ w` is written for every name `w`, and all other
tokens are written as before. -/
inductive Renamed (code : Text) (ρ : Text → Text) : List Token → List Text → Prop
  | done {e} : Renamed code ρ [.plain .EndOfFile e] []
  | name {e w ts xs} : sliceText code e = some w → Renamed code ρ ts xs → Renamed code ρ (.plain .Ident e :: ts) (ρ w :: xs)
  | other {t w ts xs} : t.kind? ≠ some .Ident → t.kind? ≠ some .EndOfFile → sliceText code t.extent = some w → Renamed code ρ ts xs →
      Renamed code ρ (t :: ts) (w :: xs)

end Verif.Spec
