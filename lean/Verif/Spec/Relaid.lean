import Verif.Spec.Shape
import Verif.Spec.Spelling
/-!
# A text laid out anew
-/

namespace Verif.Spec
open Verif

/-- White space and comments, as they are read in front of `post`. -/
inductive LayoutText (X : Xid) (post : Text) : Text → Prop
  | nil : LayoutText X post []
  | cons {t w g} : isTrivia t = true → Spelling X 0 t w (g ++ post) → LayoutText X post g → LayoutText X post (w ++ g)

/-- A text with the tokens of `code` (the last being the end-of-file token), where white space and comments between two of them may be
others, and may be put where there were none.  The first argument is the kind of the token just before.

A new layout starts with white space, with a newline if there is a line comment before it, and has no quote in it.  None is put where
there was none behind a period, or at the end of the text. -/
inductive Relaid (X : Xid) (code : Text) : Option TK → List Token → Text → Prop
  | done {k e} : Relaid X code k [.plain .EndOfFile e] []
  | keep {k t w ts x} : t.kind? ≠ some .EndOfFile → sliceText code t.extent = some w → Relaid X code t.kind? ts x →
      Relaid X code k (t :: ts) (w ++ x)
  | layout {k old g t ts x} : (∀ v ∈ old, isTrivia v = true) → isTrivia t = false → k ≠ some .Whitespace →
      LayoutText X x g → StartsIn (· ∈ wsChars) g → (∀ l, k = some l → isLineKind l → StartsIn (· = '\n') g) → '"' ∉ g →
      (old = [] → k ≠ some .Period ∧ t.kind? ≠ some .EndOfFile) →
      Relaid X code (some .Whitespace) (t :: ts) x → Relaid X code k (old ++ t :: ts) (g ++ x)

end Verif.Spec
