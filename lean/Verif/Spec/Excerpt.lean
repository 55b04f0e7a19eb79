import Verif.Spec.Tree
import Verif.Spec.Lex
/-!
# The texts of some items
-/

namespace Verif.Spec
open Verif

/-- The texts in `code` of these items, one after the other, each followed by a new line. -/
inductive OnLines (code : Text) : List V → Text → Prop
  | nil : OnLines code [] []
  | cons {k e ws vs items text rest} : sliceText code e = some text → OnLines code items rest →
      OnLines code (.node k e ws vs :: items) (text ++ '\n' :: rest)

end Verif.Spec
