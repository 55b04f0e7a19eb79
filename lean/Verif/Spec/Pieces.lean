import Verif.Spec.Tree
import Verif.Spec.Lex
import Verif.Visit
/-!
# The pieces of a file

A file that was parsed says where its items stand, and where the whitespace stands that belongs to no item.
-/

namespace Verif.Spec

/-- Where the items stand, and the whitespace of the file itself. -/
def pieces (f : File) : List Extent := f.items.filterMap V.own ++ f.whitespace.map Ws.extent

/-- The extents are those of pieces, none of them empty, that make up a text of `n` bytes without gaps and overlaps when they are put in
the right order. -/
def Tile (xs : List Extent) (n : Nat) : Prop := ∃ ys : List Extent, ys.Perm xs ∧ Chain 0 ys n ∧ ∀ x ∈ ys, x.s < x.e

end Verif.Spec
