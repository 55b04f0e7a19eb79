import Verif.Proofs.VisitMut
import Verif.Props.Visit
/-!
# Property theorems about visitors that change the tree (C53)

In these theorems the bound on the depth of the recursion is any number not less than the depth of the tree.
-/

namespace Verif.Props
open Verif Verif.Spec

/-- A visitor that changes nothing sees the same with `visit_mut` as with `visit`, and leaves the file as it was. -/
theorem C53_unchanged {σ : Type} (vis : Visitor σ) (f : File) (s : σ) (n : Nat) (h : depthL f.items ≤ n) :
    vis.asMut.visitF n f s = some (f, vis.visitFile f s) := asMut_visitF n f s h

/-- Changes made in `exit_…` methods are made once to every node, to a node after they were made to all below it. -/
theorem C53_edits (E : Edits) (f : File) (n : Nat) (h : depthL f.items ≤ n) :
    E.visitor.visitF n f () = some (⟨E.applyL f.items, f.whitespace.map E.ws⟩, ()) := edits_visitF n f () h

/-- The whitespace of a file is attached to the nodes by such a visitor: `apportionFile`, about which the other theorems are, is what the
`exit_…` methods of the apportioner do when they are called by `visit_mut`. -/
theorem C53_apportioner (f : File) (m : Apportioner) (n : Nat) (h : depthL f.items ≤ n) :
    apportionerVisitor.visitF n f m = apportionFile f m := apportioner_visitF n f m h

/-- An edit: all identifiers are moved by one. -/
def moveIdents : Edits where
  node k d := if k = .Ident then { d with extent := ⟨d.extent.s + 1, d.extent.e + 1⟩ } else d

/-- The extents of the identifiers. -/
def identExtents (f : File) : List Extent :=
  (values (enters ((recorder always).visitFile f []))).filterMap fun
    | .node .Ident e _ _ => some e
    | _ => none

example : ∃ f, parseRustFile asciiXid true true c!"struct S<'a> {}" = .ok f ∧
    decide (depthL f.items ≤ 20 ∧ identExtents f = [⟨7, 8⟩, ⟨9, 11⟩] ∧
      ((moveIdents.visitor.visitF 20 f ()).map fun r => identExtents r.1) = some [⟨8, 9⟩, ⟨10, 12⟩]) = true :=
  FileResult.of_okWith (by decide +kernel)

end Verif.Props
