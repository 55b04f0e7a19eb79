import Verif.VisitMut
/-!
# What visiting a tree mutably should do
-/

namespace Verif.Spec
open Verif

mutual
/-- The depth of a tree. -/
def _root_.Verif.V.depth : V → Nat
  | .ext _ => 1
  | .bool _ => 1
  | .list vs => depthL vs + 1
  | .enm _ vs => depthL vs + 1
  | .node _ _ _ vs => depthL vs + 1
/-- The largest depth of a list of trees. -/
def depthL : List V → Nat
  | [] => 0
  | v :: vs => max v.depth (depthL vs)
end

/-- A visitor used where one that may change the tree is expected: it changes nothing. -/
def _root_.Verif.Visitor.asMut {σ : Type} (vis : Visitor σ) : VisitorMut σ where
  visitNode k d s := let c := vis.visit (.value (.node k d.extent d.whitespace d.fields)) s; some (c.1, d, c.2)
  exitNode k d s := some (d, vis.exit (.value (.node k d.extent d.whitespace d.fields)) s)
  visitEnum v s := let c := vis.visit (.value (.enm v.1 v.2)) s; some (c.1, v, c.2)
  exitEnum v s := some (v, vis.exit (.value (.enm v.1 v.2)) s)
  visitWhitespace w s := let c := vis.visit (.whitespace w) s; some (c.1, w, c.2)
  exitWhitespace w s := some (w, vis.exit (.whitespace w) s)
  visitComment w s := let c := vis.visit (.comment w.ws) s; some (c.1, w, c.2)
  exitComment w s := some (w, vis.exit (.comment w.ws) s)
  visitFile f s := let c := vis.visit (.file f) s; some (c.1, f, c.2)
  exitFile f s := some (f, vis.exit (.file f) s)

/-- Changes to structs, enums and whitespace. -/
structure Edits where
  node : K → NodeM → NodeM := fun _ d => d
  enum : Tag × List V → Tag × List V := id
  ws : Ws → Ws := id

/-- The visitor that makes the changes when it leaves a node. -/
def Edits.visitor (E : Edits) : VisitorMut Unit where
  exitNode k d s := some (E.node k d, s)
  exitEnum v s := some (E.enum v, s)
  exitWhitespace w s := some (E.ws w, s)

mutual
/-- The tree with the changes made to all its nodes (and the whitespace, but for that of attributed nodes), from the leaves to the root. -/
def Edits.apply (E : Edits) : V → V
  | .ext e => .ext e
  | .bool b => .bool b
  | .list vs => .list (Edits.applyL E vs)
  | .enm t vs => .enm (E.enum (t, Edits.applyL E vs)).1 (E.enum (t, Edits.applyL E vs)).2
  | .node k e ws vs =>
    let d := E.node k ⟨e, if k.isAttributed then ws else ws.map E.ws, Edits.applyF E k.fields vs⟩
    .node k d.extent d.whitespace d.fields
/-- The same for a list. -/
def Edits.applyL (E : Edits) : List V → List V
  | [] => []
  | v :: vs => Edits.apply E v :: Edits.applyL E vs
/-- The same for the fields of a struct that are visited. -/
def Edits.applyF (E : Edits) : List Fld → List V → List V
  | f :: fs, v :: vs => (if f.visited then Edits.apply E v else v) :: Edits.applyF E fs vs
  | _, vs => vs
end

end Verif.Spec
