import Verif.Apportion
/-!
# Visitors that change the tree

`src/visit.rs` 535-941 (`VisitorMut`) and `visit_mut` in the code generated by `#[derive(Visit)]` (`fuzzy-pickles-derive/src/lib.rs` 49-133).
-/

namespace Verif

/-- The fields of a struct, as a `&mut` to it gives access to them: all but its type. -/
structure NodeM where
  extent : Extent
  whitespace : List Ws
  fields : List V

/-- A `Comment` (`src/ast.rs` 101-105). -/
structure CommentM where
  block : Bool
  extent : Extent

/-- The whitespace that holds a comment. -/
def CommentM.ws (c : CommentM) : Ws := if c.block then .commentBlock c.extent else .commentLine c.extent

/-- What a `visit_…` method with a `&mut T` does: it answers, and leaves something else behind; `none` is a panic. -/
abbrev EnterM (σ α : Type) := α → σ → Option (Control × α × σ)

/-- What an `exit_…` method does. -/
abbrev ExitM (σ α : Type) := α → σ → Option (α × σ)

/-- The default of all `visit_…` methods. -/
def EnterM.default {σ α : Type} : EnterM σ α := fun a s => some (.Continue, a, s)

/-- The default of all `exit_…` methods. -/
def ExitM.default {σ α : Type} : ExitM σ α := fun a s => some (a, s)

/-- `src/visit.rs` 535-941, `trait VisitorMut`, with state `σ`: the methods for structs as one function of the kind, those for enums (given
by variant and payload) as another one, and those for whitespace, comments and the file. -/
structure VisitorMut (σ : Type) where
  visitNode : K → EnterM σ NodeM := fun _ => .default
  exitNode : K → ExitM σ NodeM := fun _ => .default
  visitEnum : EnterM σ (Tag × List V) := .default
  exitEnum : ExitM σ (Tag × List V) := .default
  visitWhitespace : EnterM σ Ws := .default
  exitWhitespace : ExitM σ Ws := .default
  visitComment : EnterM σ CommentM := .default
  exitComment : ExitM σ CommentM := .default
  visitFile : EnterM σ File := .default
  exitFile : ExitM σ File := .default

/-- `fuzzy-pickles-derive/src/lib.rs` 73-81, the derived `visit_mut`: `body` visits the fields, as the first method has left them. -/
def aroundMut {σ α : Type} (enter : EnterM σ α) (body exit : ExitM σ α) : ExitM σ α := fun a s =>
  match enter a s with
  | none => none
  | some (.Break, a, s) => exit a s
  | some (.Continue, a, s) => match body a s with | none => none | some (a, s) => exit a s

/-- `Visit for Vec<T>` and `Visit for Option<T>` (`src/visit.rs` 36-69). -/
def visitMutAll {σ α : Type} (go : ExitM σ α) : ExitM σ (List α)
  | [], s => some ([], s)
  | v :: vs, s =>
    match go v s with
    | none => none
    | some (v, s) => match visitMutAll go vs s with | none => none | some (vs, s) => some (v :: vs, s)

/-- The fields without `#[visit(ignore)]`, in order (`fuzzy-pickles-derive/src/lib.rs` 88-133). -/
def visitMutFields {σ : Type} (go : ExitM σ V) : List Fld → ExitM σ (List V)
  | f :: fs, v :: vs, s =>
    match (if f.visited then go v s else some (v, s)) with
    | none => none
    | some (v, s) => match visitMutFields go fs vs s with | none => none | some (vs, s) => some (v :: vs, s)
  | _, vs, s => some (vs, s)

section
variable {σ : Type} (vis : VisitorMut σ)

/-- `visit_mut` of `Comment` and `Whitespace` (derived, `src/ast.rs` 95-105). -/
def VisitorMut.visitWs : ExitM σ Ws :=
  aroundMut vis.visitWhitespace
    (fun w s =>
      match w with
      | .whitespace e => some (.whitespace e, s)
      | .commentLine e => (aroundMut vis.visitComment .default vis.exitComment ⟨false, e⟩ s).map fun (c, s) => (c.ws, s)
      | .commentBlock e => (aroundMut vis.visitComment .default vis.exitComment ⟨true, e⟩ s).map fun (c, s) => (c.ws, s))
    vis.exitWhitespace

/-- `Visit::visit_mut` (see `Visitor.visitV` for the lines).  A method may make the tree deeper, so there is a bound on the depth of the
recursion; `none` is a panic, or that the bound was not enough. -/
def VisitorMut.visitV : Nat → ExitM σ V
  | 0, _, _ => none
  | _ + 1, .ext e, s => some (.ext e, s)
  | _ + 1, .bool b, s => some (.bool b, s)
  | n + 1, .list vs, s => (visitMutAll (VisitorMut.visitV n) vs s).map fun (vs, s) => (.list vs, s)
  | n + 1, .enm t vs, s =>
    (aroundMut vis.visitEnum
      (fun (t, vs) s => (visitMutAll (VisitorMut.visitV n) vs s).map fun (vs, s) => ((t, vs), s))
      vis.exitEnum (t, vs) s).map fun ((t, vs), s) => (.enm t vs, s)
  | n + 1, .node k e ws vs, s =>
    let fields : ExitM σ NodeM := fun d s =>
      (visitMutFields (VisitorMut.visitV n) k.fields d.fields s).map fun (vs, s) => ({ d with fields := vs }, s)
    let whitespace : ExitM σ NodeM := fun d s =>
      (visitMutAll vis.visitWs d.whitespace s).map fun (ws, s) => ({ d with whitespace := ws }, s)
    let both : ExitM σ NodeM := fun d s => (fields d s).bind fun (d, s) => whitespace d s
    let enter : EnterM σ NodeM := fun d s =>
      if k.isAttributed then (vis.visitNode k d s).map fun (_, d, s) => (.Continue, d, s) else vis.visitNode k d s
    (aroundMut enter (if k.isAttributed then fields else both) (vis.exitNode k) ⟨e, ws, vs⟩ s).map fun (d, s) =>
      (.node k d.extent d.whitespace d.fields, s)

/-- `File::visit_mut` (derived). -/
def VisitorMut.visitF (n : Nat) : ExitM σ File :=
  aroundMut vis.visitFile
    (fun f s => (visitMutAll (vis.visitV n) f.items s).bind fun (items, s) =>
      (visitMutAll vis.visitWs f.whitespace s).map fun (ws, s) => (⟨items, ws⟩, s))
    vis.exitFile

end

/-- `src/whitespace_apportioner.rs` 65-215, `impl VisitorMut for WhitespaceApportioner`. -/
def apportionerVisitor : VisitorMut Apportioner where
  exitNode k d m :=
    if k.handled then (m.divvyUp d.extent).map fun (taken, m) => ({ d with whitespace := d.whitespace ++ taken }, m)
    else some (d, m)
  exitFile f m := some ({ f with whitespace := f.whitespace ++ m }, [])

end Verif
