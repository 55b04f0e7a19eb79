import Verif.Handled
import Verif.Visit
/-!
# Attaching whitespace to nodes

`src/whitespace_apportioner.rs`.
-/

namespace Verif

/-- `src/whitespace_apportioner.rs` 27-28, `WhitespaceApportioner(BTreeMap<usize, Whitespace>)`: the values of the map in
the order of their keys; the key of a piece of whitespace is the start of its extent. -/
abbrev Apportioner := List Ws

/-- `src/whitespace_apportioner.rs` 31-33, `push`: `BTreeMap::insert` replaces what is there. -/
def Apportioner.push : Apportioner → Ws → Apportioner
  | [], w => [w]
  | x :: xs, w =>
    if w.extent.s < x.extent.s then w :: x :: xs
    else if w.extent.s = x.extent.s then w :: xs
    else x :: Apportioner.push xs w

/-- Is the key in `start..end`? -/
def Ws.keyIn (e : Extent) (w : Ws) : Bool := decide (e.s ≤ w.extent.s) && decide (w.extent.s < e.e)

/-- `src/whitespace_apportioner.rs` 39-51, `divvy_up`: what is taken and what stays; `none` is the panic of
`BTreeMap::range` ("range start is greater than range end"). -/
def Apportioner.divvyUp (m : Apportioner) (e : Extent) : Option (List Ws × Apportioner) :=
  if e.e < e.s then none
  else some (m.filter (Ws.keyIn e), m.filter (fun w => !Ws.keyIn e w))

mutual
/-- `Visit::visit_mut` with the `WhitespaceApportioner`: it has only `exit_…` methods for the kinds in `K.handled`, and
these change nothing but the `whitespace` of the node (`src/whitespace_apportioner.rs` 54-62).
Here `visit_mut` is written for this visitor, as a function from trees to trees; `C53_apportioner` shows that the general `visit_mut`
(`VisitMut.lean`) with the `exit_` methods of the apportioner is the same. -/
def apportion : V → Apportioner → Option (V × Apportioner)
  | .ext e, m => some (.ext e, m)
  | .bool b, m => some (.bool b, m)
  | .list vs, m => match apportionL vs m with | none => none | some (vs, m) => some (.list vs, m)
  | .enm t vs, m => match apportionL vs m with | none => none | some (vs, m) => some (.enm t vs, m)
  | .node k e ws vs, m =>
    match apportionF k.fields vs m with
    | none => none
    | some (vs, m) =>
      if k.handled then
        match m.divvyUp e with
        | none => none
        | some (taken, m) => some (.node k e (ws ++ taken) vs, m)
      else some (.node k e ws vs, m)
/-- `Visit for Vec<T>` -/
def apportionL : List V → Apportioner → Option (List V × Apportioner)
  | [], m => some ([], m)
  | v :: vs, m =>
    match apportion v m with
    | none => none
    | some (v, m) => match apportionL vs m with | none => none | some (vs, m) => some (v :: vs, m)
/-- The fields without `#[visit(ignore)]`, in order. -/
def apportionF : List Fld → List V → Apportioner → Option (List V × Apportioner)
  | f :: fs, v :: vs, m =>
    match (if f.visited then apportion v m else some (v, m)) with
    | none => none
    | some (v, m) => match apportionF fs vs m with | none => none | some (vs, m) => some (v :: vs, m)
  | _, vs, m => some (vs, m)
end

/-- `file.visit_mut(&mut ws)` with `exit_file` (`src/whitespace_apportioner.rs` 208-214): all that is left goes to the file. -/
def apportionFile (f : File) (m : Apportioner) : Option (File × Apportioner) :=
  match apportionL f.items m with
  | none => none
  | some (items, m) => some (⟨items, f.whitespace ++ m⟩, [])

end Verif
