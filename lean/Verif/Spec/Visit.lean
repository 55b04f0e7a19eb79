import Verif.Visit
/-!
# What visiting a tree should do
-/

namespace Verif.Spec
open Verif

/-- A call of a method of a visitor. -/
inductive Ev
  | enter (c : Callee)
  | exit (c : Callee)

/-- The calls of `visit_…` methods, in order. -/
def enters (l : List Ev) : List Callee := l.filterMap fun | .enter c => some c | .exit _ => none

/-- The calls of `exit_…` methods, in order. -/
def exits (l : List Ev) : List Callee := l.filterMap fun | .exit c => some c | .enter _ => none

/-- Calls that are nested like parentheses: each `visit_x` has its `exit_x`, with the same node. -/
inductive Balanced : List Ev → Prop
  | nil : Balanced []
  | wrap (c : Callee) {l r : List Ev} : Balanced l → Balanced r → Balanced (.enter c :: l ++ .exit c :: r)

section
variable (d : Callee → Control)

/-- A piece of whitespace and, if it is a comment and `d` does not stop there, the comment. -/
def wsPre (w : Ws) : List Callee :=
  .whitespace w :: match d (.whitespace w), w with
    | .Continue, .commentLine _ => [.comment w]
    | .Continue, .commentBlock _ => [.comment w]
    | _, _ => []

mutual
/-- The structs and enums of a tree, parents before children, children in the order of the fields (not those marked
`#[visit(ignore)]`) and then the whitespace; the children of a node are left out if `d` says `Break`.
The whitespace of an `Attributed` does not count: visitors do not get to it (see `C43_false`). -/
def _root_.Verif.V.pre : V → List Callee
  | .ext _ => []
  | .bool _ => []
  | .list vs => preL vs
  | .enm t vs => .value (.enm t vs) :: match d (.value (.enm t vs)) with
    | .Break => []
    | .Continue => preL vs
  | .node k e ws vs => .value (.node k e ws vs) :: match d (.value (.node k e ws vs)) with
    | .Break => []
    | .Continue => preF k.fields vs ++ if k.isAttributed then [] else ws.flatMap (wsPre d)
/-- The same for a list. -/
def preL : List V → List Callee
  | [] => []
  | v :: vs => v.pre ++ preL vs
/-- The same for the fields of a struct. -/
def preF : List Fld → List V → List Callee
  | f :: fs, v :: vs => (if f.visited then v.pre else []) ++ preF fs vs
  | _, _ => []
end

/-- The same for a file. -/
def filePre (f : File) : List Callee :=
  .file f :: match d (.file f) with
    | .Break => []
    | .Continue => preL d f.items ++ f.whitespace.flatMap (wsPre d)

end

/-- The visitor that writes down the calls, and decides as `d`. -/
def recorder (d : Callee → Control) : Visitor (List Ev) where
  visit c l := (d c, l ++ [.enter c])
  exit c l := l ++ [.exit c]

/-- Making the calls of a list. -/
def replay {σ : Type} (vis : Visitor σ) : List Ev → σ → σ
  | [], s => s
  | .enter c :: l, s => replay vis l (vis.visit c s).2
  | .exit c :: l, s => replay vis l (vis.exit c s)

/-- What a visitor answers when the calls of a list are made. -/
def answers {σ : Type} (vis : Visitor σ) : List Ev → σ → List Control
  | [], _ => []
  | .enter c :: l, s => (vis.visit c s).1 :: answers vis l (vis.visit c s).2
  | .exit c :: l, s => answers vis l (vis.exit c s)

/-- A node is met; if the answer is `Continue` then also those of `body`.  The result are the nodes met and the answers left. -/
def meet (c : Callee) (body : List Control → List Callee × List Control) : List Control → List Callee × List Control
  | [] => ([], [])
  | .Break :: as => ([c], as)
  | .Continue :: as => (c :: (body as).1, (body as).2)

/-- One walk after the other. -/
def thenMeet (a b : List Control → List Callee × List Control) (as : List Control) : List Callee × List Control :=
  ((a as).1 ++ (b (a as).2).1, (b (a as).2).2)

/-- A piece of whitespace, and the comment in it. -/
def walkWs (w : Ws) : List Control → List Callee × List Control :=
  meet (.whitespace w) (match w with
    | .whitespace _ => fun as => ([], as)
    | .commentLine _ | .commentBlock _ => meet (.comment w) fun as => ([], as))

/-- Pieces of whitespace. -/
def walkWss : List Ws → List Control → List Callee × List Control
  | [] => fun as => ([], as)
  | w :: ws => thenMeet (walkWs w) (walkWss ws)

mutual
/-- Which nodes are met if the answers are given in advance: parents before children, children in the order of the fields and then the
whitespace, nothing below a node for which the answer is `Break`.  Attributed nodes are passed through in any case, without their
whitespace. -/
def _root_.Verif.V.walk : V → List Control → List Callee × List Control
  | .ext _ => fun as => ([], as)
  | .bool _ => fun as => ([], as)
  | .list vs => walkL vs
  | .enm t vs => meet (.value (.enm t vs)) (walkL vs)
  | .node k e ws vs =>
    if k.isAttributed then
      fun
      | [] => ([], [])
      | _ :: as => meet (.value (.node k e ws vs)) (walkF k.fields vs) (.Continue :: as)
    else meet (.value (.node k e ws vs)) (thenMeet (walkF k.fields vs) (walkWss ws))
/-- The same for a list. -/
def walkL : List V → List Control → List Callee × List Control
  | [] => fun as => ([], as)
  | v :: vs => thenMeet v.walk (walkL vs)
/-- The same for the fields of a struct that are visited. -/
def walkF : List Fld → List V → List Control → List Callee × List Control
  | f :: fs, v :: vs => thenMeet (if f.visited then v.walk else fun as => ([], as)) (walkF fs vs)
  | _, _ => fun as => ([], as)
end

/-- The same for a file. -/
def fileWalk (f : File) : List Control → List Callee × List Control :=
  meet (.file f) (thenMeet (walkL f.items) (walkWss f.whitespace))

/-- The structs and enums among the callees. -/
def values (l : List Callee) : List V := l.filterMap fun | .value v => some v | _ => none

/-- The pieces of whitespace among the callees. -/
def whites (l : List Callee) : List Ws := l.filterMap fun | .whitespace w => some w | _ => none

end Verif.Spec
