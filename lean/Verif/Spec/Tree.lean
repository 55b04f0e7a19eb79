import Verif.Ast
/-!
# Parts of a tree
-/

namespace Verif

mutual
/-- A value and everything inside it, in the order of the fields. -/
def V.subs : V → List V
  | .ext e => [.ext e]
  | .bool b => [.bool b]
  | .list vs => .list vs :: subsL vs
  | .enm t vs => .enm t vs :: subsL vs
  | .node k e ws vs => .node k e ws vs :: subsL vs
/-- Everything inside the values of a list. -/
def subsL : List V → List V
  | [] => []
  | v :: vs => v.subs ++ subsL vs
end

/-- The extent a value carries itself: an `Extent` field, or the `extent` of a struct. -/
def V.own : V → Option Extent
  | .ext e => some e
  | .node _ e _ _ => some e
  | _ => none

/-- All extents in the values of a list. -/
def extsL (vs : List V) : List Extent := (subsL vs).filterMap V.own

/-- The whitespace a value holds itself. -/
def V.ws : V → List Ws
  | .node _ _ ws _ => ws
  | _ => []

/-- All whitespace in the values of a list. -/
def wsL (vs : List V) : List Ws := (subsL vs).flatMap V.ws

mutual
/-- The structs and enums of a value that a visitor gets to: not those in fields marked `#[visit(ignore)]`. -/
def V.reached : V → List V
  | .ext _ => []
  | .bool _ => []
  | .list vs => reachedL vs
  | .enm t vs => .enm t vs :: reachedL vs
  | .node k e ws vs => .node k e ws vs :: reachedF k.fields vs
/-- The same for the elements of a list. -/
def reachedL : List V → List V
  | [] => []
  | v :: vs => v.reached ++ reachedL vs
/-- The same for the fields of a struct. -/
def reachedF : List Fld → List V → List V
  | f :: fs, v :: vs => (if f.visited then v.reached else []) ++ reachedF fs vs
  | _, _ => []
end

mutual
/-- A tree without its whitespace. -/
def V.bare : V → V
  | .ext e => .ext e
  | .bool b => .bool b
  | .list vs => .list (bareL vs)
  | .enm t vs => .enm t (bareL vs)
  | .node k e _ vs => .node k e [] (bareL vs)
/-- The same for the values of a list. -/
def bareL : List V → List V
  | [] => []
  | v :: vs => v.bare :: bareL vs
end

mutual
/-- A tree without its extents and its whitespace: the kinds of structs, the variants of enums, and how they are nested. -/
def V.shape : V → V
  | .ext _ => .ext ⟨0, 0⟩
  | .bool b => .bool b
  | .list vs => .list (shapeL vs)
  | .enm t vs => .enm t (shapeL vs)
  | .node k _ _ vs => .node k ⟨0, 0⟩ [] (shapeL vs)
/-- The same for the values of a list. -/
def shapeL : List V → List V
  | [] => []
  | v :: vs => v.shape :: shapeL vs
end

/-- The token a piece of whitespace was made from. -/
def Ws.token : Ws → Token
  | .whitespace e => .plain .Whitespace e
  | .commentLine e => .plain .CommentLine e
  | .commentBlock e => .plain .CommentBlock e

/-- Does the extent contain the start of a piece of whitespace? -/
def Extent.holds (e : Extent) (w : Ws) : Prop := e.s ≤ w.extent.s ∧ w.extent.s < e.e

end Verif
