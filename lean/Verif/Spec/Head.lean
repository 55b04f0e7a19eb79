import Verif.Ast
/-!
# Struct literals in the heads of control flow
-/

namespace Verif.Spec
open Verif

/-- Inside these fields, between brackets or in a match arm, a struct literal cannot be mistaken for the start of a body. -/
def shelters : K → String → Bool
  | .Call, f => f = "args"
  | .Slice, f => f = "index"
  | .Parenthetical, f => f = "expression"
  | .Tuple, f => f = "members"
  | .ArrayExplicit, f => f = "values"
  | .ArrayRepeated, f => f = "value"
  | .MatchArm, f => f = "guard" || f = "hand"
  | _, _ => false

mutual
/-- There is a struct literal in the tree that no field shelters. -/
def exposes : V → Bool
  | .ext _ => false
  | .bool _ => false
  | .list vs => exposesAny vs
  | .enm _ vs => exposesAny vs
  | .node k _ _ vs => k = .StructLiteral || exposesField (k.fields.map fun f => shelters k f.name) vs
def exposesAny : List V → Bool
  | [] => false
  | v :: vs => exposes v || exposesAny vs
/-- The same for the fields of a struct, of which some are sheltered. -/
def exposesField : List Bool → List V → Bool
  | sheltered :: ss, v :: vs => (!sheltered && exposes v) || exposesField ss vs
  | [], v :: vs => exposes v || exposesField [] vs
  | _, [] => false
end

/-- The field that is followed by a body in braces. -/
def headField : K → Option String
  | .If => some "condition"
  | .IfLet | .While | .WhileLet => some "value"
  | .ForLoop => some "iter"
  | .Match => some "head"
  | _ => none

/-- The value of a field. -/
def fieldOf (k : K) (vs : List V) (name : String) : Option V :=
  ((k.fields.map (·.name)).zip vs).lookup name

end Verif.Spec
