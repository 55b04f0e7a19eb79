import Verif.Ast
/-!
# The declared types of trees

When a value is of a type of `src/ast.rs`: a struct has the declared fields, an enum variant its declared payload.
-/

namespace Verif

mutual
/-- A value is of a type. -/
def V.hasTy : V → Ty → Bool
  | .ext _, .ext => true
  | .bool _, .bool => true
  | .list vs, .vec t => allTy vs t
  | .list vs, .opt t => decide (vs.length ≤ 1) && allTy vs t
  | .enm g vs, .enm n => g.en == n && hasTys vs g.payload
  | .node k _ _ vs, .node k' => k == k' && hasTys vs (k.fields.map (·.ty))
  | _, _ => false
/-- All values are of the same type. -/
def allTy : List V → Ty → Bool
  | [], _ => true
  | v :: vs, t => v.hasTy t && allTy vs t
/-- The values are of the given types, one each. -/
def hasTys : List V → List Ty → Bool
  | [], [] => true
  | v :: vs, t :: ts => v.hasTy t && hasTys vs ts
  | _, _ => false
end

end Verif
