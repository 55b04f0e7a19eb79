import Verif.Ast
/-!
# Trees without places, and tokens without places
-/

namespace Verif.Spec
open Verif

mutual
/-- A tree without its extents and whitespace: what kinds of structs and enums there are, and how they are put together. -/
def shape : V → V
  | .ext _ => .ext ⟨0, 0⟩
  | .bool b => .bool b
  | .list vs => .list (shapes vs)
  | .enm t vs => .enm t (shapes vs)
  | .node k _ _ vs => .node k ⟨0, 0⟩ [] (shapes vs)
def shapes : List V → List V
  | [] => []
  | v :: vs => shape v :: shapes vs
end

/-- Tokens of the same kind.  Numbers have the same base and the same parts, and both have or do not have underscores. -/
def SameKind : Token → Token → Prop
  | .plain k _, .plain k' _ => k = k'
  | .number n, .number m => n.base = m.base ∧ n.fractional.isSome = m.fractional.isSome ∧
      n.exponent.isSome = m.exponent.isSome ∧ n.type_suffix.isSome = m.type_suffix.isSome ∧
      (n.underscores = 0 ↔ m.underscores = 0)
  | _, _ => False

/-- As many tokens, of the same kinds, in the same order. -/
inductive SameKinds : List Token → List Token → Prop
  | nil : SameKinds [] []
  | cons {t t' ts ts'} : SameKind t t' → SameKinds ts ts' → SameKinds (t :: ts) (t' :: ts')

end Verif.Spec
