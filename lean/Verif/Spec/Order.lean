import Verif.Spec.Tree
/-!
# Source order
-/

namespace Verif.Spec
open Verif

/-- The values one level down: the elements of a list, the fields of a variant or a struct in the order in which they are declared. -/
def kids : V → List V
  | .list vs | .enm _ vs | .node _ _ _ vs => vs
  | .ext _ | .bool _ => []

/-- Every value, with all that is in it, ends before the next one begins. -/
def Sorted (vs : List V) : Prop := vs.Pairwise (fun a b => ∀ x ∈ extsL [a], ∀ y ∈ extsL [b], x.e ≤ y.s)

/-- The structs whose fields are declared in another order than they are written, or are not written separately: `async move { }`
(the body is declared before `is_move`), `struct S<T>(T) where T: U;` (the clauses are declared before the body, and the extent of
the body covers them), the field `x` of `S { x }` (the value does not start after the name, it is the same text), and prefix operators with
attributes (the operator is given the attributes into its extent: C42). -/
def unsorted : V → Bool
  | .node .AsyncBlock _ _ [_, .list (_ :: _)] => true
  | .node .Struct _ _ [_, _, _, .list (_ :: _), .enm .StructDefinitionBody_Tuple _] => true
  | .node .StructLiteralField _ _ [.node _ name _ _, .node _ value _ _] => value.s ≤ name.s
  | .node .AttributedExpression _ _ [.list (_ :: _), .enm t _] =>
    [Tag.Expression_Dereference, .Expression_Reference, .Expression_Box, .Expression_RangeInclusive, .Expression_Range,
      .Expression_Unary].contains t
  | _ => false

end Verif.Spec
