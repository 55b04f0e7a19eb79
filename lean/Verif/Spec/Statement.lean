import Verif.Ast
/-!
# Where statements end

`if a {} - b` at the start of a statement is two expressions, not a subtraction.
-/

namespace Verif.Spec
open Verif

/-- The value of an `Attributed<Expression>`. -/
def expressionOf : V → Option V
  | .node .AttributedExpression _ _ [_, v] => some v
  | _ => none

/-- The expressions that end with a closing brace and need no semicolon after them: blocks, loops, conditionals, and macros called
with curly braces. -/
def endsInBrace (v : V) : Bool :=
  match expressionOf v with
  | some (.enm t vs) =>
    [.Expression_Block, .Expression_UnsafeBlock, .Expression_If, .Expression_IfLet, .Expression_Match, .Expression_Loop,
      .Expression_While, .Expression_WhileLet, .Expression_ForLoop].contains t ||
    (match t, vs with
     | .Expression_MacroCall, [.node .MacroCall _ _ [_, _, .enm .MacroCallArgs_Curly _]] => true
     | _, _ => false)
  | _ => false

/-- What an infix or postfix operator is applied to, on its left. -/
def leftOperand (v : V) : Option V :=
  match expressionOf v with
  | some (.enm t [.node _ _ _ fields]) =>
    match t, fields with
    | .Expression_Binary, [_, l, _] => some l
    | .Expression_Range, .list [l] :: _ => some l
    | .Expression_RangeInclusive, .list [l] :: _ => some l
    | .Expression_AsType, l :: _ => some l
    | .Expression_Ascription, l :: _ => some l
    | .Expression_Call, l :: _ => some l
    | .Expression_Slice, l :: _ => some l
    | .Expression_FieldAccess, l :: _ => some l
    | .Expression_TryOperator, l :: _ => some l
    | _, _ => none
  | _ => none

/-- A field access or `?`. -/
def isDotOrTry (v : V) : Bool :=
  match expressionOf v with
  | some (.enm .Expression_FieldAccess _) => true
  | some (.enm .Expression_TryOperator _) => true
  | _ => false

/-- An expression, what is on its left, what is on the left of that, and so on. -/
inductive OnLeft : V → V → Prop
  | refl {v} : OnLeft v v
  | step {x l v} : leftOperand x = some l → OnLeft l v → OnLeft x v

/-- An expression that stands where a statement may: nothing on its left edge that ends in a brace is continued by an operator, except
by `.` or `?`. -/
def Unextended (x : V) : Prop :=
  ∀ v l, OnLeft x v → leftOperand v = some l → endsInBrace l = true → isDotOrTry v = true

end Verif.Spec
