import Verif.Rules
/-!
# The parser

The parser functions, from the rules; the operator tables of the shunting yard.
-/

namespace Verif
open G

/-- `src/parser/expression.rs` 298-316, `operator_prefix`. -/
def prefixTable : (PrefixOp × G) × List (PrefixOp × G) :=
  ((.Box, d .Box),
   [(.RangeInclusive, r .range_inclusive_operator), (.RangeExclusive, d .DoublePeriod),
    (.Dereference, d .Asterisk), (.Not, d .Bang), (.Negate, d .Minus), (.Reference, r .operator_prefix_reference)])

/-- `src/parser/expression.rs` 327-364, `operator_infix`. -/
def infixTable : (InfixOp × G) × List (InfixOp × G) :=
  ((.binary .BinaryOp_ShiftLeftAssign, d .ShiftLeftEquals),
   [(.binary .BinaryOp_ShiftRightAssign, d .ShiftRightEquals),
    (.RangeInclusive, r .range_inclusive_operator),
    (.binary .BinaryOp_BitwiseAndAssign, d .AmpersandEquals),
    (.binary .BinaryOp_BitwiseXorAssign, d .CaretEquals),
    (.binary .BinaryOp_DivAssign, d .DivideEquals),
    (.binary .BinaryOp_BooleanAnd, d .DoubleAmpersand),
    (.binary .BinaryOp_Equal, d .DoubleEquals),
    (.binary .BinaryOp_ShiftLeft, d .DoubleLeftAngle),
    (.RangeExclusive, d .DoublePeriod),
    (.binary .BinaryOp_BooleanOr, d .DoublePipe),
    (.binary .BinaryOp_ShiftRight, d .DoubleRightAngle),
    (.binary .BinaryOp_GreaterThanOrEqual, d .GreaterThanOrEquals),
    (.binary .BinaryOp_LessThanOrEqual, d .LessThanOrEquals),
    (.binary .BinaryOp_SubAssign, d .MinusEquals),
    (.binary .BinaryOp_NotEqual, d .NotEqual),
    (.binary .BinaryOp_ModAssign, d .PercentEquals),
    (.binary .BinaryOp_BitwiseOrAssign, d .PipeEquals),
    (.binary .BinaryOp_AddAssign, d .PlusEquals),
    (.binary .BinaryOp_MulAssign, d .TimesEquals),
    (.binary .BinaryOp_BitwiseAnd, d .Ampersand),
    (.binary .BinaryOp_Mul, d .Asterisk),
    (.binary .BinaryOp_BitwiseXor, d .Caret),
    (.binary .BinaryOp_Assign, d .Equals),
    (.binary .BinaryOp_LessThan, d .LeftAngle),
    (.binary .BinaryOp_Sub, d .Minus),
    (.binary .BinaryOp_Mod, d .Percent),
    (.binary .BinaryOp_BitwiseOr, d .Pipe),
    (.binary .BinaryOp_Add, d .Plus),
    (.binary .BinaryOp_GreaterThan, d .RightAngle),
    (.binary .BinaryOp_Div, d .Slash)])

/-- `src/parser/expression.rs` 366-377, `operator_postfix`. -/
def postfixTable : (PostfixOp × G) × List (PostfixOp × G) :=
  ((.AsType, r .operator_postfix_as_type),
   [(.Ascription, r .operator_postfix_ascription), (.Call, r .operator_postfix_call),
    (.FieldAccess, r .operator_postfix_field_access), (.Slice, r .operator_postfix_slice), (.Try, d .QuestionMark)])

/-- `src/parser/expression.rs` 379-386, `operator_postfix_limited`. -/
def limitedTable : (PostfixOp × G) × List (PostfixOp × G) :=
  ((.FieldAccess, r .operator_postfix_field_access), [(.Try, d .QuestionMark)])

section
variable (toks : List Token) (rec : NT → P (List V))

/-- `alternate` of the parsers of a table, each labelled with its operator. -/
def tableP {α : Type} (t : (α × G) × List (α × G)) : P (α × List V) :=
  let one := fun (x : α × G) => (evalG toks rec x.2).map fun vs => (x.1, vs)
  t.2.foldl (fun p x => p.orElse (one x)) (one t.1)

/-- `src/parser/mod.rs` 2555-2572, `attributed`, for a value of any type: the extent, the attributes and the value. -/
def attributedP {α : Type} (p : P α) : P (Extent × List V × α) :=
  P.spanned toks <|
    (P.zeroOrMore (rec .attribute) (loopFuel toks)).bind fun attrs => p.map fun v => (attrs.flatten, v)

/-- The parsers of `src/parser/expression.rs` 274-281, 289-296 and 379-386. -/
def exprParsers : ExprParsers where
  prefixOrAtom :=
    ((attributedP toks rec (tableP toks rec prefixTable)).map fun (e, attrs, op, payload) =>
      PrefixOrAtom.prefix e attrs op payload).orElse
    ((attributedP toks rec (rec .expression_atom)).map fun (e, attrs, vs) =>
      PrefixOrAtom.atom (.node .AttributedExpression e [] (.list attrs :: vs)))
  infixOrPostfix :=
    ((tableP toks rec infixTable).map fun (op, payload) => InfixOrPostfix.infix op payload).orElse
    ((tableP toks rec postfixTable).map fun (op, payload) => InfixOrPostfix.postfix op payload)
  limitedPostfix := tableP toks rec limitedTable

/-- The parser of a rule. -/
def evalRule : Rule → P (List V)
  | .g g => evalG toks rec g
  | .expr stmt => (shuntingYard toks (exprParsers toks rec) stmt (loopFuel toks)).map fun v => [v]

end

/-- The parser functions, with fuel for the depth of the recursion. -/
def eval (toks : List Token) : Nat → NT → P (List V)
  | 0, _ => fun a _ => ⟨.hang, a, []⟩
  | n + 1, nt => evalRule toks (eval toks n) (rules nt)

end Verif
