import Verif.Comb
/-!
# The shunting yard

`src/parser/expression.rs` 14-864: the loop of `expression` and the operator stack.  The parsers of operators and atoms are
parameters here; `Verif.Rules` supplies them.
-/

namespace Verif

/-- `src/parser/expression.rs` 152-161, `OperatorPrefix`, without the payload. -/
inductive PrefixOp | Box | Dereference | Negate | Not | RangeExclusive | RangeInclusive | Reference
deriving DecidableEq, Repr, Inhabited

/-- `src/parser/expression.rs` 163-196, `OperatorInfix`, without the payload: the binary operators are named by the `BinaryOp`
they become (`BinaryOp_…` of `Tag`). -/
inductive InfixOp | binary (op : Tag) | RangeExclusive | RangeInclusive
deriving DecidableEq, Repr, Inhabited

/-- `src/parser/expression.rs` 208-216, `OperatorPostfix`, without the payload. -/
inductive PostfixOp | Ascription | AsType | Call | FieldAccess | Slice | Try
deriving DecidableEq, Repr, Inhabited

/-- `src/parser/expression.rs` 198-206, `OperatorInfix::is_range`. -/
def InfixOp.isRange : InfixOp → Bool
  | .RangeExclusive | .RangeInclusive => true
  | .binary _ => false

/-- `src/parser/expression.rs` 218-223, `OperatorKind`.  A prefix operator is `Attributed`: it has an extent and
attributes.  `payload` are the fields of the operator that end up in the tree. -/
inductive OpKind
  | pre (extent : Extent) (attributes : List V) (op : PrefixOp) (payload : List V)
  | inf (op : InfixOp) (payload : List V)
  | post (op : PostfixOp) (payload : List V)
deriving Repr

/-- `src/parser/expression.rs` 225-229, `Associativity`. -/
inductive Assoc | Left | Right
deriving DecidableEq, Repr

/-- `src/parser/expression.rs` 246-255, `associativity`. -/
def OpKind.assoc : OpKind → Assoc
  | .pre .. => .Right
  | .inf .. => .Left
  | .post .. => .Left

/-- `src/parser/expression.rs` 257-265, `precedence`. -/
def OpKind.prec : OpKind → Nat
  | .pre .. => 10
  | .inf .. => 10
  | .post .. => 10

/-- `src/parser/expression.rs` 238-244, `should_pop`. -/
def OpKind.shouldPop (op top : OpKind) : Bool :=
  if op.assoc = .Left then decide (top.prec ≥ op.prec) else decide (top.prec > op.prec)

/-- `src/parser/expression.rs` 479-484, `ShuntCar`. -/
structure Car (α : Type) where
  value : α
  spt : Pt
  ept : Pt
deriving Repr

/-- `src/parser/expression.rs` 486-490, `ShuntingYard`.  The head of each list is the top (last element) of the `Vec`. -/
structure Yard where
  operators : List (Car OpKind) := []
  result : List (Car V) := []
deriving Repr

/-- `src/parser/expression.rs` 493, `ExprResult`, with panics. -/
inductive SRes (α : Type)
  | ok (v : α)
  | err (pt : Pt) (e : PErr)
  | panic
deriving Repr

/-- `SRes` sequencing, the `?` operator. -/
def SRes.bind {α β : Type} (x : SRes α) (f : α → SRes β) : SRes β :=
  match x with
  | .ok v => f v
  | .err pt e => .err pt e
  | .panic => .panic

/-- `Attributed { extent, attributes, value, whitespace: Vec::new() }` for expressions. -/
def mkAttributed (e : Extent) (attributes : List V) (value : V) : V :=
  .node .AttributedExpression e [] [.list attributes, value]

/-- `src/ast.rs` 1355-1364, `Attributed::from(Expression)` for the variant `t` holding a struct `k`. -/
def intoAttributed (t : Tag) (k : K) (e : Extent) (fields : List V) : V :=
  mkAttributed e [] (.enm t [.node k e [] fields])

/-- The expression a prefix operator makes (`src/parser/expression.rs` 573-628 and 794-805): from its payload and its
operand.  `none` is for an operand left out (ranges only; the other operators are never applied without one). -/
def PrefixOp.mk (op : PrefixOp) (payload : List V) (e : Extent) (operand : Option V) : V :=
  match op with
  | .Dereference => .enm .Expression_Dereference [.node .Dereference e [] operand.toList]
  | .Reference => .enm .Expression_Reference [.node .Reference e [] (payload ++ operand.toList)]
  | .Box => .enm .Expression_Box [.node .ExpressionBox e [] operand.toList]
  | .RangeInclusive =>
    .enm .Expression_RangeInclusive [.node .RangeInclusive e [] (.list [] :: payload ++ [.list operand.toList])]
  | .RangeExclusive => .enm .Expression_Range [.node .Range e [] [.list [], .list operand.toList]]
  | .Negate => .enm .Expression_Unary [.node .Unary e [] (.enm .UnaryOp_Negate [] :: operand.toList)]
  | .Not => .enm .Expression_Unary [.node .Unary e [] (.enm .UnaryOp_Not [] :: operand.toList)]

/-- Which prefix operators use `apply_maybe_prefix` (the operand may be left out). -/
def PrefixOp.isRange : PrefixOp → Bool
  | .RangeInclusive | .RangeExclusive => true
  | _ => false

/-- The expression an infix operator makes (`src/parser/expression.rs` 630-680), already `Attributed`. -/
def InfixOp.mk (op : InfixOp) (payload : List V) (e : Extent) (lhs : V) (rhs : Option V) : V :=
  match op with
  | .binary b => intoAttributed .Expression_Binary .Binary e (.enm b [] :: lhs :: rhs.toList)
  | .RangeInclusive =>
    intoAttributed .Expression_RangeInclusive .RangeInclusive e (.list [lhs] :: payload ++ [.list rhs.toList])
  | .RangeExclusive => intoAttributed .Expression_Range .Range e [.list [lhs], .list rhs.toList]

/-- The expression a postfix operator makes (`src/parser/expression.rs` 682-740), already `Attributed`. -/
def PostfixOp.mk (op : PostfixOp) (payload : List V) (e : Extent) (target : V) : V :=
  match op with
  | .FieldAccess => intoAttributed .Expression_FieldAccess .FieldAccess e (target :: payload)
  | .Call => intoAttributed .Expression_Call .Call e (target :: payload)
  | .Slice => intoAttributed .Expression_Slice .Slice e (target :: payload)
  | .AsType => intoAttributed .Expression_AsType .AsType e (target :: payload)
  | .Ascription => intoAttributed .Expression_Ascription .Ascription e (target :: payload)
  | .Try => intoAttributed .Expression_TryOperator .TryOperator e (target :: payload)

section
variable (toks : List Token)

/-- `src/parser/expression.rs` 859-863, `pop_expression`. -/
def popExpression (rs : List (Car V)) (location : Pt) : SRes (Car V × List (Car V)) :=
  match rs with
  | c :: cs => .ok (c, cs)
  | [] => .err location .ExpectedExpression

/-- `pm.state.ex(a, b)` with its panic. -/
def exS (a b : Pt) : SRes Extent :=
  match ex toks a b with
  | some e => .ok e
  | none => .panic

/-- `src/parser/expression.rs` 767-792, `apply_prefix`. -/
def applyPrefix (spt : Pt) (extentOfPrefix : Extent) (attributes : List V) (op : PrefixOp) (payload : List V)
    (rs : List (Car V)) : SRes (List (Car V)) :=
  (popExpression rs spt).bind fun (c, rs) =>
    if c.ept.lt spt then .err spt .ExpectedExpression
    else (exS toks spt c.ept).bind fun inner =>
      let value := op.mk payload inner (some c.value)
      .ok (⟨mkAttributed ⟨extentOfPrefix.s, inner.e⟩ attributes value, spt, c.ept⟩ :: rs)

/-- `src/parser/expression.rs` 744-765, `apply_maybe_prefix`. -/
def applyMaybePrefix (spt ept : Pt) (extentOfPrefix : Extent) (attributes : List V) (op : PrefixOp)
    (payload : List V) (rs : List (Car V)) : SRes (List (Car V)) :=
  match rs with
  | [] =>
    (exS toks spt ept).bind fun inner =>
      let value := op.mk payload inner none
      .ok [⟨mkAttributed ⟨extentOfPrefix.s, inner.e⟩ attributes value, spt, ept⟩]
  | _ => applyPrefix toks spt extentOfPrefix attributes op payload rs

/-- `src/parser/expression.rs` 822-832, `apply_infix` (and 834-846, `apply_binary`). -/
def applyInfix (spt ept : Pt) (op : InfixOp) (payload : List V) (rs : List (Car V)) : SRes (List (Car V)) :=
  (popExpression rs ept).bind fun (r, rs) =>
    (popExpression rs spt).bind fun (l, rs) =>
      (exS toks l.spt r.ept).bind fun e =>
        .ok (⟨op.mk payload e l.value (some r.value), l.spt, r.ept⟩ :: rs)

/-- `src/parser/expression.rs` 807-820, `apply_maybe_infix`. -/
def applyMaybeInfix (spt ept : Pt) (op : InfixOp) (payload : List V) (rs : List (Car V)) :
    SRes (List (Car V)) :=
  if rs.length ≤ 1 then
    (popExpression rs ept).bind fun (l, rs) =>
      (exS toks l.spt ept).bind fun e =>
        .ok (⟨op.mk payload e l.value none, l.spt, ept⟩ :: rs)
  else applyInfix toks spt ept op payload rs

/-- `src/parser/expression.rs` 848-857, `apply_postfix`. -/
def applyPostfix (spt ept : Pt) (op : PostfixOp) (payload : List V) (rs : List (Car V)) : SRes (List (Car V)) :=
  (popExpression rs spt).bind fun (c, rs) =>
    (exS toks c.spt ept).bind fun e =>
      .ok (⟨op.mk payload e c.value, c.spt, ept⟩ :: rs)

/-- `src/parser/expression.rs` 564-742, `apply_one`. -/
def applyOne (c : Car OpKind) (rs : List (Car V)) : SRes (List (Car V)) :=
  match c.value with
  | .pre e attrs op payload =>
    if op.isRange then applyMaybePrefix toks c.spt c.ept e attrs op payload rs
    else applyPrefix toks c.spt e attrs op payload rs
  | .inf op payload =>
    if op.isRange then applyMaybeInfix toks c.spt c.ept op payload rs
    else applyInfix toks c.spt c.ept op payload rs
  | .post op payload => applyPostfix toks c.spt c.ept op payload rs

/-- The loops of `apply_precedence` (`src/parser/expression.rs` 547-555) and `apply_all` (557-562): pop and apply the operators
on top of the stack as long as `cond` holds of them. -/
def applyWhile (cond : OpKind → Bool) : List (Car OpKind) → List (Car V) → SRes Yard
  | [], rs => .ok ⟨[], rs⟩
  | c :: cs, rs =>
    if cond c.value then (applyOne toks c rs).bind (applyWhile cond cs)
    else .ok ⟨c :: cs, rs⟩

/-- `src/parser/expression.rs` 508-533, `add_prefix`, `add_infix`, `add_postfix`. -/
def Yard.addOperator (y : Yard) (op : OpKind) (spt ept : Pt) : SRes Yard :=
  (applyWhile toks op.shouldPop y.operators y.result).bind fun y =>
    .ok { y with operators := ⟨op, spt, ept⟩ :: y.operators }

/-- `src/parser/expression.rs` 503-506, `add_expression`. -/
def Yard.addExpression (y : Yard) (e : V) (spt ept : Pt) : Yard :=
  { y with result := ⟨e, spt, ept⟩ :: y.result }

/-- `src/parser/expression.rs` 535-545, `finish`: the failed assertion is the panic. -/
def Yard.finish (y : Yard) (failurePoint : Pt) : SRes (Car V) :=
  (applyWhile toks (fun _ => true) y.operators y.result).bind fun y =>
    match popExpression y.result failurePoint with
    | .ok (c, rest) => if rest.isEmpty then .ok c else .panic
    | .err pt e => .err pt e
    | .panic => .panic

end

/-- `src/parser/expression.rs` 58-65, `ExpressionState`. -/
inductive EState
  | Prefix
  | Infix (wasRange : Bool)
  | Postfix
  | Atom
  | AtomLimitedPostfix
deriving DecidableEq, Repr

/-- `src/ast.rs` 1408-1424, `may_terminate_statement`, on an `Expression`. -/
def mayTerminate : V → Bool
  | .enm t vs =>
    match t with
    | .Expression_Block | .Expression_ForLoop | .Expression_If | .Expression_IfLet | .Expression_Loop
    | .Expression_Match | .Expression_UnsafeBlock | .Expression_While | .Expression_WhileLet => true
    | .Expression_MacroCall =>
      match vs with
      | [.node .MacroCall _ _ [_, _, .enm .MacroCallArgs_Curly _]] => true
      | _ => false
    | _ => false
  | _ => false

/-- The `value` of an `Attributed<Expression>` is one that may end a statement. -/
def mayTerminateAttributed : V → Bool
  | .node .AttributedExpression _ _ [_, v] => mayTerminate v
  | _ => false

/-- `src/parser/expression.rs` 28-49, the `adapt_state` closure of `statement_expression`; `result.first()` is the bottom of
the stack. -/
def adaptStatement (y : Yard) : EState → EState
  | .Atom =>
    let hasNoPrefix := y.operators.isEmpty
    let mayTerm := match y.result.getLast? with | some c => mayTerminateAttributed c.value | none => false
    if hasNoPrefix && mayTerm then .AtomLimitedPostfix else .Atom
  | s => s

/-- `src/parser/expression.rs` 268-272, `PrefixOrAtom`. -/
inductive PrefixOrAtom
  | prefix (extent : Extent) (attributes : List V) (op : PrefixOp) (payload : List V)
  | atom (e : V)

/-- `src/parser/expression.rs` 283-287, `InfixOrPostfix`. -/
inductive InfixOrPostfix
  | infix (op : InfixOp) (payload : List V)
  | postfix (op : PostfixOp) (payload : List V)

/-- The parsers the loop uses: `expression_prefix_or_atom` (274-281), `expression_infix_or_postfix` (289-296) and
`operator_postfix_limited` (379-386). -/
structure ExprParsers where
  prefixOrAtom : P PrefixOrAtom
  infixOrPostfix : P InfixOrPostfix
  limitedPostfix : P (PostfixOp × List V)

/-- How the loop ends: `match r { Ok(ShuntCar { value, ept, .. }) => success(ept, value), Err((pt, e)) => failure(pt, e) }`
(`src/parser/expression.rs` 17-20 and 52-55). -/
def SRes.toOut : SRes (Car V) → Out V
  | .ok c => .ok c.ept c.value
  | .err pt e => .fail pt e
  | .panic => .panic

/-- What one turn of the loop of `expression_shunting_yard` leads to: another turn, or the return value. -/
inductive Step
  | continue (y : Yard) (st : EState)
  | stop (r : SRes (Car V))

/-- `shunting_yard.add_…(…)?; state = …`. -/
def Step.ofYard (st : EState) : SRes Yard → Step
  | .ok y => .continue y st
  | .err q e => .stop (.err q e)
  | .panic => .stop .panic

/-- `src/parser/expression.rs` 76-147, the body of the loop of `expression_shunting_yard` up to `adapt_state`.  The point of
the result is where the loop goes on, or the point of the failure that ended it. -/
def shuntStep (toks : List Token) (ps : ExprParsers) (y : Yard) (st : EState) : P Step := fun a pt =>
  match st with
  | .Prefix | .Infix _ =>
    let upgrade := match st with | .Infix wasRange => a.isAmbiguous && wasRange | _ => false
    let next := if upgrade then P.maximallyAmbiguous ps.prefixOrAtom a pt else ps.prefixOrAtom a pt
    match next with
    | ⟨.ok pt' (.prefix e attrs op payload), a', l⟩ =>
      ⟨.ok pt' (.ofYard .Prefix (y.addOperator toks (.pre e attrs op payload) pt pt')), a', l⟩
    | ⟨.ok pt' (.atom e), a', l⟩ => ⟨.ok pt' (.continue (y.addExpression e pt pt') .Atom), a', l⟩
    | ⟨.fail q _, a', l⟩ => ⟨.ok q (.stop (y.finish toks q)), a', l⟩
    | ⟨.panic, a', l⟩ => ⟨.panic, a', l⟩
    | ⟨.hang, a', l⟩ => ⟨.hang, a', l⟩
  | .Postfix | .Atom =>
    match ps.infixOrPostfix a pt with
    | ⟨.ok pt' (.infix op payload), a', l⟩ =>
      ⟨.ok pt' (.ofYard (.Infix op.isRange) (y.addOperator toks (.inf op payload) pt pt')), a', l⟩
    | ⟨.ok pt' (.postfix op payload), a', l⟩ =>
      ⟨.ok pt' (.ofYard .Postfix (y.addOperator toks (.post op payload) pt pt')), a', l⟩
    | ⟨.fail q _, a', l⟩ => ⟨.ok q (.stop (y.finish toks q)), a', l⟩
    | ⟨.panic, a', l⟩ => ⟨.panic, a', l⟩
    | ⟨.hang, a', l⟩ => ⟨.hang, a', l⟩
  | .AtomLimitedPostfix =>
    match ps.limitedPostfix a pt with
    | ⟨.ok pt' (op, payload), a', l⟩ =>
      ⟨.ok pt' (.ofYard .Postfix (y.addOperator toks (.post op payload) pt pt')), a', l⟩
    | ⟨.fail q _, a', l⟩ => ⟨.ok q (.stop (y.finish toks q)), a', l⟩
    | ⟨.panic, a', l⟩ => ⟨.panic, a', l⟩
    | ⟨.hang, a', l⟩ => ⟨.hang, a', l⟩

/-- `src/parser/expression.rs` 67-150, `expression_shunting_yard`, with fuel for the loop. -/
def shuntLoop (toks : List Token) (ps : ExprParsers) (adapt : Yard → EState → EState) :
    Nat → Yard → EState → P V
  | 0, _, _ => fun a _ => ⟨.hang, a, []⟩
  | n + 1, y, st =>
    (shuntStep toks ps y st).bind fun
      | .continue y' st' => shuntLoop toks ps adapt n y' (adapt y' st')
      | .stop r => fun a _ => ⟨r.toOut, a, []⟩

/-- `src/parser/expression.rs` 14-21 (`expression`) and 25-56 (`statement_expression`). -/
def shuntingYard (toks : List Token) (ps : ExprParsers) (stmt : Bool) (fuel : Nat) : P V :=
  shuntLoop toks ps (if stmt then adaptStatement else fun _ s => s) fuel {} .Prefix

end Verif
