import Verif.NT
/-!
# Grammar expressions and their meaning

The parser functions are given as data (`G`) so that statements about all of them can be proved by induction.  A grammar
expression produces a list of values: the values bound by the `sequence!` that end up in the tree, in order.
-/

namespace Verif

/-- Closures that rearrange what was parsed.  On values of another shape than expected (which do not occur, as the rules
are well typed) they do nothing. -/
inductive Fn
  /-- an enum constructor -/
  | wrap (t : Tag)
  /-- `|(b, w)| (Variant(b), w)` of `struct_defn_body` (`src/parser/mod.rs` 1424-1432); here the pair is `[w, b]` -/
  | wrapSecond (t : Tag)
  /-- `.unwrap_or_else(Vec::new)` -/
  | flat
  /-- `Some` -/
  | some
  /-- `|_| None` -/
  | none
  /-- exchange two values (order of the fields of a struct) -/
  | swap
  /-- `.is_some()` -/
  | isSome
  /-- the values appended by `zero_or_more_tailed_values_append` -/
  | append
  /-- the closure of `function_qualifiers` (`src/parser/mod.rs` 628-632) -/
  | externAbi
  /-- `Ident { extent }` -/
  | ident
  /-- `Lifetime { extent, name: Ident { extent } }` -/
  | lifetime
  /-- `Character { extent, value: extent }` -/
  | character
  /-- `String { extent, value: extent }` -/
  | string
  /-- `Byte { extent, value: Character { extent, value: extent } }` -/
  | byte
  /-- `ByteString { extent, value: String { extent, value: extent } }` -/
  | byteString
  /-- `|value| Kind { extent: value.extent, value }` -/
  | copyExtent (k : K)
  /-- `Attributed::from(Expression)`, `src/ast.rs` 1355-1364 -/
  | into
  /-- the closure of `expr_value_struct_literal_field` (`src/parser/expression.rs` 1373-1380) -/
  | fieldValue
deriving DecidableEq, Repr

/-- `Attributed::from(Expression)`, `src/ast.rs` 1355-1364. -/
def intoExpr (e : Extent) (v : V) : V := mkAttributed e [] v

/-- `Ident { extent }`. -/
def mkIdent (e : Extent) : V := .node .Ident e [] []

/-- `PathedIdent::from(Ident)`, `src/ast.rs` 765-779; `e` is the extent of the ident. -/
def mkPathedIdent (e : Extent) (ident : V) : V :=
  .node .PathedIdent e [] [.list [.node .PathComponent e [] [ident, .list []]]]

/-- What the closures do. -/
def Fn.app : Fn → List V → List V
  | .wrap t, vs => [.enm t vs]
  | .wrapSecond t, [w, b] => [w, .enm t [b]]
  | .flat, [.list [.list vs]] => [.list vs]
  | .some, vs => [.list vs]
  | .none, _ => [.list []]
  | .swap, [a, b] => [b, a]
  | .isSome, [.list vs] => [.bool !vs.isEmpty]
  | .append, [.list as, .list bs] => [.list (as ++ bs)]
  | .externAbi, [.list []] => [.list [], .list []]
  | .externAbi, [.list [e, abi]] => [.list [e], abi]
  | .ident, [.ext e] => [mkIdent e]
  | .lifetime, [.ext e] => [.node .Lifetime e [] [mkIdent e]]
  | .character, [.ext e] => [.node .Character e [] [.ext e]]
  | .string, [.ext e] => [.node .String e [] [.ext e]]
  | .byte, [.ext e] => [.node .Byte e [] [.node .Character e [] [.ext e]]]
  | .byteString, [.ext e] => [.node .ByteString e [] [.node .String e [] [.ext e]]]
  | .copyExtent k, [v] => match v.extent? with | .some e => [.node k e [] [v]] | .none => [v]
  | .into, [v] => match v.extent? with | .some e => [intoExpr e v] | .none => [v]
  | .fieldValue, [.ext _, name, .list [value]] => [name, value]
  | .fieldValue, [.ext e, .node .Ident e' ws vs, .list []] =>
    [.node .Ident e' ws vs,
     intoExpr e (.enm .Expression_Value [.node .Value e [] [mkPathedIdent e' (.node .Ident e' ws vs), .list []]])]
  | _, vs => vs

/-- What is built from `ex(spt, pt)` and the values parsed. -/
inductive Mk
  /-- a struct `{ extent: ex(spt, pt), …, whitespace: Vec::new() }` -/
  | node (k : K)
  /-- `expr_tuple_or_parenthetical` (`src/parser/expression.rs` 1154-1179): the struct inside the variant chosen by
  `TailK.paren` -/
  | paren
  /-- `struct_defn_body_tuple` (`src/parser/mod.rs` 1458-1471): `[fields, wheres]` to `[wheres, body]` -/
  | tupleBody
  /-- just the extent, before the values -/
  | span
deriving DecidableEq, Repr

/-- Build the result. -/
def Mk.app : Mk → Extent → List V → List V
  | .node k, e, vs => [.node k e [] vs]
  | .paren, e, [.enm .Expression_Parenthetical vs] =>
    [.enm .Expression_Parenthetical [.node .Parenthetical e [] vs]]
  | .paren, e, [.enm .Expression_Tuple vs] => [.enm .Expression_Tuple [.node .Tuple e [] vs]]
  | .paren, _, vs => vs
  | .tupleBody, e, [fields, wheres] => [wheres, .node .StructDefinitionBodyTuple e [] [fields]]
  | .tupleBody, _, vs => vs
  | .span, e, vs => .ext e :: vs

/-- What is made of a `Tailed`. -/
inductive TailK
  /-- `.values` -/
  | values
  /-- the closure of `block` (`src/parser/mod.rs` 943-957): the statements and the trailing expression -/
  | block
  /-- the closure of `expr_tuple_or_parenthetical` (`src/parser/expression.rs` 1160-1178), without the extent -/
  | paren
deriving DecidableEq, Repr

/-- `Statement::is_expression` and `Statement::into_expression`. -/
def intoExpression : V → Option V
  | .enm .Statement_Expression [e] => some e
  | _ => none

/-- What is made of a `Tailed`. -/
def TailK.out : TailK → P.Tailed (List V) → List V
  | .values, t => [.list t.values.flatten]
  | .block, t =>
    match t.values.flatten.getLast?.bind intoExpression with
    | some e => if t.lastHadSeparator then [.list t.values.flatten, .list []]
        else [.list t.values.flatten.dropLast, .list [e]]
    | none => [.list t.values.flatten, .list []]
  | .paren, t =>
    if t.values.length = 1 ∧ t.separatorCount = 0 then [.enm .Expression_Parenthetical t.values.flatten]
    else [.enm .Expression_Tuple [.list t.values.flatten]]

/-- Which values need no separator after them: `ImplicitSeparator` for `Statement` (`src/parser/mod.rs` 975-983) and for
`MatchArm` (`src/parser/expression.rs` 1101-1108). -/
inductive Impl | statement | matchArm
deriving DecidableEq, Repr

/-- `is_implicit_separator`. -/
def Impl.app : Impl → List V → Bool
  | .statement, [.enm .Statement_Expression [e]] => mayTerminateAttributed e
  | .statement, [.enm .Statement_Item _] => true
  | .statement, _ => false
  | .matchArm, [.node .MatchArm _ _ [_, _, _, .enm .MatchHand_Brace _]] => true
  | .matchArm, _ => false

/-- Grammar expressions. -/
inductive G
  /-- no values, nothing parsed -/
  | eps
  /-- a token: its extent (`shim!`, `src/parser/mod.rs` 350-476) -/
  | tok (k : TK)
  /-- `number_literal` (`src/parser/mod.rs` 1049-1053) -/
  | number
  /-- `field_name_number` (`src/parser/expression.rs` 434-437) -/
  | simpleNumber
  /-- call of a parser function -/
  | r (n : NT)
  /-- one step of `sequence!` after another -/
  | seq (a b : G)
  /-- `alternate`; more than two alternatives nest to the left -/
  | alt (a b : G)
  /-- `optional` -/
  | opt (a : G)
  /-- `zero_or_more` -/
  | many (a : G)
  /-- `zero_or_more_tailed` -/
  | tailed (k : TailK) (sep a : G)
  /-- `one_or_more_tailed_values` -/
  | tailed1Values (sep a : G)
  /-- `zero_or_more_tailed_values_resume` -/
  | resume (sep a : G)
  /-- `zero_or_more_implicitly_tailed…` -/
  | implTailed (k : TailK) (i : Impl) (sep a : G)
  /-- an opening token, then `parse_nested_until` -/
  | nested (opn cls : TK)
  /-- `ext` (`src/parser/combinators.rs` 7-15) -/
  | ext (a : G)
  /-- the values are not used -/
  | drop (a : G)
  /-- `map` or a closure -/
  | map (f : Fn) (a : G)
  /-- a value with the extent `ex(spt, pt)` -/
  | build (m : Mk) (a : G)
  /-- a struct with the extent `ex(spt, pt)` where `pt` is still the point at the start, as the closure ignores its own
  argument -/
  | nodeEmpty (k : K) (a : G)
  /-- `map_err` -/
  | mapErr (e : PErr) (a : G)
  /-- `peek` -/
  | peek (a : G)
  /-- `set_ambiguity_level` -/
  | amb (level : Amb) (a : G)
  /-- `if pm.state.expression_ambiguity.is_ambiguous()` -/
  | ifAmbiguous (a b : G)
  /-- `expr_block` (`src/parser/expression.rs` 1296-1302): fail when the ambiguity is `Maximum` -/
  | notMaximum (a : G)
deriving DecidableEq, Repr

namespace G

/-- `alternate` of a list of parsers. -/
def alts : List G → G
  | [] => eps
  | g :: gs => gs.foldl alt g

/-- The steps of a `sequence!`. -/
def sq : List G → G
  | [] => eps
  | [g] => g
  | g :: gs => seq g (sq gs)

/-- A token that is not kept. -/
abbrev d (k : TK) : G := drop (tok k)
abbrev wrap (t : Tag) (g : G) : G := map (.wrap t) g
abbrev node (k : K) (g : G) : G := build (.node k) g
abbrev none : G := map .none eps
abbrev comma : G := tok .Comma
/-- `optional(where_clause)` with `.unwrap_or_else(Vec::new)`. -/
abbrev wheres : G := map .flat (opt (r .where_clause))
/-- `zero_or_more_tailed_values`. -/
abbrev tailedValues (sep a : G) : G := tailed .values sep a
/-- `src/parser/mod.rs` 2555-2572, `attributed`. -/
abbrev attributed (k : K) (g : G) : G := build (.node k) (seq (many (r .attribute)) g)

end G

/-- `Token::into_…` for a kind of token that carries an extent. -/
def convTK (k : TK) : Token → Option Extent
  | .plain k' e => if k' = k then some e else none
  | .number _ => none

/-- `Token::into_number`. -/
def convNumber : Token → Option Number
  | .plain .. => none
  | .number n => some n

/-- An optional extent as a value. -/
def optExt (e : Option Extent) : V := .list (e.map V.ext).toList

/-- `src/parser/mod.rs` 1055-1074, `convert_number`. -/
def convertNumber (n : Number) : V :=
  let fields := [.ext n.integral, optExt n.fractional, optExt n.exponent, optExt n.type_suffix]
  let value : V :=
    match n.base with
    | .Binary => .enm .NumberValue_Binary [.node .NumberBinary n.extent [] fields]
    | .Octal => .enm .NumberValue_Octal [.node .NumberOctal n.extent [] fields]
    | .Hexadecimal => .enm .NumberValue_Hexadecimal [.node .NumberHexadecimal n.extent [] fields]
    | .Decimal => .enm .NumberValue_Decimal [.node .NumberDecimal n.extent [] fields]
  .node .Number n.extent [] [.list [], value]

section
variable (toks : List Token)

/-- `Progress::and_then(pt, …)` as used by `field_name_number` (`src/parser/expression.rs` 434-437): a failure of the
conversion is at the given point. -/
def fieldNameNumber : P (List V) := fun a pt =>
  match token toks convNumber .ExpectedNumber a pt with
  | ⟨.ok pt' n, a', l⟩ =>
    match n.intoSimple with
    | some e => ⟨.ok pt' [.ext e], a', l⟩
    | none => ⟨.fail pt .ExpectedNumber, a', l⟩
  | ⟨.fail pt' e, a', l⟩ => ⟨.fail pt' e, a', l⟩
  | ⟨.panic, a', l⟩ => ⟨.panic, a', l⟩
  | ⟨.hang, a', l⟩ => ⟨.hang, a', l⟩

/-- A token kind, as a predicate. -/
def isTK (k : TK) (t : Token) : Bool := t.kind? == some k

/-- Enough turns for every loop over the tokens. -/
def loopFuel : Nat := 4 * toks.length + 4

/-- `ex(spt, spt)`, see `G.nodeEmpty`. -/
def P.spannedEmpty {α : Type} (p : P α) : P (Extent × α) := fun a spt =>
  match p a spt with
  | ⟨.ok pt v, a', l⟩ =>
    match ex toks spt spt with
    | some e => ⟨.ok pt (e, v), a', l⟩
    | none => ⟨.panic, a', l⟩
  | ⟨.fail pt e, a', l⟩ => ⟨.fail pt e, a', l⟩
  | ⟨.panic, a', l⟩ => ⟨.panic, a', l⟩
  | ⟨.hang, a', l⟩ => ⟨.hang, a', l⟩

/-- The parser of a grammar expression, given the parsers of the nonterminals. -/
def evalG (rec : NT → P (List V)) : G → P (List V)
  | .eps => .pure []
  | .tok k => (token toks (convTK k) (.Expected k)).map fun e => [.ext e]
  | .number => (token toks convNumber .ExpectedNumber).map fun n => [convertNumber n]
  | .simpleNumber => fieldNameNumber toks
  | .r n => rec n
  | .seq a b => (evalG rec a).bind fun vs => (evalG rec b).map fun ws => vs ++ ws
  | .alt a b => (evalG rec a).orElse (evalG rec b)
  | .opt a => (evalG rec a).optional.map fun o => [.list (o.getD [])]
  | .many a => (P.zeroOrMore (evalG rec a) (loopFuel toks)).map fun vss => [.list vss.flatten]
  | .tailed k sep a => (P.zeroOrMoreTailed (evalG rec sep) (evalG rec a) (loopFuel toks)).map k.out
  | .tailed1Values sep a =>
    (P.oneOrMoreTailed (evalG rec sep) (evalG rec a) (loopFuel toks)).map (TailK.out .values)
  | .resume sep a =>
    (P.zeroOrMoreTailedValuesResume (evalG rec sep) (evalG rec a) (loopFuel toks)).map fun vss =>
      [.list vss.flatten]
  | .implTailed k i sep a =>
    (P.zeroOrMoreImplicitlyTailed i.app (evalG rec sep) (evalG rec a) (loopFuel toks) {}).map k.out
  | .nested o c =>
    (token toks (convTK o) (.Expected o)).bind fun _ =>
      (parseNestedUntil toks (isTK o) (isTK c)).map fun e => [.ext e]
  | .ext a => (P.spanned toks (evalG rec a)).map fun (e, _) => [.ext e]
  | .drop a => (evalG rec a).map fun _ => []
  | .map f a => (evalG rec a).map f.app
  | .build m a => (P.spanned toks (evalG rec a)).map fun (e, vs) => m.app e vs
  | .nodeEmpty k a => (P.spannedEmpty toks (evalG rec a)).map fun (e, vs) => [.node k e [] vs]
  | .mapErr e a => (evalG rec a).mapErr e
  | .peek a => (evalG rec a).peek
  | .amb level a => P.setAmbiguityLevel level (evalG rec a)
  | .ifAmbiguous a b => fun am pt => if am.isAmbiguous then evalG rec a am pt else evalG rec b am pt
  | .notMaximum a => fun am pt =>
    if am = .Maximum then ⟨.fail pt .BlockNotAllowedHere, am, []⟩ else evalG rec a am pt

end

/-- The rule of a nonterminal: a grammar expression, or the shunting yard. -/
inductive Rule
  | g (g : G)
  | expr (stmt : Bool)
deriving DecidableEq, Repr

end Verif
