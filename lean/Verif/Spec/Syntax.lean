import Verif.Ast
import Verif.Spec.Lex
/-!
# How the tree is written

The concrete syntax of every struct and every variant of the tree: which tokens belong to it, in which order, and where its fields
stand among them.  `Spells` says that a value is written with a list of tokens.  The tables are written from the documentation of the
tree and from Rust's syntax; they do not mention the parser.
-/

namespace Verif.Spec
open Verif

/-- Some structs are written in more than one way, depending on where they stand. -/
inductive Style
  | plain
  /-- a macro call where an item is expected: with a semicolon, unless it has curly braces -/
  | item
  /-- a type without `+ …` -/
  | single
  /-- an identifier in a path, where it may be `crate` -/
  | path
  /-- the identifier `self` -/
  | self
  /-- the identifier that stands for a lifetime -/
  | quote
  /-- the character or string of a byte literal -/
  | byte
deriving DecidableEq, Repr

/-- How a field is written. -/
inductive Mode
  /-- the value, as a struct or an enum -/
  | val (s : Style)
  /-- the value, of this variant -/
  | variant (s : Style) (t : Tag)
  /-- the extent of a token of one of these kinds -/
  | tok (ks : List TK)
  /-- an extent where no token belongs to -/
  | here
  /-- whether there is such a token -/
  | flag (k : TK)
  /-- the extent of a plain decimal number -/
  | simple
  /-- the extent of any tokens -/
  | text
  /-- left out -/
  | none
  /-- present, in an optional field -/
  | some (m : Mode)
  /-- left out, or present between these tokens -/
  | opt (pre : List TK) (m : Mode) (post : List TK)
  /-- any number, each between these tokens -/
  | many (pre : List TK) (m : Mode) (post : List TK)
  /-- a list with separators; a `loose` list may be followed by tokens that are not part of the tree -/
  | sep (loose : Bool) (k : TK) (m : Mode)
  /-- such a list that is not empty -/
  | sep1 (loose : Bool) (k : TK) (m : Mode)
  /-- the separator and such a list, or nothing -/
  | more (loose : Bool) (k : TK) (m : Mode)
  /-- a list between these tokens, or nothing -/
  | group (pre : List TK) (m : Mode) (post : List TK)
  /-- a list in two parts -/
  | both (m n : Mode)
  /-- the arms of a `match` -/
  | arms
deriving DecidableEq, Repr

/-- A part of a struct or a variant.  `ν` names the fields. -/
inductive Item (ν : Type)
  /-- a token -/
  | t (k : TK)
  /-- a token that may be left out -/
  | maybe (k : TK)
  /-- a token whose extent is that of the struct itself -/
  | self (ks : List TK)
  /-- a field -/
  | f (n : ν) (m : Mode)
  /-- the statements of a block and the expression at its end -/
  | body (statements expression : ν)
  /-- an identifier standing for a field and its value -/
  | shorthand (name value : ν)
deriving DecidableEq, Repr

def Item.map {ν μ : Type} (g : ν → μ) : Item ν → Item μ
  | .t k => .t k
  | .maybe k => .maybe k
  | .self ks => .self ks
  | .f n m => .f (g n) m
  | .body a b => .body (g a) (g b)
  | .shorthand a b => .shorthand (g a) (g b)

/-- The parts, in order. -/
abbrev Form (ν : Type) := List (Item ν)

section table
private abbrev t {ν : Type} (k : TK) : Item ν := .t k
private abbrev f {ν : Type} (n : ν) (m : Mode) : Item ν := .f n m
private abbrev v : Mode := .val .plain
/-- a field that is there -/
private abbrev the {ν : Type} (n : ν) : Item ν := .f n v
/-- a field that may be left out -/
private abbrev opt {ν : Type} (n : ν) : Item ν := .f n (.opt [] v [])
/-- a field that may be left out, together with the token before it -/
private abbrev after {ν : Type} (k : TK) (n : ν) : Item ν := .f n (.opt [k] v [])
/-- a keyword that may be left out; the field is its extent -/
private abbrev kw {ν : Type} (n : ν) (k : TK) : Item ν := .f n (.opt [] (.tok [k]) [])
private abbrev attrs : Item String := .f "attributes" (.many [] v [])
private abbrev wheres : Item String := .f "wheres" (.group [.Where] (.sep1 true .Comma v) [])

/-- The ways to write a struct, in terms of the names of its fields. -/
def syntaxOf (s : Style) : K → List (Form String)
  -- identifiers and literals
  | .Ident =>
    match s with
    | .path => [[.self [.Default, .SelfIdent, .Dyn, .Union, .Ident, .Crate]]]
    | .self => [[.self [.SelfIdent]]]
    | .quote => [[.self [.Lifetime]]]
    | _ => [[.self [.Default, .SelfIdent, .Dyn, .Union, .Ident]]]
  | .Lifetime => [[f "name" (.val .quote)]]
  | .Character => match s with | .byte => [[f "value" (.tok [.Byte])]] | _ => [[f "value" (.tok [.Character])]]
  | .String =>
    match s with
    | .byte => [[f "value" (.tok [.ByteString, .ByteStringRaw])]]
    | _ => [[f "value" (.tok [.String, .StringRaw])]]
  | .Byte => [[f "value" (.val .byte)]]
  | .ByteString => [[f "value" (.val .byte)]]
  -- attributes
  | .AttributeLiteral => [[t .Hash, t .LeftSquare, f "text" .text, t .RightSquare]]
  | .AttributeContainingLiteral => [[t .Hash, t .Bang, t .LeftSquare, f "text" .text, t .RightSquare]]
  | .AttributedEnumVariant | .AttributedExpression | .AttributedExternBlockMember | .AttributedGenericDeclarationConst
  | .AttributedGenericDeclarationLifetime | .AttributedGenericDeclarationType | .AttributedImplMember | .AttributedItem
  | .AttributedStructDefinitionFieldNamed | .AttributedStructDefinitionFieldUnnamed | .AttributedTraitMember =>
    [[attrs, the "value"]]
  -- paths
  | .Path => [[.maybe .DoubleColon, f "components" (.sep1 false .DoubleColon v)]]
  | .PathedIdent => [[.maybe .DoubleColon, f "components" (.sep1 false .DoubleColon v)]]
  | .PathComponent => [[f "ident" (.val .path), opt "turbofish"]]
  | .Turbofish => [[t .DoubleColon, t .LeftAngle, f "lifetimes" (.sep false .Comma v), f "types" (.sep false .Comma v), t .RightAngle]]
  -- use
  | .Use => [[opt "visibility", t .Use, .maybe .DoubleColon, the "path", t .Semicolon]]
  | .UsePath => [[f "path" (.many [] (.val .path) [.DoubleColon]), the "tail"]]
  | .UseTailIdent => [[the "name", after .As "rename"]]
  | .UseTailGlob => [[t .Asterisk]]
  | .UseTailMulti => [[t .LeftCurly, f "paths" (.sep true .Comma v), t .RightCurly]]
  -- functions
  | .Function | .ImplFunction => [[the "header", the "body"]]
  | .FunctionHeader | .TraitImplFunctionHeader =>
    [[opt "visibility", the "qualifiers", t .Fn, the "name", opt "generics", t .LeftParen,
      f "arguments" (.both (.opt [] v []) (.sep true .Comma v)), t .RightParen, after .ThinArrow "return_type", wheres]]
  | .FunctionQualifiers =>
    let start := [kw "is_default" .Default, kw "is_const" .Const, kw "is_unsafe" .Unsafe, kw "is_async" .Async]
    [start ++ [f "is_extern" .none, f "abi" .none], start ++ [f "is_extern" (.some (.tok [.Extern])), opt "abi"]]
  | .SelfArgumentLonghand =>
    [[kw "is_mut" .Mut, f "name" (.val .self), t .Colon, the "typ", .maybe .Comma]]
  | .SelfArgumentShorthand => [[opt "qualifier", f "name" (.val .self), .maybe .Comma]]
  | .NamedArgument => [[the "name", t .Colon, the "typ"]]
  | .TraitImplArgumentNamed => [[f "name" (.opt [] v [.Colon]), the "typ"]]
  -- generics
  | .GenericDeclarations =>
    [[t .LeftAngle, f "lifetimes" (.sep true .Comma v), f "types" (.sep true .Comma v), f "consts" (.sep true .Comma v), t .RightAngle]]
  | .GenericDeclarationLifetime => [[the "name", f "bounds" (.group [.Colon] (.sep false .Plus v) [])]]
  | .GenericDeclarationType => [[the "name", after .Colon "bounds", after .Equals "default"]]
  | .GenericDeclarationConst => [[t .Const, the "name", t .Colon, the "typ"]]
  | .Where => [[f "higher_ranked_trait_bounds" (.group [.For, .LeftAngle] (.sep false .Comma v) [.RightAngle]), the "kind"]]
  | .WhereLifetime => [[the "name", t .Colon, f "bounds" (.sep false .Plus v)]]
  | .WhereType => [[the "name", t .Colon, the "bounds"]]
  | .TraitBounds => [[f "types" (.sep true .Plus v)]]
  | .TraitBoundLifetime => [[the "lifetime"]]
  | .TraitBoundNormal => [[the "typ"]]
  | .TraitBoundRelaxed => [[t .QuestionMark, the "typ"]]
  -- types
  | .Type =>
    match s with
    | .single => [[the "kind", f "additional" .none]]
    | _ => [[the "kind", f "additional" (.more false .Plus v)]]
  | .TypeReference => [[the "kind", the "typ"]]
  | .TypeReferenceKind => [[t .Ampersand, opt "lifetime", kw "mutable" .Mut]]
  | .TypePointer => [[t .Asterisk, the "kind", the "typ"]]
  | .TypeArray => [[t .LeftSquare, the "typ", t .Semicolon, the "count", t .RightSquare]]
  | .TypeHigherRankedTraitBounds =>
    [[t .For, t .LeftAngle, f "lifetimes" (.sep false .Comma v), t .RightAngle, the "child"]]
  | .TypeDynTrait => [[t .Dyn, the "name"]]
  | .TypeImplTrait => [[t .Impl, the "name"]]
  | .TypeNamed => [[.maybe .DoubleColon, f "path" (.sep1 false .DoubleColon v)]]
  | .TypeNamedComponent => [[f "ident" (.val .path), opt "generics"]]
  | .TypeDisambiguation =>
    [[t .LeftAngle, the "from_type", after .As "to_type", t .RightAngle, f "path" (.more false .DoubleColon v)]]
  | .TypeSlice => [[t .LeftSquare, the "typ", t .RightSquare]]
  | .TypeTuple => [[t .LeftParen, f "types" (.sep false .Comma v), t .RightParen]]
  | .TypeGenericsFunction =>
    [[t .LeftParen, f "types" (.sep false .Comma v), t .RightParen, after .ThinArrow "return_type"]]
  | .TypeGenericsAngle => [[t .LeftAngle, f "members" (.sep false .Comma v), t .RightAngle]]
  | .AssociatedType => [[the "name", the "value"]]
  | .AssociatedTypeValueEqual => [[t .Equals, the "value"]]
  | .AssociatedTypeValueBound => [[t .Colon, the "bounds"]]
  | .TypeFunction =>
    [[the "qualifiers", t .Fn, t .LeftParen, f "arguments" (.both (.sep true .Comma v) (.sep false .Comma v)), t .RightParen,
      after .ThinArrow "return_type"]]
  | .TypeFunctionArgumentNamed => [[f "name" (.opt [] v [.Colon]), the "typ"]]
  -- items
  | .Const | .ImplConst =>
    [[opt "visibility", t .Const, the "name", t .Colon, the "typ", t .Equals, the "value", t .Semicolon]]
  | .Static =>
    [[opt "visibility", t .Static, kw "is_mut" .Mut, the "name", t .Colon, the "typ", t .Equals, the "value", t .Semicolon]]
  | .Struct =>
    let start := [opt "visibility", t .Struct, the "name", opt "generics"]
    [start ++ [wheres, f "body" (.variant .plain .StructDefinitionBody_Brace)],
     start ++ [f "body" (.variant .plain .StructDefinitionBody_Tuple), wheres, t .Semicolon],
     start ++ [f "wheres" .none, f "body" (.variant .plain .StructDefinitionBody_Empty)]]
  | .StructDefinitionBodyBrace => [[t .LeftCurly, f "fields" (.sep true .Comma v), t .RightCurly]]
  | .StructDefinitionFieldNamed => [[opt "visibility", the "name", t .Colon, the "typ"]]
  | .StructDefinitionBodyTuple => [[t .LeftParen, f "fields" (.sep true .Comma v), t .RightParen]]
  | .StructDefinitionFieldUnnamed => [[opt "visibility", the "typ"]]
  | .Union =>
    [[opt "visibility", t .Union, the "name", opt "generics", wheres, t .LeftCurly, f "fields" (.sep true .Comma v), t .RightCurly]]
  | .Enum =>
    [[opt "visibility", t .Enum, the "name", opt "generics", wheres, t .LeftCurly, f "variants" (.sep true .Comma v), t .RightCurly]]
  | .EnumVariant => [[the "name", the "body"]]
  | .Trait =>
    [[opt "visibility", kw "is_unsafe" .Unsafe, kw "is_auto" .Auto, t .Trait, the "name", opt "generics",
      after .Colon "bounds", wheres, t .LeftCurly, f "members" (.many [] v []), t .RightCurly]]
  | .TraitMemberFunction => [[the "header", f "body" (.some v)], [the "header", t .Semicolon, f "body" .none]]
  | .TraitMemberType => [[t .Type, the "name", after .Colon "bounds", after .Equals "default", t .Semicolon]]
  | .TraitMemberConst => [[t .Const, the "name", t .Colon, the "typ", after .Equals "value", t .Semicolon]]
  | .Impl =>
    [[kw "is_unsafe" .Unsafe, t .Impl, opt "generics", the "kind", wheres, t .LeftCurly, f "body" (.many [] v []), t .RightCurly]]
  | .ImplOfTrait => [[kw "is_negative" .Bang, the "trait_name", t .For, the "type_name"]]
  | .ImplOfInherent => [[the "type_name"]]
  | .ImplType => [[t .Type, the "name", t .Equals, the "typ", t .Semicolon]]
  | .Crate => [[opt "visibility", t .Extern, t .Crate, the "name", after .As "rename", t .Semicolon]]
  | .ExternBlock => [[t .Extern, opt "abi", t .LeftCurly, f "members" (.many [] v []), t .RightCurly]]
  | .ExternBlockMemberStatic =>
    [[opt "visibility", t .Static, kw "is_mut" .Mut, the "name", t .Colon, the "typ", t .Semicolon]]
  | .ExternBlockMemberType => [[opt "visibility", t .Type, the "name", t .Semicolon]]
  | .ExternBlockMemberFunction =>
    [[opt "visibility", t .Fn, the "name", opt "generics", t .LeftParen, f "arguments" (.sep false .Comma v), t .RightParen,
      after .ThinArrow "return_type", wheres, t .Semicolon]]
  | .ExternBlockMemberFunctionArgumentNamed => [[the "name", t .Colon, the "typ"]]
  | .ExternBlockMemberFunctionArgumentVariadic => [[t .TriplePeriod]]
  | .TypeAlias => [[opt "visibility", t .Type, the "name", opt "generics", wheres, t .Equals, the "defn", t .Semicolon]]
  | .Module =>
    let start := [opt "visibility", t .Mod, the "name"]
    [start ++ [t .LeftCurly, f "body" (.some (.many [] v [])), t .RightCurly], start ++ [t .Semicolon, f "body" .none]]
  | .VisibilityPublic => [[t .Pub, f "qualifier" (.opt [.LeftParen] v [.RightParen])]]
  -- expressions
  | .Block => [[t .LeftCurly, .body "statements" "expression", t .RightCurly]]
  | .UnsafeBlock => [[t .Unsafe, the "body"]]
  | .AsyncBlock => [[t .Async, kw "is_move" .Move, the "body"]]
  | .Parenthetical => [[t .LeftParen, the "expression", t .RightParen]]
  | .MacroCall =>
    match s with
    | .item => [[the "name", t .Bang, opt "arg", f "args" (.val .item)]]
    | _ => [[the "name", t .Bang, opt "arg", the "args"]]
  | .Let => [[t .Let, the "pattern", after .Colon "typ", after .Equals "value"]]
  | .Tuple => [[t .LeftParen, f "members" (.sep true .Comma v), t .RightParen]]
  | .TryOperator => [[the "target", t .QuestionMark]]
  | .FieldAccess => [[the "target", t .Period, the "field"]]
  | .Number | .NumberBinary | .NumberDecimal | .NumberHexadecimal | .NumberOctal => []
  | .Value => [[the "name", opt "literal"]]
  | .StructLiteral => [[t .LeftCurly, f "fields" (.sep false .Comma v), after .DoublePeriod "splat", t .RightCurly]]
  | .StructLiteralField => [[the "name", t .Colon, the "value"], [.shorthand "name" "value"]]
  | .Call => [[the "target", t .LeftParen, f "args" (.sep true .Comma v), t .RightParen]]
  | .ForLoop => [[f "label" (.opt [] v [.Colon]), t .For, the "pattern", t .In, the "iter", the "body"]]
  | .Loop => [[f "label" (.opt [] v [.Colon]), t .Loop, the "body"]]
  | .IfLet => [[t .If, t .Let, the "pattern", t .Equals, the "value", the "body"]]
  | .While => [[f "label" (.opt [] v [.Colon]), t .While, the "value", the "body"]]
  | .WhileLet => [[f "label" (.opt [] v [.Colon]), t .While, t .Let, the "pattern", t .Equals, the "value", the "body"]]
  | .Unary => [[the "op", the "value"]]
  | .Binary => [[the "lhs", the "op", the "rhs"]]
  | .If => [[t .If, the "condition", the "body", f "more" (.many [.Else] v []), after .Else "else_body"]]
  | .Match => [[t .Match, the "head", t .LeftCurly, f "arms" .arms, t .RightCurly]]
  | .MatchArm => [[attrs, f "pattern" (.sep1 true .Pipe v), after .If "guard", t .ThickArrow, the "hand"]]
  | .Range => [[opt "lhs", t .DoublePeriod, opt "rhs"]]
  | .RangeInclusive => [[opt "lhs", the "operator", opt "rhs"]]
  | .ArrayExplicit => [[t .LeftSquare, f "values" (.sep true .Comma v), t .RightSquare]]
  | .ArrayRepeated => [[t .LeftSquare, the "value", t .Semicolon, the "count", t .RightSquare]]
  | .ExpressionBox => [[t .Box, the "target"]]
  | .AsType => [[the "target", t .As, f "typ" (.val .single)]]
  | .Ascription => [[the "target", t .Colon, the "typ"]]
  | .Slice => [[the "target", t .LeftSquare, the "index", t .RightSquare]]
  | .Closure =>
    let start := [kw "is_async" .Async, kw "is_move" .Move, t .Pipe, f "args" (.sep true .Comma v), t .Pipe]
    [start ++ [t .ThinArrow, f "return_type" (.some v), the "body"], start ++ [f "return_type" .none, the "body"]]
  | .ClosureArg => [[the "name", after .Colon "typ"]]
  | .Reference => [[t .Ampersand, kw "is_mutable" .Mut, the "target"]]
  | .Dereference => [[t .Asterisk, the "target"]]
  | .Disambiguation =>
    [[t .LeftAngle, the "from_type", after .As "to_type", t .RightAngle, f "components" (.more false .DoubleColon v)]]
  | .Return => [[t .Return, opt "value"]]
  | .Continue => [[t .Continue, opt "label"]]
  | .Break => [[t .Break, opt "label", opt "value"]]
  -- patterns
  | .Pattern => [[opt "name", the "kind"]]
  | .PatternName => [[kw "is_ref" .Ref, kw "is_mut" .Mut, the "name", t .At]]
  | .PatternIdent => [[kw "is_ref" .Ref, kw "is_mut" .Mut, the "ident", opt "tuple"]]
  | .PatternStruct =>
    [[the "name", t .LeftCurly, f "fields" (.sep true .Comma v), f "wildcard" (.flag .DoublePeriod), t .RightCurly]]
  | .PatternStructFieldLong => [[the "name", t .Colon, the "pattern"]]
  | .PatternStructFieldShort => [[the "ident"]]
  | .PatternTuple => [[t .LeftParen, f "members" (.sep false .Comma v), t .RightParen]]
  | .PatternSlice => [[t .LeftSquare, f "members" (.sep false .Comma v), t .RightSquare]]
  | .PatternSliceSubslice => [[kw "is_ref" .Ref, kw "is_mut" .Mut, the "name", t .At, t .DoublePeriod]]
  | .PatternByte | .PatternCharacter | .PatternByteString | .PatternString | .PatternMacroCall => [[the "value"]]
  | .PatternNumber => [[kw "is_negative" .Minus, the "value"]]
  | .PatternRangeExclusive => [[the "start", t .DoublePeriod, the "end"]]
  | .PatternRangeInclusive => [[the "start", the "operator", the "end"]]
  | .PatternReference => [[t .Ampersand, kw "is_mut" .Mut, the "pattern"]]
  | .PatternBox => [[t .Box, the "pattern"]]

/-- The ways to write a variant.  Most of them are just what they contain. -/
def variantSyntax (s : Style) : Tag → List (Form Nat)
  | .Item_MacroCall | .TraitMember_MacroCall | .ImplMember_MacroCall => [[f 0 (.val .item)]]
  | .Attribute_DocCommentLine => [[f 0 (.tok [.DocCommentOuterLine])]]
  | .Attribute_DocCommentBlock => [[f 0 (.tok [.DocCommentOuterBlock])]]
  | .AttributeContaining_DocCommentLine => [[f 0 (.tok [.DocCommentInnerLine])]]
  | .AttributeContaining_DocCommentBlock => [[f 0 (.tok [.DocCommentInnerBlock])]]
  | .TypeKind_Uninhabited => [[f 0 (.tok [.Bang])]]
  | .TypePointerKind_Const => [[t .Const]]
  | .TypePointerKind_Mutable => [[t .Mut]]
  | .TypeFunctionArgument_Variadic => [[f 0 (.tok [.TriplePeriod])]]
  | .StructDefinitionBody_Empty => [[f 0 (.tok [.Semicolon])]]
  | .EnumVariantBody_Tuple => [[t .LeftParen, f 0 (.sep true .Comma v), t .RightParen]]
  | .EnumVariantBody_Unit => [[f 0 (.opt [.Equals] v [])]]
  | .SelfArgumentShorthandQualifier_Mut => [[f 0 (.tok [.Mut])]]
  | .Statement_Empty => [[f 0 .here]]
  | .MacroCallArgs_Paren =>
    match s with
    | .item => [[t .LeftParen, f 0 .text, t .RightParen, t .Semicolon]]
    | _ => [[t .LeftParen, f 0 .text, t .RightParen]]
  | .MacroCallArgs_Square =>
    match s with
    | .item => [[t .LeftSquare, f 0 .text, t .RightSquare, t .Semicolon]]
    | _ => [[t .LeftSquare, f 0 .text, t .RightSquare]]
  | .MacroCallArgs_Curly => [[t .LeftCurly, f 0 .text, t .RightCurly]]
  | .FieldName_Number => [[f 0 .simple]]
  | .NumberValue_Binary | .NumberValue_Decimal | .NumberValue_Hexadecimal | .NumberValue_Octal => []
  | .UnaryOp_Negate => [[t .Minus]]
  | .UnaryOp_Not => [[t .Bang]]
  | .BinaryOp_Add => [[t .Plus]]
  | .BinaryOp_AddAssign => [[t .PlusEquals]]
  | .BinaryOp_Assign => [[t .Equals]]
  | .BinaryOp_BitwiseAnd => [[t .Ampersand]]
  | .BinaryOp_BitwiseAndAssign => [[t .AmpersandEquals]]
  | .BinaryOp_BitwiseOr => [[t .Pipe]]
  | .BinaryOp_BitwiseOrAssign => [[t .PipeEquals]]
  | .BinaryOp_BitwiseXor => [[t .Caret]]
  | .BinaryOp_BitwiseXorAssign => [[t .CaretEquals]]
  | .BinaryOp_BooleanAnd => [[t .DoubleAmpersand]]
  | .BinaryOp_BooleanOr => [[t .DoublePipe]]
  | .BinaryOp_Div => [[t .Slash]]
  | .BinaryOp_DivAssign => [[t .DivideEquals]]
  | .BinaryOp_Equal => [[t .DoubleEquals]]
  | .BinaryOp_GreaterThan => [[t .RightAngle]]
  | .BinaryOp_GreaterThanOrEqual => [[t .GreaterThanOrEquals]]
  | .BinaryOp_LessThan => [[t .LeftAngle]]
  | .BinaryOp_LessThanOrEqual => [[t .LessThanOrEquals]]
  | .BinaryOp_Mod => [[t .Percent]]
  | .BinaryOp_ModAssign => [[t .PercentEquals]]
  | .BinaryOp_Mul => [[t .Asterisk]]
  | .BinaryOp_MulAssign => [[t .TimesEquals]]
  | .BinaryOp_NotEqual => [[t .NotEqual]]
  | .BinaryOp_ShiftLeft => [[t .DoubleLeftAngle]]
  | .BinaryOp_ShiftLeftAssign => [[t .ShiftLeftEquals]]
  | .BinaryOp_ShiftRight => [[t .DoubleRightAngle]]
  | .BinaryOp_ShiftRightAssign => [[t .ShiftRightEquals]]
  | .BinaryOp_Sub => [[t .Minus]]
  | .BinaryOp_SubAssign => [[t .MinusEquals]]
  | .RangeInclusiveOperator_Legacy => [[f 0 (.tok [.TriplePeriod])]]
  | .RangeInclusiveOperator_Recommended => [[f 0 (.tok [.DoublePeriodEquals])]]
  | .PatternTupleMember_Wildcard => [[f 0 (.tok [.DoublePeriod])]]
  | .PatternSliceMember_Wildcard => [[f 0 (.tok [.DoublePeriod])]]
  | .ImplOfTraitType_Wildcard => [[f 0 (.tok [.DoublePeriod])]]
  | .Visibility_Crate => [[f 0 (.tok [.Crate])]]
  | .VisibilityPublicQualifier_Crate => [[t .Crate]]
  | .VisibilityPublicQualifier_SelfIdent => [[t .SelfIdent]]
  | _ => [[the 0]]

end table

/-- The ways to write a struct, in terms of the positions of its fields. -/
def forms (s : Style) (k : K) : List (Form Nat) :=
  (syntaxOf s k).map (·.map (·.map (fun n => (k.fields.map (·.name)).idxOf n)))

/-- The fields that a form mentions. -/
def mentions : Form Nat → List Nat
  | [] => []
  | .f i _ :: items => i :: mentions items
  | .body i j :: items => i :: j :: mentions items
  | .shorthand i j :: items => i :: j :: mentions items
  | _ :: items => mentions items

/-- The structs inside of numbers, which have no syntax of their own. -/
def isNumberPart : K → Bool
  | .NumberBinary | .NumberDecimal | .NumberHexadecimal | .NumberOctal => true
  | _ => false

/-- The variant of a number and the struct in it. -/
def numberKind : NumBase → Tag × K
  | .Binary => (.NumberValue_Binary, .NumberBinary)
  | .Decimal => (.NumberValue_Decimal, .NumberDecimal)
  | .Hexadecimal => (.NumberValue_Hexadecimal, .NumberHexadecimal)
  | .Octal => (.NumberValue_Octal, .NumberOctal)

/-- An extent that may be missing. -/
def maybeExt (e : Option Extent) : V := .list (e.toList.map .ext)

/-- Statements that are complete without a semicolon: items, and the expressions that end with a block. -/
def selfTerminated : V → Bool
  | .enm .Statement_Item _ => true
  | .enm .Statement_Expression [.node .AttributedExpression _ _ [_, .enm t vs]] =>
    [.Expression_Block, .Expression_ForLoop, .Expression_If, .Expression_IfLet, .Expression_Loop, .Expression_Match,
      .Expression_UnsafeBlock, .Expression_While, .Expression_WhileLet].contains t ||
    (match t, vs with
     | .Expression_MacroCall, [.node .MacroCall _ _ [_, _, .enm .MacroCallArgs_Curly _]] => true
     | _, _ => false)
  | _ => false

/-- The arms of a `match` that need no comma: those with a block. -/
def armTerminated : V → Bool
  | .node .MatchArm _ _ [_, _, _, .enm .MatchHand_Brace _] => true
  | _ => false

/-- The value of a field that is written as just its name: the variable of that name. -/
def isVariable (name : V) : V → Prop
  | .node .AttributedExpression e1 _
      [.list [], .enm .Expression_Value [.node .Value e2 _ [.node .PathedIdent e3 _ [.list [.node .PathComponent e4 _ [name', .list []]]], .list []]]] =>
    ∃ e ws ws', name = .node .Ident e ws [] ∧ name' = .node .Ident e ws' [] ∧ e1 = e ∧ e2 = e ∧ e3 = e ∧ e4 = e
  | _ => False

/-- Tokens of these kinds. -/
def Kinds (ks : List TK) (ts : List Token) : Prop := ts.map Token.kind? = ks.map some

/-- The extent from the first to the last of some tokens. -/
def Covers (e : Extent) (ts : List Token) : Prop :=
  match ts.head?, ts.getLast? with
  | some a, some b => e = ⟨a.extent.s, b.extent.e⟩
  | _, _ => e.s = e.e

/-- What may be written with tokens. -/
inductive Job
  /-- a value -/
  | one (m : Mode) (v : V)
  /-- the fields `vs` of something with the extent `e` -/
  | form (e : Extent) (items : Form Nat) (vs : List V)
  /-- values one after another -/
  | rep (pre : List TK) (m : Mode) (post : List TK) (vs : List V)
  /-- values with separators; the last separator is optional -/
  | sep (loose : Bool) (k : TK) (m : Mode) (vs : List V)
  /-- values with separators that may be left out after those that satisfy `ends` and after the last -/
  | ended (loose : Bool) (ends : V → Bool) (k : TK) (vs : List V)

/-- `x` should be `y`, the end of the first `n` characters of a token, but these are counted from the end of the token before. -/
def EndsCut (toks : List Token) (x y : Nat) : Prop :=
  ∃ (i : Nat) (u : Token) (k : TK) (e : Extent) (w : Text) (n : Nat), toks[i]? = some u ∧ toks[i + 1]? = some (.plain k e) ∧
    symbolText k = some w ∧ 0 < n ∧ n < w.length ∧ y = e.s + n ∧ x = u.extent.e + n

/-- The extent `e` is from the start of the first to the end of the last of `ts`.  But if these are several, and only the front of
the last token belongs to them, then the space before it is lost.  `toks` are the tokens of the file. -/
def Spans (toks : List Token) (e : Extent) (ts : List Token) : Prop :=
  match ts.head?, ts.getLast? with
  | some a, some b => e.s = a.extent.s ∧ (e.e = b.extent.e ∨ 1 < ts.length ∧ EndsCut toks e.e b.extent.e)
  | _, _ => e.s = e.e

/-- The structs whose extent is always empty. -/
def emptyExtent (k : K) : Bool := k = .PatternName || k = .StructLiteralField

/-- The structs of prefix operators: their extent starts with the attributes before the operator. -/
def withAttributes (k : K) : Bool :=
  k = .Unary || k = .Dereference || k = .Reference || k = .ExpressionBox || k = .Range || k = .RangeInclusive

/-- The extent `e` of a struct that is written with `ts`. -/
def Extends (toks : List Token) (k : K) (e : Extent) (ts : List Token) : Prop :=
  if emptyExtent k then e.s = e.e ∧ ∀ a, ts.head? = some a → e.s = a.extent.s
  -- it includes the `where` and the semicolon
  else if k = .StructDefinitionBodyTuple then ∃ more, Spans toks e (ts ++ more)
  else if withAttributes k then ∃ attributes, Spans toks e (attributes ++ ts)
  else Spans toks e ts

/-- The extent of the struct is that of its tokens. -/
def exactExtent (k : K) : Bool := !(emptyExtent k || k = .StructDefinitionBodyTuple || withAttributes k)

/-- How things are written.  `toks` are the tokens of the file.  The whitespace inside the tree does not matter. -/
inductive Spells (toks : List Token) : Job → List Token → Prop
  -- values
  | node {s k e ws vs form ts} : form ∈ forms s k → Spells toks (.form e form vs) ts → Extends toks k e ts →
      Spells toks (.one (.val s) (.node k e ws vs)) ts
  | enm {s t e vs form ts} : form ∈ variantSyntax s t → Spells toks (.form e form vs) ts → Spells toks (.one (.val s) (.enm t vs)) ts
  | number {s n ws ws'} :
      Spells toks (.one (.val s) (.node .Number n.extent ws [.list [], .enm (numberKind n.base).1
        [.node (numberKind n.base).2 n.extent ws'
          [.ext n.integral, maybeExt n.fractional, maybeExt n.exponent, maybeExt n.type_suffix]]])) [.number n]
  | variant {s t vs ts} : Spells toks (.one (.val s) (.enm t vs)) ts → Spells toks (.one (.variant s t) (.enm t vs)) ts
  | tok {ks k e} : k ∈ ks → Spells toks (.one (.tok ks) (.ext e)) [.plain k e]
  | here {e} : Spells toks (.one .here (.ext e)) []
  | yes {k e} : Spells toks (.one (.flag k) (.bool true)) [.plain k e]
  | no {k} : Spells toks (.one (.flag k) (.bool false)) []
  | simple {n : Number} : n.base = .Decimal → n.fractional = none → n.exponent = none → n.type_suffix = none →
      n.underscores = 0 → Spells toks (.one .simple (.ext n.extent)) [.number n]
  | text {e ts} : Covers e ts → Spells toks (.one .text (.ext e)) ts
  -- optional things
  | none : Spells toks (.one .none (.list [])) []
  | some {m v ts} : Spells toks (.one m v) ts → Spells toks (.one (.some m) (.list [v])) ts
  | absent {pre m post} : Spells toks (.one (.opt pre m post) (.list [])) []
  | present {pre m post v a b c} : Kinds pre a → Spells toks (.one m v) b → Kinds post c →
      Spells toks (.one (.opt pre m post) (.list [v])) (a ++ b ++ c)
  | noGroup {pre m post} : Spells toks (.one (.group pre m post) (.list [])) []
  | group {pre m post vs a b c} : Kinds pre a → Spells toks (.one m (.list vs)) b → Kinds post c →
      Spells toks (.one (.group pre m post) (.list vs)) (a ++ b ++ c)
  -- lists
  | many {pre m post vs ts} : Spells toks (.rep pre m post vs) ts → Spells toks (.one (.many pre m post) (.list vs)) ts
  | repNil {pre m post} : Spells toks (.rep pre m post []) []
  | repCons {pre m post v vs a b c d} : Kinds pre a → Spells toks (.one m v) b → Kinds post c → Spells toks (.rep pre m post vs) d →
      Spells toks (.rep pre m post (v :: vs)) (a ++ b ++ c ++ d)
  | sep {loose k m vs ts} : Spells toks (.sep loose k m vs) ts → Spells toks (.one (.sep loose k m) (.list vs)) ts
  | sep1 {loose k m vs ts} : vs ≠ [] → Spells toks (.sep loose k m vs) ts → Spells toks (.one (.sep1 loose k m) (.list vs)) ts
  | noMore {loose k m} : Spells toks (.one (.more loose k m) (.list [])) []
  | more {loose k m e vs ts} : vs ≠ [] → Spells toks (.sep loose k m vs) ts →
      Spells toks (.one (.more loose k m) (.list vs)) (.plain k e :: ts)
  | sepEnd {loose k m ts} : (loose = false → ts = []) → Spells toks (.sep loose k m []) ts
  | sepLast {loose k m v ts} : Spells toks (.one m v) ts → Spells toks (.sep loose k m [v]) ts
  | sepCons {loose k m v vs a e b} : Spells toks (.one m v) a → Spells toks (.sep loose k m vs) b →
      Spells toks (.sep loose k m (v :: vs)) (a ++ .plain k e :: b)
  | both {m n vs ws a b} : Spells toks (.one m (.list vs)) a → Spells toks (.one n (.list ws)) b →
      Spells toks (.one (.both m n) (.list (vs ++ ws))) (a ++ b)
  | arms {vs ts} : Spells toks (.ended true armTerminated .Comma vs) ts → Spells toks (.one .arms (.list vs)) ts
  | endedEnd {loose ends k ts} : (loose = false → ts = []) → Spells toks (.ended loose ends k []) ts
  | endedLast {loose ends k v ts} : Spells toks (.one (.val .plain) v) ts → Spells toks (.ended loose ends k [v]) ts
  | endedSelf {loose ends k v vs a b} : ends v = true → Spells toks (.one (.val .plain) v) a → Spells toks (.ended loose ends k vs) b →
      Spells toks (.ended loose ends k (v :: vs)) (a ++ b)
  | endedCons {loose ends k v vs a e b} : Spells toks (.one (.val .plain) v) a → Spells toks (.ended loose ends k vs) b →
      Spells toks (.ended loose ends k (v :: vs)) (a ++ .plain k e :: b)
  -- forms
  | done {e vs} : Spells toks (.form e [] vs) []
  | t {e k e' items vs ts} : Spells toks (.form e items vs) ts → Spells toks (.form e (.t k :: items) vs) (.plain k e' :: ts)
  | without {e k items vs ts} : Spells toks (.form e items vs) ts → Spells toks (.form e (.maybe k :: items) vs) ts
  | with {e k e' items vs ts} : Spells toks (.form e items vs) ts → Spells toks (.form e (.maybe k :: items) vs) (.plain k e' :: ts)
  | self {e ks k items vs ts} : k ∈ ks → Spells toks (.form e items vs) ts → Spells toks (.form e (.self ks :: items) vs) (.plain k e :: ts)
  | f {e : Extent} {i : Nat} {m items vs v a b} : vs[i]? = some v → Spells toks (.one m v) a → Spells toks (.form e items vs) b →
      Spells toks (.form e (.f i m :: items) vs) (a ++ b)
  | body {e : Extent} {i j : Nat} {items vs ss es a b} : vs[i]? = some (.list ss) → vs[j]? = some (.list es) → es.length ≤ 1 →
      Spells toks (.ended false selfTerminated .Semicolon (ss ++ es.map (fun x => .enm .Statement_Expression [x]))) a →
      Spells toks (.form e items vs) b → Spells toks (.form e (.body i j :: items) vs) (a ++ b)
  | shorthand {e : Extent} {i j : Nat} {items vs name value a b} : vs[i]? = some name → vs[j]? = some value →
      isVariable name value → Spells toks (.one (.val .plain) name) a → Spells toks (.form e items vs) b →
      Spells toks (.form e (.shorthand i j :: items) vs) (a ++ b)

/-- Tokens that are written with the characters of `w`, from position `s` on. -/
def Tiles : Nat → Text → List Token → Prop
  | _, w, [] => w = []
  | s, w, p :: ps => ∃ k w' w'', symbolText k = some w' ∧ w' ≠ [] ∧ w = w' ++ w'' ∧ p = .plain k ⟨s, s + w'.length⟩ ∧
      Tiles (s + w'.length) w'' ps

/-- A token as it is, or cut into smaller ones (such as `>>` into `>` and `>`). -/
def Cut (t : Token) (ps : List Token) : Prop :=
  ps = [t] ∨ ∃ k e w, t = .plain k e ∧ symbolText k = some w ∧ e.e = e.s + w.length ∧ Tiles e.s w ps

/-- Tokens, some of them cut into smaller ones. -/
inductive Refines : List Token → List Token → Prop
  | nil : Refines [] []
  | cons {t ps ts qs} : Cut t ps → Refines ts qs → Refines (t :: ts) (ps ++ qs)

end Verif.Spec
