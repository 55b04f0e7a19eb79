import Verif.Tok
/-!
# The syntax tree

Generated by `tools/mkast.py` from `src/ast.rs`.  Every struct of `ast.rs` with an `extent` field is a node kind
(`K`), every enum is an `En` whose variants are `Tag`s.  Values of the tree are `V`.
-/

namespace Verif

/-- The node kinds: the structs of `src/ast.rs` (lines given at `K.fields`) and, for the generic struct
`Attributed<T>` (`src/ast.rs` 1298-1303), one kind for each of the eleven `T` it is visited with (1342-1352). -/
inductive K
  | AttributeLiteral | AttributeContainingLiteral | Lifetime | Use | UsePath | UseTailIdent | UseTailGlob
  | UseTailMulti | Function | FunctionHeader | FunctionQualifiers | TraitImplFunctionHeader
  | GenericDeclarations | GenericDeclarationLifetime | GenericDeclarationType | GenericDeclarationConst
  | Type | TypeReference | TypeReferenceKind | TypePointer | TypeArray | TypeHigherRankedTraitBounds
  | TypeDynTrait | TypeImplTrait | TypeNamed | TypeNamedComponent | TypeDisambiguation | TypeSlice
  | TypeTuple | TypeGenericsFunction | TypeGenericsAngle | AssociatedType | AssociatedTypeValueEqual
  | AssociatedTypeValueBound | TypeFunction | TypeFunctionArgumentNamed | Ident | Path | PathedIdent
  | PathComponent | Turbofish | Const | Static | Struct | StructDefinitionBodyBrace
  | StructDefinitionFieldNamed | StructDefinitionBodyTuple | StructDefinitionFieldUnnamed | Union | Enum
  | EnumVariant | SelfArgumentLonghand | SelfArgumentShorthand | NamedArgument | TraitImplArgumentNamed
  | Where | WhereLifetime | WhereType | TraitBounds | TraitBoundLifetime | TraitBoundNormal
  | TraitBoundRelaxed | Block | UnsafeBlock | AsyncBlock | Parenthetical | MacroCall | Let | Tuple
  | TryOperator | FieldAccess | Number | NumberBinary | NumberDecimal | NumberHexadecimal | NumberOctal
  | Value | StructLiteral | StructLiteralField | Call | ForLoop | Loop | IfLet | While | WhileLet | Unary
  | Binary | If | Match | MatchArm | Range | RangeInclusive | ArrayExplicit | ArrayRepeated | ExpressionBox
  | AsType | Ascription | Character | String | Byte | ByteString | Slice | Closure | ClosureArg | Reference
  | Dereference | Disambiguation | Return | Continue | Break | Pattern | PatternName | PatternIdent
  | PatternStruct | PatternStructFieldLong | PatternStructFieldShort | PatternTuple | PatternSlice
  | PatternSliceSubslice | PatternByte | PatternCharacter | PatternByteString | PatternString
  | PatternNumber | PatternMacroCall | PatternRangeExclusive | PatternRangeInclusive | PatternReference
  | PatternBox | Trait | TraitMemberFunction | TraitMemberType | TraitMemberConst | Impl | ImplOfTrait
  | ImplOfInherent | ImplFunction | ImplType | ImplConst | Crate | ExternBlock | ExternBlockMemberStatic
  | ExternBlockMemberType | ExternBlockMemberFunction | ExternBlockMemberFunctionArgumentNamed
  | ExternBlockMemberFunctionArgumentVariadic | TypeAlias | Module | VisibilityPublic
  | AttributedEnumVariant | AttributedExpression | AttributedExternBlockMember
  | AttributedGenericDeclarationConst | AttributedGenericDeclarationLifetime
  | AttributedGenericDeclarationType | AttributedImplMember | AttributedItem
  | AttributedStructDefinitionFieldNamed | AttributedStructDefinitionFieldUnnamed | AttributedTraitMember
deriving DecidableEq, Repr, Inhabited

/-- The enums of `src/ast.rs` (lines given at `Tag.payload`). -/
inductive En
  | Item | Attribute | AttributeContaining | UseTail | TypeKind | TypePointerKind
  | TypeHigherRankedTraitBoundsChild | TypeAdditional | TypeGenerics | TypeGenericsAngleMember
  | AssociatedTypeValue | TypeFunctionArgument | StructDefinitionBody | EnumVariantBody | Argument
  | SelfArgument | SelfArgumentShorthandQualifier | TraitImplArgument | WhereKind | TraitBound
  | TraitBoundType | Statement | Expression | MacroCallArgs | FieldName | NumberValue | UnaryOp | BinaryOp
  | MatchHand | RangeInclusiveOperator | Array | PatternKind | PatternStructField | PatternTupleMember
  | PatternSliceMember | PatternRangeComponent | TraitMember | ImplKind | ImplOfTraitType | ImplMember
  | ExternBlockMember | ExternBlockMemberFunctionArgument | Visibility | VisibilityPublicQualifier
deriving DecidableEq, Repr, Inhabited

/-- The variants of the enums of `src/ast.rs`, named `Enum_Variant`. -/
inductive Tag
  | Item_AttributeContaining | Item_Const | Item_Enum | Item_ExternCrate | Item_ExternBlock | Item_Function
  | Item_Impl | Item_MacroCall | Item_Module | Item_Static | Item_Struct | Item_Trait | Item_TypeAlias
  | Item_Use | Item_Union | Attribute_DocCommentLine | Attribute_DocCommentBlock | Attribute_Literal
  | AttributeContaining_DocCommentLine | AttributeContaining_DocCommentBlock | AttributeContaining_Literal
  | UseTail_Ident | UseTail_Glob | UseTail_Multi | TypeKind_Array | TypeKind_Disambiguation
  | TypeKind_Function | TypeKind_HigherRankedTraitBounds | TypeKind_DynTrait | TypeKind_ImplTrait
  | TypeKind_Named | TypeKind_Pointer | TypeKind_Reference | TypeKind_Slice | TypeKind_Tuple
  | TypeKind_Uninhabited | TypePointerKind_Const | TypePointerKind_Mutable
  | TypeHigherRankedTraitBoundsChild_Named | TypeHigherRankedTraitBoundsChild_Function
  | TypeHigherRankedTraitBoundsChild_Reference | TypeAdditional_Named | TypeAdditional_Lifetime
  | TypeGenerics_Function | TypeGenerics_Angle | TypeGenericsAngleMember_Lifetime
  | TypeGenericsAngleMember_Type | TypeGenericsAngleMember_AssociatedType | AssociatedTypeValue_Equal
  | AssociatedTypeValue_Bound | TypeFunctionArgument_Named | TypeFunctionArgument_Variadic
  | StructDefinitionBody_Brace | StructDefinitionBody_Tuple | StructDefinitionBody_Empty
  | EnumVariantBody_Tuple | EnumVariantBody_Struct | EnumVariantBody_Unit | Argument_SelfArgument
  | Argument_Named | SelfArgument_Longhand | SelfArgument_Shorthand
  | SelfArgumentShorthandQualifier_Reference | SelfArgumentShorthandQualifier_Mut
  | TraitImplArgument_SelfArgument | TraitImplArgument_Named | WhereKind_Lifetime | WhereKind_Type
  | TraitBound_Lifetime | TraitBound_Normal | TraitBound_Relaxed | TraitBoundType_Named
  | TraitBoundType_HigherRankedTraitBounds | Statement_Expression | Statement_Item | Statement_Empty
  | Expression_Array | Expression_AsType | Expression_Ascription | Expression_AsyncBlock
  | Expression_Binary | Expression_Block | Expression_Box | Expression_Break | Expression_Byte
  | Expression_ByteString | Expression_Call | Expression_Character | Expression_Closure
  | Expression_Continue | Expression_Dereference | Expression_Disambiguation | Expression_FieldAccess
  | Expression_ForLoop | Expression_If | Expression_IfLet | Expression_Let | Expression_Loop
  | Expression_MacroCall | Expression_Match | Expression_Number | Expression_Parenthetical
  | Expression_Range | Expression_RangeInclusive | Expression_Reference | Expression_Return
  | Expression_Slice | Expression_String | Expression_Tuple | Expression_TryOperator | Expression_Unary
  | Expression_UnsafeBlock | Expression_Value | Expression_While | Expression_WhileLet
  | MacroCallArgs_Paren | MacroCallArgs_Curly | MacroCallArgs_Square | FieldName_Path | FieldName_Number
  | NumberValue_Binary | NumberValue_Decimal | NumberValue_Hexadecimal | NumberValue_Octal | UnaryOp_Negate
  | UnaryOp_Not | BinaryOp_Add | BinaryOp_AddAssign | BinaryOp_Assign | BinaryOp_BitwiseAnd
  | BinaryOp_BitwiseAndAssign | BinaryOp_BitwiseOr | BinaryOp_BitwiseOrAssign | BinaryOp_BitwiseXor
  | BinaryOp_BitwiseXorAssign | BinaryOp_BooleanAnd | BinaryOp_BooleanOr | BinaryOp_Div
  | BinaryOp_DivAssign | BinaryOp_Equal | BinaryOp_GreaterThan | BinaryOp_GreaterThanOrEqual
  | BinaryOp_LessThan | BinaryOp_LessThanOrEqual | BinaryOp_Mod | BinaryOp_ModAssign | BinaryOp_Mul
  | BinaryOp_MulAssign | BinaryOp_NotEqual | BinaryOp_ShiftLeft | BinaryOp_ShiftLeftAssign
  | BinaryOp_ShiftRight | BinaryOp_ShiftRightAssign | BinaryOp_Sub | BinaryOp_SubAssign | MatchHand_Brace
  | MatchHand_Expression | RangeInclusiveOperator_Legacy | RangeInclusiveOperator_Recommended
  | Array_Explicit | Array_Repeated | PatternKind_Box | PatternKind_Byte | PatternKind_ByteString
  | PatternKind_Character | PatternKind_Ident | PatternKind_MacroCall | PatternKind_Number
  | PatternKind_RangeExclusive | PatternKind_RangeInclusive | PatternKind_Reference | PatternKind_Slice
  | PatternKind_String | PatternKind_Struct | PatternKind_Tuple | PatternStructField_Long
  | PatternStructField_Short | PatternTupleMember_Pattern | PatternTupleMember_Wildcard
  | PatternSliceMember_Pattern | PatternSliceMember_Subslice | PatternSliceMember_Wildcard
  | PatternRangeComponent_Ident | PatternRangeComponent_Byte | PatternRangeComponent_Character
  | PatternRangeComponent_Number | TraitMember_Const | TraitMember_Function | TraitMember_Type
  | TraitMember_MacroCall | ImplKind_Trait | ImplKind_Inherent | ImplOfTraitType_Type
  | ImplOfTraitType_Wildcard | ImplMember_Const | ImplMember_Function | ImplMember_Type
  | ImplMember_MacroCall | ExternBlockMember_Function | ExternBlockMember_Static | ExternBlockMember_Type
  | ExternBlockMemberFunctionArgument_Named | ExternBlockMemberFunctionArgument_Variadic
  | Visibility_Public | Visibility_Crate | VisibilityPublicQualifier_Crate
  | VisibilityPublicQualifier_SelfIdent | VisibilityPublicQualifier_Path
deriving DecidableEq, Repr, Inhabited

/-- The types of fields.  `Box<T>` is transparent. -/
inductive Ty
  | ext | bool | node (k : K) | enm (n : En) | opt (t : Ty) | vec (t : Ty)
deriving DecidableEq, Repr, Inhabited

/-- A field of a struct: name, type, and whether derived visitors go into it (no `#[visit(ignore)]`). -/
structure Fld where
  name : String
  ty : Ty
  visited : Bool := true
deriving DecidableEq, Repr, Inhabited

/-- The fields of each struct in declaration order, without `extent` and `whitespace`. -/
def K.fields : K → List Fld
  -- `src/ast.rs` 54-58
  | .AttributeLiteral => [⟨"text", .ext, true⟩]
  -- `src/ast.rs` 76-80
  | .AttributeContainingLiteral => [⟨"text", .ext, true⟩]
  -- `src/ast.rs` 90-93
  | .Lifetime => [⟨"name", .node .Ident, true⟩]
  -- `src/ast.rs` 115-120
  | .Use => [⟨"visibility", .opt (.enm .Visibility), true⟩, ⟨"path", .node .UsePath, true⟩]
  -- `src/ast.rs` 131-136
  | .UsePath => [⟨"path", .vec (.node .Ident), true⟩, ⟨"tail", .enm .UseTail, true⟩]
  -- `src/ast.rs` 154-159
  | .UseTailIdent => [⟨"name", .node .Ident, true⟩, ⟨"rename", .opt (.node .Ident), true⟩]
  -- `src/ast.rs` 170-172
  | .UseTailGlob => []
  -- `src/ast.rs` 184-188
  | .UseTailMulti => [⟨"paths", .vec (.node .UsePath), true⟩]
  -- `src/ast.rs` 199-204
  | .Function => [⟨"header", .node .FunctionHeader, true⟩, ⟨"body", .node .Block, true⟩]
  -- `src/ast.rs` 217-227
  | .FunctionHeader => [⟨"visibility", .opt (.enm .Visibility), true⟩, ⟨"qualifiers", .node .FunctionQualifiers, true⟩, ⟨"name", .node .Ident, true⟩, ⟨"generics", .opt (.node .GenericDeclarations), true⟩, ⟨"arguments", .vec (.enm .Argument), true⟩, ⟨"return_type", .opt (.node .Type), true⟩, ⟨"wheres", .vec (.node .Where), true⟩]
  -- `src/ast.rs` 238-249
  | .FunctionQualifiers => [⟨"is_default", .opt (.ext), true⟩, ⟨"is_const", .opt (.ext), true⟩, ⟨"is_unsafe", .opt (.ext), true⟩, ⟨"is_async", .opt (.ext), true⟩, ⟨"is_extern", .opt (.ext), true⟩, ⟨"abi", .opt (.node .String), true⟩]
  -- `src/ast.rs` 260-270
  | .TraitImplFunctionHeader => [⟨"visibility", .opt (.enm .Visibility), true⟩, ⟨"qualifiers", .node .FunctionQualifiers, true⟩, ⟨"name", .node .Ident, true⟩, ⟨"generics", .opt (.node .GenericDeclarations), true⟩, ⟨"arguments", .vec (.enm .TraitImplArgument), true⟩, ⟨"return_type", .opt (.node .Type), true⟩, ⟨"wheres", .vec (.node .Where), true⟩]
  -- `src/ast.rs` 282-288
  | .GenericDeclarations => [⟨"lifetimes", .vec (.node .AttributedGenericDeclarationLifetime), true⟩, ⟨"types", .vec (.node .AttributedGenericDeclarationType), true⟩, ⟨"consts", .vec (.node .AttributedGenericDeclarationConst), true⟩]
  -- `src/ast.rs` 299-304
  | .GenericDeclarationLifetime => [⟨"name", .node .Lifetime, true⟩, ⟨"bounds", .vec (.node .Lifetime), true⟩]
  -- `src/ast.rs` 315-321
  | .GenericDeclarationType => [⟨"name", .node .Ident, true⟩, ⟨"bounds", .opt (.node .TraitBounds), true⟩, ⟨"default", .opt (.node .Type), true⟩]
  -- `src/ast.rs` 332-337
  | .GenericDeclarationConst => [⟨"name", .node .Ident, true⟩, ⟨"typ", .node .Type, true⟩]
  -- `src/ast.rs` 350-355
  | .Type => [⟨"kind", .enm .TypeKind, true⟩, ⟨"additional", .vec (.enm .TypeAdditional), true⟩]
  -- `src/ast.rs` 382-387
  | .TypeReference => [⟨"kind", .node .TypeReferenceKind, true⟩, ⟨"typ", .node .Type, true⟩]
  -- `src/ast.rs` 399-404
  | .TypeReferenceKind => [⟨"lifetime", .opt (.node .Lifetime), true⟩, ⟨"mutable", .opt (.ext), true⟩]
  -- `src/ast.rs` 415-421
  | .TypePointer => [⟨"kind", .enm .TypePointerKind, false⟩, ⟨"typ", .node .Type, true⟩]
  -- `src/ast.rs` 438-443
  | .TypeArray => [⟨"typ", .node .Type, true⟩, ⟨"count", .node .AttributedExpression, true⟩]
  -- `src/ast.rs` 454-459
  | .TypeHigherRankedTraitBounds => [⟨"lifetimes", .vec (.node .Lifetime), true⟩, ⟨"child", .enm .TypeHigherRankedTraitBoundsChild, true⟩]
  -- `src/ast.rs` 477-481
  | .TypeDynTrait => [⟨"name", .node .TypeNamed, true⟩]
  -- `src/ast.rs` 492-496
  | .TypeImplTrait => [⟨"name", .node .TypeNamed, true⟩]
  -- `src/ast.rs` 513-517
  | .TypeNamed => [⟨"path", .vec (.node .TypeNamedComponent), true⟩]
  -- `src/ast.rs` 528-533
  | .TypeNamedComponent => [⟨"ident", .node .Ident, true⟩, ⟨"generics", .opt (.enm .TypeGenerics), true⟩]
  -- `src/ast.rs` 544-550
  | .TypeDisambiguation => [⟨"from_type", .node .Type, true⟩, ⟨"to_type", .opt (.node .TypeNamed), true⟩, ⟨"path", .vec (.node .TypeNamedComponent), true⟩]
  -- `src/ast.rs` 561-565
  | .TypeSlice => [⟨"typ", .node .Type, true⟩]
  -- `src/ast.rs` 576-580
  | .TypeTuple => [⟨"types", .vec (.node .Type), true⟩]
  -- `src/ast.rs` 598-603
  | .TypeGenericsFunction => [⟨"types", .vec (.node .Type), true⟩, ⟨"return_type", .opt (.node .Type), true⟩]
  -- `src/ast.rs` 614-618
  | .TypeGenericsAngle => [⟨"members", .vec (.enm .TypeGenericsAngleMember), true⟩]
  -- `src/ast.rs` 637-642
  | .AssociatedType => [⟨"name", .node .Ident, true⟩, ⟨"value", .enm .AssociatedTypeValue, true⟩]
  -- `src/ast.rs` 659-663
  | .AssociatedTypeValueEqual => [⟨"value", .node .Type, true⟩]
  -- `src/ast.rs` 674-678
  | .AssociatedTypeValueBound => [⟨"bounds", .node .TraitBounds, true⟩]
  -- `src/ast.rs` 689-695
  | .TypeFunction => [⟨"qualifiers", .node .FunctionQualifiers, true⟩, ⟨"arguments", .vec (.enm .TypeFunctionArgument), true⟩, ⟨"return_type", .opt (.node .Type), true⟩]
  -- `src/ast.rs` 712-717
  | .TypeFunctionArgumentNamed => [⟨"name", .opt (.node .Ident), true⟩, ⟨"typ", .node .Type, true⟩]
  -- `src/ast.rs` 728-730
  | .Ident => []
  -- `src/ast.rs` 742-747
  | .Path => [⟨"components", .vec (.node .Ident), true⟩]
  -- `src/ast.rs` 759-763
  | .PathedIdent => [⟨"components", .vec (.node .PathComponent), true⟩]
  -- `src/ast.rs` 791-796
  | .PathComponent => [⟨"ident", .node .Ident, true⟩, ⟨"turbofish", .opt (.node .Turbofish), true⟩]
  -- `src/ast.rs` 807-812
  | .Turbofish => [⟨"lifetimes", .vec (.node .Lifetime), true⟩, ⟨"types", .vec (.node .Type), true⟩]
  -- `src/ast.rs` 822-829
  | .Const => [⟨"visibility", .opt (.enm .Visibility), true⟩, ⟨"name", .node .Ident, true⟩, ⟨"typ", .node .Type, true⟩, ⟨"value", .node .AttributedExpression, true⟩]
  -- `src/ast.rs` 839-847
  | .Static => [⟨"visibility", .opt (.enm .Visibility), true⟩, ⟨"is_mut", .opt (.ext), true⟩, ⟨"name", .node .Ident, true⟩, ⟨"typ", .node .Type, true⟩, ⟨"value", .node .AttributedExpression, true⟩]
  -- `src/ast.rs` 858-866
  | .Struct => [⟨"visibility", .opt (.enm .Visibility), true⟩, ⟨"name", .node .Ident, true⟩, ⟨"generics", .opt (.node .GenericDeclarations), true⟩, ⟨"wheres", .vec (.node .Where), true⟩, ⟨"body", .enm .StructDefinitionBody, true⟩]
  -- `src/ast.rs` 884-888
  | .StructDefinitionBodyBrace => [⟨"fields", .vec (.node .AttributedStructDefinitionFieldNamed), true⟩]
  -- `src/ast.rs` 899-905
  | .StructDefinitionFieldNamed => [⟨"visibility", .opt (.enm .Visibility), true⟩, ⟨"name", .node .Ident, true⟩, ⟨"typ", .node .Type, true⟩]
  -- `src/ast.rs` 916-920
  | .StructDefinitionBodyTuple => [⟨"fields", .vec (.node .AttributedStructDefinitionFieldUnnamed), true⟩]
  -- `src/ast.rs` 931-936
  | .StructDefinitionFieldUnnamed => [⟨"visibility", .opt (.enm .Visibility), true⟩, ⟨"typ", .node .Type, true⟩]
  -- `src/ast.rs` 946-954
  | .Union => [⟨"visibility", .opt (.enm .Visibility), true⟩, ⟨"name", .node .Ident, true⟩, ⟨"generics", .opt (.node .GenericDeclarations), true⟩, ⟨"wheres", .vec (.node .Where), true⟩, ⟨"fields", .vec (.node .AttributedStructDefinitionFieldNamed), true⟩]
  -- `src/ast.rs` 964-972
  | .Enum => [⟨"visibility", .opt (.enm .Visibility), true⟩, ⟨"name", .node .Ident, true⟩, ⟨"generics", .opt (.node .GenericDeclarations), true⟩, ⟨"wheres", .vec (.node .Where), true⟩, ⟨"variants", .vec (.node .AttributedEnumVariant), true⟩]
  -- `src/ast.rs` 983-988
  | .EnumVariant => [⟨"name", .node .Ident, true⟩, ⟨"body", .enm .EnumVariantBody, true⟩]
  -- `src/ast.rs` 1018-1024
  | .SelfArgumentLonghand => [⟨"is_mut", .opt (.ext), true⟩, ⟨"name", .node .Ident, true⟩, ⟨"typ", .node .Type, true⟩]
  -- `src/ast.rs` 1035-1040
  | .SelfArgumentShorthand => [⟨"qualifier", .opt (.enm .SelfArgumentShorthandQualifier), true⟩, ⟨"name", .node .Ident, true⟩]
  -- `src/ast.rs` 1057-1062
  | .NamedArgument => [⟨"name", .node .Pattern, true⟩, ⟨"typ", .node .Type, true⟩]
  -- `src/ast.rs` 1081-1086
  | .TraitImplArgumentNamed => [⟨"name", .opt (.node .Pattern), true⟩, ⟨"typ", .node .Type, true⟩]
  -- `src/ast.rs` 1098-1103
  | .Where => [⟨"higher_ranked_trait_bounds", .vec (.node .Lifetime), true⟩, ⟨"kind", .enm .WhereKind, true⟩]
  -- `src/ast.rs` 1120-1125
  | .WhereLifetime => [⟨"name", .node .Lifetime, true⟩, ⟨"bounds", .vec (.node .Lifetime), true⟩]
  -- `src/ast.rs` 1136-1141
  | .WhereType => [⟨"name", .node .Type, true⟩, ⟨"bounds", .node .TraitBounds, true⟩]
  -- `src/ast.rs` 1152-1156
  | .TraitBounds => [⟨"types", .vec (.enm .TraitBound), true⟩]
  -- `src/ast.rs` 1175-1179
  | .TraitBoundLifetime => [⟨"lifetime", .node .Lifetime, true⟩]
  -- `src/ast.rs` 1191-1195
  | .TraitBoundNormal => [⟨"typ", .enm .TraitBoundType, true⟩]
  -- `src/ast.rs` 1206-1210
  | .TraitBoundRelaxed => [⟨"typ", .enm .TraitBoundType, true⟩]
  -- `src/ast.rs` 1230-1235
  | .Block => [⟨"statements", .vec (.enm .Statement), true⟩, ⟨"expression", .opt (.node .AttributedExpression), true⟩]
  -- `src/ast.rs` 1246-1250
  | .UnsafeBlock => [⟨"body", .node .Block, true⟩]
  -- `src/ast.rs` 1261-1266
  | .AsyncBlock => [⟨"body", .node .Block, true⟩, ⟨"is_move", .opt (.ext), true⟩]
  -- `src/ast.rs` 1277-1281
  | .Parenthetical => [⟨"expression", .node .AttributedExpression, true⟩]
  -- `src/ast.rs` 1436-1442
  | .MacroCall => [⟨"name", .node .PathedIdent, true⟩, ⟨"arg", .opt (.node .Ident), true⟩, ⟨"args", .enm .MacroCallArgs, true⟩]
  -- `src/ast.rs` 1460-1466
  | .Let => [⟨"pattern", .node .Pattern, true⟩, ⟨"typ", .opt (.node .Type), true⟩, ⟨"value", .opt (.node .AttributedExpression), true⟩]
  -- `src/ast.rs` 1477-1481
  | .Tuple => [⟨"members", .vec (.node .AttributedExpression), true⟩]
  -- `src/ast.rs` 1492-1496
  | .TryOperator => [⟨"target", .node .AttributedExpression, true⟩]
  -- `src/ast.rs` 1507-1512
  | .FieldAccess => [⟨"target", .node .AttributedExpression, true⟩, ⟨"field", .enm .FieldName, true⟩]
  -- `src/ast.rs` 1529-1534
  | .Number => [⟨"is_negative", .opt (.ext), true⟩, ⟨"value", .enm .NumberValue, true⟩]
  -- `src/ast.rs` 1553-1559
  | .NumberBinary => [⟨"decimal", .ext, true⟩, ⟨"fraction", .opt (.ext), true⟩, ⟨"exponent", .opt (.ext), true⟩, ⟨"suffix", .opt (.ext), true⟩]
  -- `src/ast.rs` 1570-1576
  | .NumberDecimal => [⟨"decimal", .ext, true⟩, ⟨"fraction", .opt (.ext), true⟩, ⟨"exponent", .opt (.ext), true⟩, ⟨"suffix", .opt (.ext), true⟩]
  -- `src/ast.rs` 1587-1593
  | .NumberHexadecimal => [⟨"decimal", .ext, true⟩, ⟨"fraction", .opt (.ext), true⟩, ⟨"exponent", .opt (.ext), true⟩, ⟨"suffix", .opt (.ext), true⟩]
  -- `src/ast.rs` 1604-1610
  | .NumberOctal => [⟨"decimal", .ext, true⟩, ⟨"fraction", .opt (.ext), true⟩, ⟨"exponent", .opt (.ext), true⟩, ⟨"suffix", .opt (.ext), true⟩]
  -- `src/ast.rs` 1622-1627
  | .Value => [⟨"name", .node .PathedIdent, true⟩, ⟨"literal", .opt (.node .StructLiteral), true⟩]
  -- `src/ast.rs` 1638-1643
  | .StructLiteral => [⟨"fields", .vec (.node .StructLiteralField), true⟩, ⟨"splat", .opt (.node .AttributedExpression), true⟩]
  -- `src/ast.rs` 1654-1659
  | .StructLiteralField => [⟨"name", .node .Ident, true⟩, ⟨"value", .node .AttributedExpression, true⟩]
  -- `src/ast.rs` 1670-1675
  | .Call => [⟨"target", .node .AttributedExpression, true⟩, ⟨"args", .vec (.node .AttributedExpression), true⟩]
  -- `src/ast.rs` 1686-1693
  | .ForLoop => [⟨"label", .opt (.node .Lifetime), true⟩, ⟨"pattern", .node .Pattern, true⟩, ⟨"iter", .node .AttributedExpression, true⟩, ⟨"body", .node .Block, true⟩]
  -- `src/ast.rs` 1704-1709
  | .Loop => [⟨"label", .opt (.node .Lifetime), true⟩, ⟨"body", .node .Block, true⟩]
  -- `src/ast.rs` 1720-1726
  | .IfLet => [⟨"pattern", .node .Pattern, true⟩, ⟨"value", .node .AttributedExpression, true⟩, ⟨"body", .node .Block, true⟩]
  -- `src/ast.rs` 1737-1743
  | .While => [⟨"label", .opt (.node .Lifetime), true⟩, ⟨"value", .node .AttributedExpression, true⟩, ⟨"body", .node .Block, true⟩]
  -- `src/ast.rs` 1754-1761
  | .WhileLet => [⟨"label", .opt (.node .Lifetime), true⟩, ⟨"pattern", .node .Pattern, true⟩, ⟨"value", .node .AttributedExpression, true⟩, ⟨"body", .node .Block, true⟩]
  -- `src/ast.rs` 1773-1779
  | .Unary => [⟨"op", .enm .UnaryOp, false⟩, ⟨"value", .node .AttributedExpression, true⟩]
  -- `src/ast.rs` 1796-1803
  | .Binary => [⟨"op", .enm .BinaryOp, false⟩, ⟨"lhs", .node .AttributedExpression, true⟩, ⟨"rhs", .node .AttributedExpression, true⟩]
  -- `src/ast.rs` 1847-1854
  | .If => [⟨"condition", .node .AttributedExpression, true⟩, ⟨"body", .node .Block, true⟩, ⟨"more", .vec (.node .If), true⟩, ⟨"else_body", .opt (.node .Block), true⟩]
  -- `src/ast.rs` 1865-1870
  | .Match => [⟨"head", .node .AttributedExpression, true⟩, ⟨"arms", .vec (.node .MatchArm), true⟩]
  -- `src/ast.rs` 1881-1888
  | .MatchArm => [⟨"attributes", .vec (.enm .Attribute), true⟩, ⟨"pattern", .vec (.node .Pattern), true⟩, ⟨"guard", .opt (.node .AttributedExpression), true⟩, ⟨"hand", .enm .MatchHand, true⟩]
  -- `src/ast.rs` 1906-1911
  | .Range => [⟨"lhs", .opt (.node .AttributedExpression), true⟩, ⟨"rhs", .opt (.node .AttributedExpression), true⟩]
  -- `src/ast.rs` 1922-1929
  | .RangeInclusive => [⟨"lhs", .opt (.node .AttributedExpression), true⟩, ⟨"operator", .enm .RangeInclusiveOperator, false⟩, ⟨"rhs", .opt (.node .AttributedExpression), true⟩]
  -- `src/ast.rs` 1952-1956
  | .ArrayExplicit => [⟨"values", .vec (.node .AttributedExpression), true⟩]
  -- `src/ast.rs` 1967-1972
  | .ArrayRepeated => [⟨"value", .node .AttributedExpression, true⟩, ⟨"count", .node .AttributedExpression, true⟩]
  -- `src/ast.rs` 1984-1988
  | .ExpressionBox => [⟨"target", .node .AttributedExpression, true⟩]
  -- `src/ast.rs` 1999-2004
  | .AsType => [⟨"target", .node .AttributedExpression, true⟩, ⟨"typ", .node .Type, true⟩]
  -- `src/ast.rs` 2015-2020
  | .Ascription => [⟨"target", .node .AttributedExpression, true⟩, ⟨"typ", .node .Type, true⟩]
  -- `src/ast.rs` 2031-2034
  | .Character => [⟨"value", .ext, true⟩]
  -- `src/ast.rs` 2045-2048
  | .String => [⟨"value", .ext, true⟩]
  -- `src/ast.rs` 2059-2062
  | .Byte => [⟨"value", .node .Character, true⟩]
  -- `src/ast.rs` 2073-2076
  | .ByteString => [⟨"value", .node .String, true⟩]
  -- `src/ast.rs` 2088-2093
  | .Slice => [⟨"target", .node .AttributedExpression, true⟩, ⟨"index", .node .AttributedExpression, true⟩]
  -- `src/ast.rs` 2104-2112
  | .Closure => [⟨"is_async", .opt (.ext), true⟩, ⟨"is_move", .opt (.ext), true⟩, ⟨"args", .vec (.node .ClosureArg), true⟩, ⟨"return_type", .opt (.node .Type), true⟩, ⟨"body", .node .AttributedExpression, true⟩]
  -- `src/ast.rs` 2123-2128
  | .ClosureArg => [⟨"name", .node .Pattern, true⟩, ⟨"typ", .opt (.node .Type), true⟩]
  -- `src/ast.rs` 2139-2144
  | .Reference => [⟨"is_mutable", .opt (.ext), true⟩, ⟨"target", .node .AttributedExpression, true⟩]
  -- `src/ast.rs` 2155-2159
  | .Dereference => [⟨"target", .node .AttributedExpression, true⟩]
  -- `src/ast.rs` 2170-2176
  | .Disambiguation => [⟨"from_type", .node .Type, true⟩, ⟨"to_type", .opt (.node .TypeNamed), true⟩, ⟨"components", .vec (.node .PathComponent), true⟩]
  -- `src/ast.rs` 2187-2191
  | .Return => [⟨"value", .opt (.node .AttributedExpression), true⟩]
  -- `src/ast.rs` 2202-2206
  | .Continue => [⟨"label", .opt (.node .Lifetime), true⟩]
  -- `src/ast.rs` 2217-2222
  | .Break => [⟨"label", .opt (.node .Lifetime), true⟩, ⟨"value", .opt (.node .AttributedExpression), true⟩]
  -- `src/ast.rs` 2233-2238
  | .Pattern => [⟨"name", .opt (.node .PatternName), true⟩, ⟨"kind", .enm .PatternKind, true⟩]
  -- `src/ast.rs` 2250-2256
  | .PatternName => [⟨"is_ref", .opt (.ext), true⟩, ⟨"is_mut", .opt (.ext), true⟩, ⟨"name", .node .Ident, true⟩]
  -- `src/ast.rs` 2285-2292
  | .PatternIdent => [⟨"is_ref", .opt (.ext), true⟩, ⟨"is_mut", .opt (.ext), true⟩, ⟨"ident", .node .PathedIdent, true⟩, ⟨"tuple", .opt (.node .PatternTuple), true⟩]
  -- `src/ast.rs` 2303-2310
  | .PatternStruct => [⟨"name", .node .PathedIdent, true⟩, ⟨"fields", .vec (.enm .PatternStructField), true⟩, ⟨"wildcard", .bool, false⟩]
  -- `src/ast.rs` 2327-2332
  | .PatternStructFieldLong => [⟨"name", .node .Ident, true⟩, ⟨"pattern", .node .Pattern, true⟩]
  -- `src/ast.rs` 2343-2347
  | .PatternStructFieldShort => [⟨"ident", .node .PatternIdent, true⟩]
  -- `src/ast.rs` 2358-2362
  | .PatternTuple => [⟨"members", .vec (.enm .PatternTupleMember), true⟩]
  -- `src/ast.rs` 2379-2383
  | .PatternSlice => [⟨"members", .vec (.enm .PatternSliceMember), true⟩]
  -- `src/ast.rs` 2401-2407
  | .PatternSliceSubslice => [⟨"is_ref", .opt (.ext), true⟩, ⟨"is_mut", .opt (.ext), true⟩, ⟨"name", .node .Ident, true⟩]
  -- `src/ast.rs` 2418-2421
  | .PatternByte => [⟨"value", .node .Byte, true⟩]
  -- `src/ast.rs` 2432-2435
  | .PatternCharacter => [⟨"value", .node .Character, true⟩]
  -- `src/ast.rs` 2446-2449
  | .PatternByteString => [⟨"value", .node .ByteString, true⟩]
  -- `src/ast.rs` 2460-2463
  | .PatternString => [⟨"value", .node .String, true⟩]
  -- `src/ast.rs` 2473-2478
  | .PatternNumber => [⟨"is_negative", .opt (.ext), true⟩, ⟨"value", .node .Number, true⟩]
  -- `src/ast.rs` 2489-2493
  | .PatternMacroCall => [⟨"value", .node .MacroCall, true⟩]
  -- `src/ast.rs` 2504-2509
  | .PatternRangeExclusive => [⟨"start", .enm .PatternRangeComponent, true⟩, ⟨"end", .enm .PatternRangeComponent, true⟩]
  -- `src/ast.rs` 2520-2527
  | .PatternRangeInclusive => [⟨"start", .enm .PatternRangeComponent, true⟩, ⟨"operator", .enm .RangeInclusiveOperator, false⟩, ⟨"end", .enm .PatternRangeComponent, true⟩]
  -- `src/ast.rs` 2546-2551
  | .PatternReference => [⟨"is_mut", .opt (.ext), true⟩, ⟨"pattern", .node .Pattern, true⟩]
  -- `src/ast.rs` 2562-2566
  | .PatternBox => [⟨"pattern", .node .Pattern, true⟩]
  -- `src/ast.rs` 2576-2587
  | .Trait => [⟨"visibility", .opt (.enm .Visibility), true⟩, ⟨"is_unsafe", .opt (.ext), true⟩, ⟨"is_auto", .opt (.ext), true⟩, ⟨"name", .node .Ident, true⟩, ⟨"generics", .opt (.node .GenericDeclarations), true⟩, ⟨"bounds", .opt (.node .TraitBounds), true⟩, ⟨"wheres", .vec (.node .Where), true⟩, ⟨"members", .vec (.node .AttributedTraitMember), true⟩]
  -- `src/ast.rs` 2606-2611
  | .TraitMemberFunction => [⟨"header", .node .TraitImplFunctionHeader, true⟩, ⟨"body", .opt (.node .Block), true⟩]
  -- `src/ast.rs` 2622-2628
  | .TraitMemberType => [⟨"name", .node .Ident, true⟩, ⟨"bounds", .opt (.node .TraitBounds), true⟩, ⟨"default", .opt (.node .Type), true⟩]
  -- `src/ast.rs` 2639-2645
  | .TraitMemberConst => [⟨"name", .node .Ident, true⟩, ⟨"typ", .node .Type, true⟩, ⟨"value", .opt (.node .AttributedExpression), true⟩]
  -- `src/ast.rs` 2655-2663
  | .Impl => [⟨"is_unsafe", .opt (.ext), true⟩, ⟨"generics", .opt (.node .GenericDeclarations), true⟩, ⟨"kind", .enm .ImplKind, true⟩, ⟨"wheres", .vec (.node .Where), true⟩, ⟨"body", .vec (.node .AttributedImplMember), true⟩]
  -- `src/ast.rs` 2680-2686
  | .ImplOfTrait => [⟨"is_negative", .opt (.ext), true⟩, ⟨"trait_name", .node .Type, true⟩, ⟨"type_name", .enm .ImplOfTraitType, true⟩]
  -- `src/ast.rs` 2697-2701
  | .ImplOfInherent => [⟨"type_name", .node .Type, true⟩]
  -- `src/ast.rs` 2726-2731
  | .ImplFunction => [⟨"header", .node .FunctionHeader, true⟩, ⟨"body", .node .Block, true⟩]
  -- `src/ast.rs` 2742-2747
  | .ImplType => [⟨"name", .node .Ident, true⟩, ⟨"typ", .node .Type, true⟩]
  -- `src/ast.rs` 2758-2765
  | .ImplConst => [⟨"visibility", .opt (.enm .Visibility), true⟩, ⟨"name", .node .Ident, true⟩, ⟨"typ", .node .Type, true⟩, ⟨"value", .node .AttributedExpression, true⟩]
  -- `src/ast.rs` 2775-2781
  | .Crate => [⟨"visibility", .opt (.enm .Visibility), true⟩, ⟨"name", .node .Ident, true⟩, ⟨"rename", .opt (.node .Ident), true⟩]
  -- `src/ast.rs` 2791-2796
  | .ExternBlock => [⟨"abi", .opt (.node .String), true⟩, ⟨"members", .vec (.node .AttributedExternBlockMember), true⟩]
  -- `src/ast.rs` 2814-2821
  | .ExternBlockMemberStatic => [⟨"visibility", .opt (.enm .Visibility), true⟩, ⟨"is_mut", .opt (.ext), true⟩, ⟨"name", .node .Ident, true⟩, ⟨"typ", .node .Type, true⟩]
  -- `src/ast.rs` 2832-2837
  | .ExternBlockMemberType => [⟨"visibility", .opt (.enm .Visibility), true⟩, ⟨"name", .node .Ident, true⟩]
  -- `src/ast.rs` 2848-2857
  | .ExternBlockMemberFunction => [⟨"visibility", .opt (.enm .Visibility), true⟩, ⟨"name", .node .Ident, true⟩, ⟨"generics", .opt (.node .GenericDeclarations), true⟩, ⟨"arguments", .vec (.enm .ExternBlockMemberFunctionArgument), true⟩, ⟨"return_type", .opt (.node .Type), true⟩, ⟨"wheres", .vec (.node .Where), true⟩]
  -- `src/ast.rs` 2874-2879
  | .ExternBlockMemberFunctionArgumentNamed => [⟨"name", .node .Pattern, true⟩, ⟨"typ", .node .Type, true⟩]
  -- `src/ast.rs` 2890-2892
  | .ExternBlockMemberFunctionArgumentVariadic => []
  -- `src/ast.rs` 2902-2910
  | .TypeAlias => [⟨"visibility", .opt (.enm .Visibility), true⟩, ⟨"name", .node .Ident, true⟩, ⟨"generics", .opt (.node .GenericDeclarations), true⟩, ⟨"wheres", .vec (.node .Where), true⟩, ⟨"defn", .node .Type, true⟩]
  -- `src/ast.rs` 2920-2926
  | .Module => [⟨"visibility", .opt (.enm .Visibility), true⟩, ⟨"name", .node .Ident, true⟩, ⟨"body", .opt (.vec (.node .AttributedItem)), true⟩]
  -- `src/ast.rs` 2943-2948
  | .VisibilityPublic => [⟨"qualifier", .opt (.enm .VisibilityPublicQualifier), false⟩]
  -- `src/ast.rs` 1298-1303
  | .AttributedEnumVariant => [⟨"attributes", .vec (.enm .Attribute), true⟩, ⟨"value", .node .EnumVariant, true⟩]
  -- `src/ast.rs` 1298-1303
  | .AttributedExpression => [⟨"attributes", .vec (.enm .Attribute), true⟩, ⟨"value", .enm .Expression, true⟩]
  -- `src/ast.rs` 1298-1303
  | .AttributedExternBlockMember => [⟨"attributes", .vec (.enm .Attribute), true⟩, ⟨"value", .enm .ExternBlockMember, true⟩]
  -- `src/ast.rs` 1298-1303
  | .AttributedGenericDeclarationConst => [⟨"attributes", .vec (.enm .Attribute), true⟩, ⟨"value", .node .GenericDeclarationConst, true⟩]
  -- `src/ast.rs` 1298-1303
  | .AttributedGenericDeclarationLifetime => [⟨"attributes", .vec (.enm .Attribute), true⟩, ⟨"value", .node .GenericDeclarationLifetime, true⟩]
  -- `src/ast.rs` 1298-1303
  | .AttributedGenericDeclarationType => [⟨"attributes", .vec (.enm .Attribute), true⟩, ⟨"value", .node .GenericDeclarationType, true⟩]
  -- `src/ast.rs` 1298-1303
  | .AttributedImplMember => [⟨"attributes", .vec (.enm .Attribute), true⟩, ⟨"value", .enm .ImplMember, true⟩]
  -- `src/ast.rs` 1298-1303
  | .AttributedItem => [⟨"attributes", .vec (.enm .Attribute), true⟩, ⟨"value", .enm .Item, true⟩]
  -- `src/ast.rs` 1298-1303
  | .AttributedStructDefinitionFieldNamed => [⟨"attributes", .vec (.enm .Attribute), true⟩, ⟨"value", .node .StructDefinitionFieldNamed, true⟩]
  -- `src/ast.rs` 1298-1303
  | .AttributedStructDefinitionFieldUnnamed => [⟨"attributes", .vec (.enm .Attribute), true⟩, ⟨"value", .node .StructDefinitionFieldUnnamed, true⟩]
  -- `src/ast.rs` 1298-1303
  | .AttributedTraitMember => [⟨"attributes", .vec (.enm .Attribute), true⟩, ⟨"value", .enm .TraitMember, true⟩]

/-- Does the struct have a field `whitespace: Vec<Whitespace>`?  The structs without one are listed. -/
def K.hasWs : K → Bool
  | .Lifetime
  | .UseTailGlob
  | .Ident
  | .NumberBinary
  | .NumberDecimal
  | .NumberHexadecimal
  | .NumberOctal
  | .Character
  | .String
  | .Byte
  | .ByteString
  | .PatternByte
  | .PatternCharacter
  | .PatternByteString
  | .PatternString
  | .ExternBlockMemberFunctionArgumentVariadic => false
  | _ => true

/-- The enum a variant belongs to. -/
def Tag.en : Tag → En
  | .Item_AttributeContaining | .Item_Const | .Item_Enum | .Item_ExternCrate | .Item_ExternBlock | .Item_Function | .Item_Impl | .Item_MacroCall | .Item_Module | .Item_Static | .Item_Struct | .Item_Trait | .Item_TypeAlias | .Item_Use | .Item_Union => .Item
  | .Attribute_DocCommentLine | .Attribute_DocCommentBlock | .Attribute_Literal => .Attribute
  | .AttributeContaining_DocCommentLine | .AttributeContaining_DocCommentBlock | .AttributeContaining_Literal => .AttributeContaining
  | .UseTail_Ident | .UseTail_Glob | .UseTail_Multi => .UseTail
  | .TypeKind_Array | .TypeKind_Disambiguation | .TypeKind_Function | .TypeKind_HigherRankedTraitBounds | .TypeKind_DynTrait | .TypeKind_ImplTrait | .TypeKind_Named | .TypeKind_Pointer | .TypeKind_Reference | .TypeKind_Slice | .TypeKind_Tuple | .TypeKind_Uninhabited => .TypeKind
  | .TypePointerKind_Const | .TypePointerKind_Mutable => .TypePointerKind
  | .TypeHigherRankedTraitBoundsChild_Named | .TypeHigherRankedTraitBoundsChild_Function | .TypeHigherRankedTraitBoundsChild_Reference => .TypeHigherRankedTraitBoundsChild
  | .TypeAdditional_Named | .TypeAdditional_Lifetime => .TypeAdditional
  | .TypeGenerics_Function | .TypeGenerics_Angle => .TypeGenerics
  | .TypeGenericsAngleMember_Lifetime | .TypeGenericsAngleMember_Type | .TypeGenericsAngleMember_AssociatedType => .TypeGenericsAngleMember
  | .AssociatedTypeValue_Equal | .AssociatedTypeValue_Bound => .AssociatedTypeValue
  | .TypeFunctionArgument_Named | .TypeFunctionArgument_Variadic => .TypeFunctionArgument
  | .StructDefinitionBody_Brace | .StructDefinitionBody_Tuple | .StructDefinitionBody_Empty => .StructDefinitionBody
  | .EnumVariantBody_Tuple | .EnumVariantBody_Struct | .EnumVariantBody_Unit => .EnumVariantBody
  | .Argument_SelfArgument | .Argument_Named => .Argument
  | .SelfArgument_Longhand | .SelfArgument_Shorthand => .SelfArgument
  | .SelfArgumentShorthandQualifier_Reference | .SelfArgumentShorthandQualifier_Mut => .SelfArgumentShorthandQualifier
  | .TraitImplArgument_SelfArgument | .TraitImplArgument_Named => .TraitImplArgument
  | .WhereKind_Lifetime | .WhereKind_Type => .WhereKind
  | .TraitBound_Lifetime | .TraitBound_Normal | .TraitBound_Relaxed => .TraitBound
  | .TraitBoundType_Named | .TraitBoundType_HigherRankedTraitBounds => .TraitBoundType
  | .Statement_Expression | .Statement_Item | .Statement_Empty => .Statement
  | .Expression_Array | .Expression_AsType | .Expression_Ascription | .Expression_AsyncBlock | .Expression_Binary | .Expression_Block | .Expression_Box | .Expression_Break | .Expression_Byte | .Expression_ByteString | .Expression_Call | .Expression_Character | .Expression_Closure | .Expression_Continue | .Expression_Dereference | .Expression_Disambiguation | .Expression_FieldAccess | .Expression_ForLoop | .Expression_If | .Expression_IfLet | .Expression_Let | .Expression_Loop | .Expression_MacroCall | .Expression_Match | .Expression_Number | .Expression_Parenthetical | .Expression_Range | .Expression_RangeInclusive | .Expression_Reference | .Expression_Return | .Expression_Slice | .Expression_String | .Expression_Tuple | .Expression_TryOperator | .Expression_Unary | .Expression_UnsafeBlock | .Expression_Value | .Expression_While | .Expression_WhileLet => .Expression
  | .MacroCallArgs_Paren | .MacroCallArgs_Curly | .MacroCallArgs_Square => .MacroCallArgs
  | .FieldName_Path | .FieldName_Number => .FieldName
  | .NumberValue_Binary | .NumberValue_Decimal | .NumberValue_Hexadecimal | .NumberValue_Octal => .NumberValue
  | .UnaryOp_Negate | .UnaryOp_Not => .UnaryOp
  | .BinaryOp_Add | .BinaryOp_AddAssign | .BinaryOp_Assign | .BinaryOp_BitwiseAnd | .BinaryOp_BitwiseAndAssign | .BinaryOp_BitwiseOr | .BinaryOp_BitwiseOrAssign | .BinaryOp_BitwiseXor | .BinaryOp_BitwiseXorAssign | .BinaryOp_BooleanAnd | .BinaryOp_BooleanOr | .BinaryOp_Div | .BinaryOp_DivAssign | .BinaryOp_Equal | .BinaryOp_GreaterThan | .BinaryOp_GreaterThanOrEqual | .BinaryOp_LessThan | .BinaryOp_LessThanOrEqual | .BinaryOp_Mod | .BinaryOp_ModAssign | .BinaryOp_Mul | .BinaryOp_MulAssign | .BinaryOp_NotEqual | .BinaryOp_ShiftLeft | .BinaryOp_ShiftLeftAssign | .BinaryOp_ShiftRight | .BinaryOp_ShiftRightAssign | .BinaryOp_Sub | .BinaryOp_SubAssign => .BinaryOp
  | .MatchHand_Brace | .MatchHand_Expression => .MatchHand
  | .RangeInclusiveOperator_Legacy | .RangeInclusiveOperator_Recommended => .RangeInclusiveOperator
  | .Array_Explicit | .Array_Repeated => .Array
  | .PatternKind_Box | .PatternKind_Byte | .PatternKind_ByteString | .PatternKind_Character | .PatternKind_Ident | .PatternKind_MacroCall | .PatternKind_Number | .PatternKind_RangeExclusive | .PatternKind_RangeInclusive | .PatternKind_Reference | .PatternKind_Slice | .PatternKind_String | .PatternKind_Struct | .PatternKind_Tuple => .PatternKind
  | .PatternStructField_Long | .PatternStructField_Short => .PatternStructField
  | .PatternTupleMember_Pattern | .PatternTupleMember_Wildcard => .PatternTupleMember
  | .PatternSliceMember_Pattern | .PatternSliceMember_Subslice | .PatternSliceMember_Wildcard => .PatternSliceMember
  | .PatternRangeComponent_Ident | .PatternRangeComponent_Byte | .PatternRangeComponent_Character | .PatternRangeComponent_Number => .PatternRangeComponent
  | .TraitMember_Const | .TraitMember_Function | .TraitMember_Type | .TraitMember_MacroCall => .TraitMember
  | .ImplKind_Trait | .ImplKind_Inherent => .ImplKind
  | .ImplOfTraitType_Type | .ImplOfTraitType_Wildcard => .ImplOfTraitType
  | .ImplMember_Const | .ImplMember_Function | .ImplMember_Type | .ImplMember_MacroCall => .ImplMember
  | .ExternBlockMember_Function | .ExternBlockMember_Static | .ExternBlockMember_Type => .ExternBlockMember
  | .ExternBlockMemberFunctionArgument_Named | .ExternBlockMemberFunctionArgument_Variadic => .ExternBlockMemberFunctionArgument
  | .Visibility_Public | .Visibility_Crate => .Visibility
  | .VisibilityPublicQualifier_Crate | .VisibilityPublicQualifier_SelfIdent | .VisibilityPublicQualifier_Path => .VisibilityPublicQualifier

/-- The payload types of each variant. -/
def Tag.payload : Tag → List Ty
  -- `src/ast.rs` 20-36
  | .Item_AttributeContaining => [.enm .AttributeContaining]
  | .Item_Const => [.node .Const]
  | .Item_Enum => [.node .Enum]
  | .Item_ExternCrate => [.node .Crate]
  | .Item_ExternBlock => [.node .ExternBlock]
  | .Item_Function => [.node .Function]
  | .Item_Impl => [.node .Impl]
  | .Item_MacroCall => [.node .MacroCall]
  | .Item_Module => [.node .Module]
  | .Item_Static => [.node .Static]
  | .Item_Struct => [.node .Struct]
  | .Item_Trait => [.node .Trait]
  | .Item_TypeAlias => [.node .TypeAlias]
  | .Item_Use => [.node .Use]
  | .Item_Union => [.node .Union]
  -- `src/ast.rs` 40-44
  | .Attribute_DocCommentLine => [.ext]
  | .Attribute_DocCommentBlock => [.ext]
  | .Attribute_Literal => [.node .AttributeLiteral]
  -- `src/ast.rs` 62-66
  | .AttributeContaining_DocCommentLine => [.ext]
  | .AttributeContaining_DocCommentBlock => [.ext]
  | .AttributeContaining_Literal => [.node .AttributeContainingLiteral]
  -- `src/ast.rs` 139-143
  | .UseTail_Ident => [.node .UseTailIdent]
  | .UseTail_Glob => [.node .UseTailGlob]
  | .UseTail_Multi => [.node .UseTailMulti]
  -- `src/ast.rs` 358-371
  | .TypeKind_Array => [.node .TypeArray]
  | .TypeKind_Disambiguation => [.node .TypeDisambiguation]
  | .TypeKind_Function => [.node .TypeFunction]
  | .TypeKind_HigherRankedTraitBounds => [.node .TypeHigherRankedTraitBounds]
  | .TypeKind_DynTrait => [.node .TypeDynTrait]
  | .TypeKind_ImplTrait => [.node .TypeImplTrait]
  | .TypeKind_Named => [.node .TypeNamed]
  | .TypeKind_Pointer => [.node .TypePointer]
  | .TypeKind_Reference => [.node .TypeReference]
  | .TypeKind_Slice => [.node .TypeSlice]
  | .TypeKind_Tuple => [.node .TypeTuple]
  | .TypeKind_Uninhabited => [.ext]
  -- `src/ast.rs` 424-427
  | .TypePointerKind_Const => []
  | .TypePointerKind_Mutable => []
  -- `src/ast.rs` 462-466
  | .TypeHigherRankedTraitBoundsChild_Named => [.node .TypeNamed]
  | .TypeHigherRankedTraitBoundsChild_Function => [.node .TypeFunction]
  | .TypeHigherRankedTraitBoundsChild_Reference => [.node .TypeReference]
  -- `src/ast.rs` 499-502
  | .TypeAdditional_Named => [.node .TypeNamed]
  | .TypeAdditional_Lifetime => [.node .Lifetime]
  -- `src/ast.rs` 583-586
  | .TypeGenerics_Function => [.node .TypeGenericsFunction]
  | .TypeGenerics_Angle => [.node .TypeGenericsAngle]
  -- `src/ast.rs` 621-625
  | .TypeGenericsAngleMember_Lifetime => [.node .Lifetime]
  | .TypeGenericsAngleMember_Type => [.node .Type]
  | .TypeGenericsAngleMember_AssociatedType => [.node .AssociatedType]
  -- `src/ast.rs` 645-648
  | .AssociatedTypeValue_Equal => [.node .AssociatedTypeValueEqual]
  | .AssociatedTypeValue_Bound => [.node .AssociatedTypeValueBound]
  -- `src/ast.rs` 698-701
  | .TypeFunctionArgument_Named => [.node .TypeFunctionArgumentNamed]
  | .TypeFunctionArgument_Variadic => [.ext]
  -- `src/ast.rs` 869-873
  | .StructDefinitionBody_Brace => [.node .StructDefinitionBodyBrace]
  | .StructDefinitionBody_Tuple => [.node .StructDefinitionBodyTuple]
  | .StructDefinitionBody_Empty => [.ext]
  -- `src/ast.rs` 991-995
  | .EnumVariantBody_Tuple => [.vec (.node .AttributedStructDefinitionFieldUnnamed)]
  | .EnumVariantBody_Struct => [.node .StructDefinitionBodyBrace]
  | .EnumVariantBody_Unit => [.opt (.node .AttributedExpression)]
  -- `src/ast.rs` 998-1001
  | .Argument_SelfArgument => [.enm .SelfArgument]
  | .Argument_Named => [.node .NamedArgument]
  -- `src/ast.rs` 1004-1007
  | .SelfArgument_Longhand => [.node .SelfArgumentLonghand]
  | .SelfArgument_Shorthand => [.node .SelfArgumentShorthand]
  -- `src/ast.rs` 1043-1046
  | .SelfArgumentShorthandQualifier_Reference => [.node .TypeReferenceKind]
  | .SelfArgumentShorthandQualifier_Mut => [.ext]
  -- `src/ast.rs` 1065-1068
  | .TraitImplArgument_SelfArgument => [.enm .SelfArgument]
  | .TraitImplArgument_Named => [.node .TraitImplArgumentNamed]
  -- `src/ast.rs` 1106-1109
  | .WhereKind_Lifetime => [.node .WhereLifetime]
  | .WhereKind_Type => [.node .WhereType]
  -- `src/ast.rs` 1159-1163
  | .TraitBound_Lifetime => [.node .TraitBoundLifetime]
  | .TraitBound_Normal => [.node .TraitBoundNormal]
  | .TraitBound_Relaxed => [.node .TraitBoundRelaxed]
  -- `src/ast.rs` 1213-1218
  | .TraitBoundType_Named => [.node .TypeNamed]
  | .TraitBoundType_HigherRankedTraitBounds => [.node .TypeHigherRankedTraitBounds]
  -- `src/ast.rs` 1284-1288
  | .Statement_Expression => [.node .AttributedExpression]
  | .Statement_Item => [.node .AttributedItem]
  | .Statement_Empty => [.ext]
  -- `src/ast.rs` 1367-1407
  | .Expression_Array => [.enm .Array]
  | .Expression_AsType => [.node .AsType]
  | .Expression_Ascription => [.node .Ascription]
  | .Expression_AsyncBlock => [.node .AsyncBlock]
  | .Expression_Binary => [.node .Binary]
  | .Expression_Block => [.node .Block]
  | .Expression_Box => [.node .ExpressionBox]
  | .Expression_Break => [.node .Break]
  | .Expression_Byte => [.node .Byte]
  | .Expression_ByteString => [.node .ByteString]
  | .Expression_Call => [.node .Call]
  | .Expression_Character => [.node .Character]
  | .Expression_Closure => [.node .Closure]
  | .Expression_Continue => [.node .Continue]
  | .Expression_Dereference => [.node .Dereference]
  | .Expression_Disambiguation => [.node .Disambiguation]
  | .Expression_FieldAccess => [.node .FieldAccess]
  | .Expression_ForLoop => [.node .ForLoop]
  | .Expression_If => [.node .If]
  | .Expression_IfLet => [.node .IfLet]
  | .Expression_Let => [.node .Let]
  | .Expression_Loop => [.node .Loop]
  | .Expression_MacroCall => [.node .MacroCall]
  | .Expression_Match => [.node .Match]
  | .Expression_Number => [.node .Number]
  | .Expression_Parenthetical => [.node .Parenthetical]
  | .Expression_Range => [.node .Range]
  | .Expression_RangeInclusive => [.node .RangeInclusive]
  | .Expression_Reference => [.node .Reference]
  | .Expression_Return => [.node .Return]
  | .Expression_Slice => [.node .Slice]
  | .Expression_String => [.node .String]
  | .Expression_Tuple => [.node .Tuple]
  | .Expression_TryOperator => [.node .TryOperator]
  | .Expression_Unary => [.node .Unary]
  | .Expression_UnsafeBlock => [.node .UnsafeBlock]
  | .Expression_Value => [.node .Value]
  | .Expression_While => [.node .While]
  | .Expression_WhileLet => [.node .WhileLet]
  -- `src/ast.rs` 1445-1449
  | .MacroCallArgs_Paren => [.ext]
  | .MacroCallArgs_Curly => [.ext]
  | .MacroCallArgs_Square => [.ext]
  -- `src/ast.rs` 1515-1518
  | .FieldName_Path => [.node .PathComponent]
  | .FieldName_Number => [.ext]
  -- `src/ast.rs` 1537-1542
  | .NumberValue_Binary => [.node .NumberBinary]
  | .NumberValue_Decimal => [.node .NumberDecimal]
  | .NumberValue_Hexadecimal => [.node .NumberHexadecimal]
  | .NumberValue_Octal => [.node .NumberOctal]
  -- `src/ast.rs` 1782-1785
  | .UnaryOp_Negate => []
  | .UnaryOp_Not => []
  -- `src/ast.rs` 1806-1836
  | .BinaryOp_Add => []
  | .BinaryOp_AddAssign => []
  | .BinaryOp_Assign => []
  | .BinaryOp_BitwiseAnd => []
  | .BinaryOp_BitwiseAndAssign => []
  | .BinaryOp_BitwiseOr => []
  | .BinaryOp_BitwiseOrAssign => []
  | .BinaryOp_BitwiseXor => []
  | .BinaryOp_BitwiseXorAssign => []
  | .BinaryOp_BooleanAnd => []
  | .BinaryOp_BooleanOr => []
  | .BinaryOp_Div => []
  | .BinaryOp_DivAssign => []
  | .BinaryOp_Equal => []
  | .BinaryOp_GreaterThan => []
  | .BinaryOp_GreaterThanOrEqual => []
  | .BinaryOp_LessThan => []
  | .BinaryOp_LessThanOrEqual => []
  | .BinaryOp_Mod => []
  | .BinaryOp_ModAssign => []
  | .BinaryOp_Mul => []
  | .BinaryOp_MulAssign => []
  | .BinaryOp_NotEqual => []
  | .BinaryOp_ShiftLeft => []
  | .BinaryOp_ShiftLeftAssign => []
  | .BinaryOp_ShiftRight => []
  | .BinaryOp_ShiftRightAssign => []
  | .BinaryOp_Sub => []
  | .BinaryOp_SubAssign => []
  -- `src/ast.rs` 1891-1894
  | .MatchHand_Brace => [.node .AttributedExpression]
  | .MatchHand_Expression => [.node .AttributedExpression]
  -- `src/ast.rs` 1932-1935
  | .RangeInclusiveOperator_Legacy => [.ext]
  | .RangeInclusiveOperator_Recommended => [.ext]
  -- `src/ast.rs` 1938-1941
  | .Array_Explicit => [.node .ArrayExplicit]
  | .Array_Repeated => [.node .ArrayRepeated]
  -- `src/ast.rs` 2259-2274
  | .PatternKind_Box => [.node .PatternBox]
  | .PatternKind_Byte => [.node .PatternByte]
  | .PatternKind_ByteString => [.node .PatternByteString]
  | .PatternKind_Character => [.node .PatternCharacter]
  | .PatternKind_Ident => [.node .PatternIdent]
  | .PatternKind_MacroCall => [.node .PatternMacroCall]
  | .PatternKind_Number => [.node .PatternNumber]
  | .PatternKind_RangeExclusive => [.node .PatternRangeExclusive]
  | .PatternKind_RangeInclusive => [.node .PatternRangeInclusive]
  | .PatternKind_Reference => [.node .PatternReference]
  | .PatternKind_Slice => [.node .PatternSlice]
  | .PatternKind_String => [.node .PatternString]
  | .PatternKind_Struct => [.node .PatternStruct]
  | .PatternKind_Tuple => [.node .PatternTuple]
  -- `src/ast.rs` 2313-2316
  | .PatternStructField_Long => [.node .PatternStructFieldLong]
  | .PatternStructField_Short => [.node .PatternStructFieldShort]
  -- `src/ast.rs` 2365-2368
  | .PatternTupleMember_Pattern => [.node .Pattern]
  | .PatternTupleMember_Wildcard => [.ext]
  -- `src/ast.rs` 2386-2390
  | .PatternSliceMember_Pattern => [.node .Pattern]
  | .PatternSliceMember_Subslice => [.node .PatternSliceSubslice]
  | .PatternSliceMember_Wildcard => [.ext]
  -- `src/ast.rs` 2530-2535
  | .PatternRangeComponent_Ident => [.node .PathedIdent]
  | .PatternRangeComponent_Byte => [.node .Byte]
  | .PatternRangeComponent_Character => [.node .Character]
  | .PatternRangeComponent_Number => [.node .PatternNumber]
  -- `src/ast.rs` 2590-2595
  | .TraitMember_Const => [.node .TraitMemberConst]
  | .TraitMember_Function => [.node .TraitMemberFunction]
  | .TraitMember_Type => [.node .TraitMemberType]
  | .TraitMember_MacroCall => [.node .MacroCall]
  -- `src/ast.rs` 2666-2669
  | .ImplKind_Trait => [.node .ImplOfTrait]
  | .ImplKind_Inherent => [.node .ImplOfInherent]
  -- `src/ast.rs` 2704-2707
  | .ImplOfTraitType_Type => [.node .Type]
  | .ImplOfTraitType_Wildcard => [.ext]
  -- `src/ast.rs` 2710-2715
  | .ImplMember_Const => [.node .ImplConst]
  | .ImplMember_Function => [.node .ImplFunction]
  | .ImplMember_Type => [.node .ImplType]
  | .ImplMember_MacroCall => [.node .MacroCall]
  -- `src/ast.rs` 2799-2803
  | .ExternBlockMember_Function => [.node .ExternBlockMemberFunction]
  | .ExternBlockMember_Static => [.node .ExternBlockMemberStatic]
  | .ExternBlockMember_Type => [.node .ExternBlockMemberType]
  -- `src/ast.rs` 2860-2863
  | .ExternBlockMemberFunctionArgument_Named => [.node .ExternBlockMemberFunctionArgumentNamed]
  | .ExternBlockMemberFunctionArgument_Variadic => [.node .ExternBlockMemberFunctionArgumentVariadic]
  -- `src/ast.rs` 2929-2932
  | .Visibility_Public => [.node .VisibilityPublic]
  | .Visibility_Crate => [.ext]
  -- `src/ast.rs` 2951-2955
  | .VisibilityPublicQualifier_Crate => []
  | .VisibilityPublicQualifier_SelfIdent => []
  | .VisibilityPublicQualifier_Path => [.node .Path]

/-- All node kinds. -/
def K.all : List K := [
  .AttributeLiteral, .AttributeContainingLiteral, .Lifetime, .Use, .UsePath, .UseTailIdent,
  .UseTailGlob, .UseTailMulti, .Function, .FunctionHeader, .FunctionQualifiers, .TraitImplFunctionHeader,
  .GenericDeclarations, .GenericDeclarationLifetime, .GenericDeclarationType, .GenericDeclarationConst, .Type, .TypeReference,
  .TypeReferenceKind, .TypePointer, .TypeArray, .TypeHigherRankedTraitBounds, .TypeDynTrait, .TypeImplTrait,
  .TypeNamed, .TypeNamedComponent, .TypeDisambiguation, .TypeSlice, .TypeTuple, .TypeGenericsFunction,
  .TypeGenericsAngle, .AssociatedType, .AssociatedTypeValueEqual, .AssociatedTypeValueBound, .TypeFunction, .TypeFunctionArgumentNamed,
  .Ident, .Path, .PathedIdent, .PathComponent, .Turbofish, .Const,
  .Static, .Struct, .StructDefinitionBodyBrace, .StructDefinitionFieldNamed, .StructDefinitionBodyTuple, .StructDefinitionFieldUnnamed,
  .Union, .Enum, .EnumVariant, .SelfArgumentLonghand, .SelfArgumentShorthand, .NamedArgument,
  .TraitImplArgumentNamed, .Where, .WhereLifetime, .WhereType, .TraitBounds, .TraitBoundLifetime,
  .TraitBoundNormal, .TraitBoundRelaxed, .Block, .UnsafeBlock, .AsyncBlock, .Parenthetical,
  .MacroCall, .Let, .Tuple, .TryOperator, .FieldAccess, .Number,
  .NumberBinary, .NumberDecimal, .NumberHexadecimal, .NumberOctal, .Value, .StructLiteral,
  .StructLiteralField, .Call, .ForLoop, .Loop, .IfLet, .While,
  .WhileLet, .Unary, .Binary, .If, .Match, .MatchArm,
  .Range, .RangeInclusive, .ArrayExplicit, .ArrayRepeated, .ExpressionBox, .AsType,
  .Ascription, .Character, .String, .Byte, .ByteString, .Slice,
  .Closure, .ClosureArg, .Reference, .Dereference, .Disambiguation, .Return,
  .Continue, .Break, .Pattern, .PatternName, .PatternIdent, .PatternStruct,
  .PatternStructFieldLong, .PatternStructFieldShort, .PatternTuple, .PatternSlice, .PatternSliceSubslice, .PatternByte,
  .PatternCharacter, .PatternByteString, .PatternString, .PatternNumber, .PatternMacroCall, .PatternRangeExclusive,
  .PatternRangeInclusive, .PatternReference, .PatternBox, .Trait, .TraitMemberFunction, .TraitMemberType,
  .TraitMemberConst, .Impl, .ImplOfTrait, .ImplOfInherent, .ImplFunction, .ImplType,
  .ImplConst, .Crate, .ExternBlock, .ExternBlockMemberStatic, .ExternBlockMemberType, .ExternBlockMemberFunction,
  .ExternBlockMemberFunctionArgumentNamed, .ExternBlockMemberFunctionArgumentVariadic, .TypeAlias, .Module, .VisibilityPublic, .AttributedEnumVariant,
  .AttributedExpression, .AttributedExternBlockMember, .AttributedGenericDeclarationConst, .AttributedGenericDeclarationLifetime, .AttributedGenericDeclarationType, .AttributedImplMember,
  .AttributedItem, .AttributedStructDefinitionFieldNamed, .AttributedStructDefinitionFieldUnnamed, .AttributedTraitMember]

theorem K.mem_all (k : K) : k ∈ K.all := by cases k <;> decide

/-- `src/ast.rs` 96-105, `Whitespace` and `Comment`: a piece of trivia. -/
inductive Ws
  | whitespace (e : Extent)
  | commentLine (e : Extent)
  | commentBlock (e : Extent)
deriving DecidableEq, Repr, Inhabited

/-- `HasExtent for Whitespace`. -/
def Ws.extent : Ws → Extent
  | .whitespace e | .commentLine e | .commentBlock e => e

/-- A value of the tree.
* `ext`: a field of type `Extent`;
* `bool`: a field of type `bool`;
* `list`: a `Vec`, or an `Option` (of length 0 or 1);
* `enm`: an enum variant with its payload;
* `node`: a struct, with its `extent`, its `whitespace` (empty for structs without that field) and its other fields in
  declaration order. -/
inductive V
  | ext (e : Extent)
  | bool (b : Bool)
  | list (vs : List V)
  | enm (t : Tag) (vs : List V)
  | node (k : K) (e : Extent) (ws : List Ws) (vs : List V)
deriving Repr, Inhabited

/-- `HasExtent::extent`: a struct has its own extent, an enum that of its payload. -/
def V.extent? : V → Option Extent
  | .ext e => some e
  | .node _ e _ _ => some e
  | .enm _ (v :: _) => v.extent?
  | _ => none

end Verif
