import Verif.Ast
/-!
# What is derived for the types of the tree

The lists are generated by `tools/mkderive.py` from `src/ast.rs`; the code that is derived is that of the derive crate.
-/

namespace Verif

/-- `#[derive(HasExtent, ExtentIndex)]` on the enums of `src/ast.rs`; the two always come together.  All structs derive both,
except for `Attributed`, which has the method `extent` (1305-1309) but no `ExtentIndex`. -/
def En.hasExtent : En → Bool
  | .TypePointerKind | .EnumVariantBody | .Argument | .TraitImplArgument | .UnaryOp | .BinaryOp | .PatternStructField | .VisibilityPublicQualifier => false
  | _ => true

/-- `#[derive(Decompose)]` on the enums of `src/ast.rs`. -/
def En.decompose : En → Bool
  | .TypePointerKind | .UnaryOp | .BinaryOp | .VisibilityPublicQualifier => false
  | _ => true

/-- The variants of the enums of `src/ast.rs`, in the order of declaration. -/
def En.variants : En → List Tag
  -- `src/ast.rs` 20
  | .Item => [.Item_AttributeContaining, .Item_Const, .Item_Enum, .Item_ExternCrate, .Item_ExternBlock, .Item_Function, .Item_Impl, .Item_MacroCall, .Item_Module, .Item_Static, .Item_Struct, .Item_Trait, .Item_TypeAlias, .Item_Use, .Item_Union]
  -- `src/ast.rs` 40
  | .Attribute => [.Attribute_DocCommentLine, .Attribute_DocCommentBlock, .Attribute_Literal]
  -- `src/ast.rs` 62
  | .AttributeContaining => [.AttributeContaining_DocCommentLine, .AttributeContaining_DocCommentBlock, .AttributeContaining_Literal]
  -- `src/ast.rs` 139
  | .UseTail => [.UseTail_Ident, .UseTail_Glob, .UseTail_Multi]
  -- `src/ast.rs` 358
  | .TypeKind => [.TypeKind_Array, .TypeKind_Disambiguation, .TypeKind_Function, .TypeKind_HigherRankedTraitBounds, .TypeKind_DynTrait, .TypeKind_ImplTrait, .TypeKind_Named, .TypeKind_Pointer, .TypeKind_Reference, .TypeKind_Slice, .TypeKind_Tuple, .TypeKind_Uninhabited]
  -- `src/ast.rs` 424
  | .TypePointerKind => [.TypePointerKind_Const, .TypePointerKind_Mutable]
  -- `src/ast.rs` 462
  | .TypeHigherRankedTraitBoundsChild => [.TypeHigherRankedTraitBoundsChild_Named, .TypeHigherRankedTraitBoundsChild_Function, .TypeHigherRankedTraitBoundsChild_Reference]
  -- `src/ast.rs` 499
  | .TypeAdditional => [.TypeAdditional_Named, .TypeAdditional_Lifetime]
  -- `src/ast.rs` 583
  | .TypeGenerics => [.TypeGenerics_Function, .TypeGenerics_Angle]
  -- `src/ast.rs` 621
  | .TypeGenericsAngleMember => [.TypeGenericsAngleMember_Lifetime, .TypeGenericsAngleMember_Type, .TypeGenericsAngleMember_AssociatedType]
  -- `src/ast.rs` 645
  | .AssociatedTypeValue => [.AssociatedTypeValue_Equal, .AssociatedTypeValue_Bound]
  -- `src/ast.rs` 698
  | .TypeFunctionArgument => [.TypeFunctionArgument_Named, .TypeFunctionArgument_Variadic]
  -- `src/ast.rs` 869
  | .StructDefinitionBody => [.StructDefinitionBody_Brace, .StructDefinitionBody_Tuple, .StructDefinitionBody_Empty]
  -- `src/ast.rs` 991
  | .EnumVariantBody => [.EnumVariantBody_Tuple, .EnumVariantBody_Struct, .EnumVariantBody_Unit]
  -- `src/ast.rs` 998
  | .Argument => [.Argument_SelfArgument, .Argument_Named]
  -- `src/ast.rs` 1004
  | .SelfArgument => [.SelfArgument_Longhand, .SelfArgument_Shorthand]
  -- `src/ast.rs` 1043
  | .SelfArgumentShorthandQualifier => [.SelfArgumentShorthandQualifier_Reference, .SelfArgumentShorthandQualifier_Mut]
  -- `src/ast.rs` 1065
  | .TraitImplArgument => [.TraitImplArgument_SelfArgument, .TraitImplArgument_Named]
  -- `src/ast.rs` 1106
  | .WhereKind => [.WhereKind_Lifetime, .WhereKind_Type]
  -- `src/ast.rs` 1159
  | .TraitBound => [.TraitBound_Lifetime, .TraitBound_Normal, .TraitBound_Relaxed]
  -- `src/ast.rs` 1213
  | .TraitBoundType => [.TraitBoundType_Named, .TraitBoundType_HigherRankedTraitBounds]
  -- `src/ast.rs` 1284
  | .Statement => [.Statement_Expression, .Statement_Item, .Statement_Empty]
  -- `src/ast.rs` 1367
  | .Expression => [.Expression_Array, .Expression_AsType, .Expression_Ascription, .Expression_AsyncBlock, .Expression_Binary, .Expression_Block, .Expression_Box, .Expression_Break, .Expression_Byte, .Expression_ByteString, .Expression_Call, .Expression_Character, .Expression_Closure, .Expression_Continue, .Expression_Dereference, .Expression_Disambiguation, .Expression_FieldAccess, .Expression_ForLoop, .Expression_If, .Expression_IfLet, .Expression_Let, .Expression_Loop, .Expression_MacroCall, .Expression_Match, .Expression_Number, .Expression_Parenthetical, .Expression_Range, .Expression_RangeInclusive, .Expression_Reference, .Expression_Return, .Expression_Slice, .Expression_String, .Expression_Tuple, .Expression_TryOperator, .Expression_Unary, .Expression_UnsafeBlock, .Expression_Value, .Expression_While, .Expression_WhileLet]
  -- `src/ast.rs` 1445
  | .MacroCallArgs => [.MacroCallArgs_Paren, .MacroCallArgs_Curly, .MacroCallArgs_Square]
  -- `src/ast.rs` 1515
  | .FieldName => [.FieldName_Path, .FieldName_Number]
  -- `src/ast.rs` 1537
  | .NumberValue => [.NumberValue_Binary, .NumberValue_Decimal, .NumberValue_Hexadecimal, .NumberValue_Octal]
  -- `src/ast.rs` 1782
  | .UnaryOp => [.UnaryOp_Negate, .UnaryOp_Not]
  -- `src/ast.rs` 1806
  | .BinaryOp => [.BinaryOp_Add, .BinaryOp_AddAssign, .BinaryOp_Assign, .BinaryOp_BitwiseAnd, .BinaryOp_BitwiseAndAssign, .BinaryOp_BitwiseOr, .BinaryOp_BitwiseOrAssign, .BinaryOp_BitwiseXor, .BinaryOp_BitwiseXorAssign, .BinaryOp_BooleanAnd, .BinaryOp_BooleanOr, .BinaryOp_Div, .BinaryOp_DivAssign, .BinaryOp_Equal, .BinaryOp_GreaterThan, .BinaryOp_GreaterThanOrEqual, .BinaryOp_LessThan, .BinaryOp_LessThanOrEqual, .BinaryOp_Mod, .BinaryOp_ModAssign, .BinaryOp_Mul, .BinaryOp_MulAssign, .BinaryOp_NotEqual, .BinaryOp_ShiftLeft, .BinaryOp_ShiftLeftAssign, .BinaryOp_ShiftRight, .BinaryOp_ShiftRightAssign, .BinaryOp_Sub, .BinaryOp_SubAssign]
  -- `src/ast.rs` 1891
  | .MatchHand => [.MatchHand_Brace, .MatchHand_Expression]
  -- `src/ast.rs` 1932
  | .RangeInclusiveOperator => [.RangeInclusiveOperator_Legacy, .RangeInclusiveOperator_Recommended]
  -- `src/ast.rs` 1938
  | .Array => [.Array_Explicit, .Array_Repeated]
  -- `src/ast.rs` 2259
  | .PatternKind => [.PatternKind_Box, .PatternKind_Byte, .PatternKind_ByteString, .PatternKind_Character, .PatternKind_Ident, .PatternKind_MacroCall, .PatternKind_Number, .PatternKind_RangeExclusive, .PatternKind_RangeInclusive, .PatternKind_Reference, .PatternKind_Slice, .PatternKind_String, .PatternKind_Struct, .PatternKind_Tuple]
  -- `src/ast.rs` 2313
  | .PatternStructField => [.PatternStructField_Long, .PatternStructField_Short]
  -- `src/ast.rs` 2365
  | .PatternTupleMember => [.PatternTupleMember_Pattern, .PatternTupleMember_Wildcard]
  -- `src/ast.rs` 2386
  | .PatternSliceMember => [.PatternSliceMember_Pattern, .PatternSliceMember_Subslice, .PatternSliceMember_Wildcard]
  -- `src/ast.rs` 2530
  | .PatternRangeComponent => [.PatternRangeComponent_Ident, .PatternRangeComponent_Byte, .PatternRangeComponent_Character, .PatternRangeComponent_Number]
  -- `src/ast.rs` 2590
  | .TraitMember => [.TraitMember_Const, .TraitMember_Function, .TraitMember_Type, .TraitMember_MacroCall]
  -- `src/ast.rs` 2666
  | .ImplKind => [.ImplKind_Trait, .ImplKind_Inherent]
  -- `src/ast.rs` 2704
  | .ImplOfTraitType => [.ImplOfTraitType_Type, .ImplOfTraitType_Wildcard]
  -- `src/ast.rs` 2710
  | .ImplMember => [.ImplMember_Const, .ImplMember_Function, .ImplMember_Type, .ImplMember_MacroCall]
  -- `src/ast.rs` 2799
  | .ExternBlockMember => [.ExternBlockMember_Function, .ExternBlockMember_Static, .ExternBlockMember_Type]
  -- `src/ast.rs` 2860
  | .ExternBlockMemberFunctionArgument => [.ExternBlockMemberFunctionArgument_Named, .ExternBlockMemberFunctionArgument_Variadic]
  -- `src/ast.rs` 2929
  | .Visibility => [.Visibility_Public, .Visibility_Crate]
  -- `src/ast.rs` 2951
  | .VisibilityPublicQualifier => [.VisibilityPublicQualifier_Crate, .VisibilityPublicQualifier_SelfIdent, .VisibilityPublicQualifier_Path]

/-- The names of the variants. -/
def Tag.name : Tag → Text
  | .Item_AttributeContaining => c!"AttributeContaining"
  | .Item_Const => c!"Const"
  | .Item_Enum => c!"Enum"
  | .Item_ExternCrate => c!"ExternCrate"
  | .Item_ExternBlock => c!"ExternBlock"
  | .Item_Function => c!"Function"
  | .Item_Impl => c!"Impl"
  | .Item_MacroCall => c!"MacroCall"
  | .Item_Module => c!"Module"
  | .Item_Static => c!"Static"
  | .Item_Struct => c!"Struct"
  | .Item_Trait => c!"Trait"
  | .Item_TypeAlias => c!"TypeAlias"
  | .Item_Use => c!"Use"
  | .Item_Union => c!"Union"
  | .Attribute_DocCommentLine => c!"DocCommentLine"
  | .Attribute_DocCommentBlock => c!"DocCommentBlock"
  | .Attribute_Literal => c!"Literal"
  | .AttributeContaining_DocCommentLine => c!"DocCommentLine"
  | .AttributeContaining_DocCommentBlock => c!"DocCommentBlock"
  | .AttributeContaining_Literal => c!"Literal"
  | .UseTail_Ident => c!"Ident"
  | .UseTail_Glob => c!"Glob"
  | .UseTail_Multi => c!"Multi"
  | .TypeKind_Array => c!"Array"
  | .TypeKind_Disambiguation => c!"Disambiguation"
  | .TypeKind_Function => c!"Function"
  | .TypeKind_HigherRankedTraitBounds => c!"HigherRankedTraitBounds"
  | .TypeKind_DynTrait => c!"DynTrait"
  | .TypeKind_ImplTrait => c!"ImplTrait"
  | .TypeKind_Named => c!"Named"
  | .TypeKind_Pointer => c!"Pointer"
  | .TypeKind_Reference => c!"Reference"
  | .TypeKind_Slice => c!"Slice"
  | .TypeKind_Tuple => c!"Tuple"
  | .TypeKind_Uninhabited => c!"Uninhabited"
  | .TypePointerKind_Const => c!"Const"
  | .TypePointerKind_Mutable => c!"Mutable"
  | .TypeHigherRankedTraitBoundsChild_Named => c!"Named"
  | .TypeHigherRankedTraitBoundsChild_Function => c!"Function"
  | .TypeHigherRankedTraitBoundsChild_Reference => c!"Reference"
  | .TypeAdditional_Named => c!"Named"
  | .TypeAdditional_Lifetime => c!"Lifetime"
  | .TypeGenerics_Function => c!"Function"
  | .TypeGenerics_Angle => c!"Angle"
  | .TypeGenericsAngleMember_Lifetime => c!"Lifetime"
  | .TypeGenericsAngleMember_Type => c!"Type"
  | .TypeGenericsAngleMember_AssociatedType => c!"AssociatedType"
  | .AssociatedTypeValue_Equal => c!"Equal"
  | .AssociatedTypeValue_Bound => c!"Bound"
  | .TypeFunctionArgument_Named => c!"Named"
  | .TypeFunctionArgument_Variadic => c!"Variadic"
  | .StructDefinitionBody_Brace => c!"Brace"
  | .StructDefinitionBody_Tuple => c!"Tuple"
  | .StructDefinitionBody_Empty => c!"Empty"
  | .EnumVariantBody_Tuple => c!"Tuple"
  | .EnumVariantBody_Struct => c!"Struct"
  | .EnumVariantBody_Unit => c!"Unit"
  | .Argument_SelfArgument => c!"SelfArgument"
  | .Argument_Named => c!"Named"
  | .SelfArgument_Longhand => c!"Longhand"
  | .SelfArgument_Shorthand => c!"Shorthand"
  | .SelfArgumentShorthandQualifier_Reference => c!"Reference"
  | .SelfArgumentShorthandQualifier_Mut => c!"Mut"
  | .TraitImplArgument_SelfArgument => c!"SelfArgument"
  | .TraitImplArgument_Named => c!"Named"
  | .WhereKind_Lifetime => c!"Lifetime"
  | .WhereKind_Type => c!"Type"
  | .TraitBound_Lifetime => c!"Lifetime"
  | .TraitBound_Normal => c!"Normal"
  | .TraitBound_Relaxed => c!"Relaxed"
  | .TraitBoundType_Named => c!"Named"
  | .TraitBoundType_HigherRankedTraitBounds => c!"HigherRankedTraitBounds"
  | .Statement_Expression => c!"Expression"
  | .Statement_Item => c!"Item"
  | .Statement_Empty => c!"Empty"
  | .Expression_Array => c!"Array"
  | .Expression_AsType => c!"AsType"
  | .Expression_Ascription => c!"Ascription"
  | .Expression_AsyncBlock => c!"AsyncBlock"
  | .Expression_Binary => c!"Binary"
  | .Expression_Block => c!"Block"
  | .Expression_Box => c!"Box"
  | .Expression_Break => c!"Break"
  | .Expression_Byte => c!"Byte"
  | .Expression_ByteString => c!"ByteString"
  | .Expression_Call => c!"Call"
  | .Expression_Character => c!"Character"
  | .Expression_Closure => c!"Closure"
  | .Expression_Continue => c!"Continue"
  | .Expression_Dereference => c!"Dereference"
  | .Expression_Disambiguation => c!"Disambiguation"
  | .Expression_FieldAccess => c!"FieldAccess"
  | .Expression_ForLoop => c!"ForLoop"
  | .Expression_If => c!"If"
  | .Expression_IfLet => c!"IfLet"
  | .Expression_Let => c!"Let"
  | .Expression_Loop => c!"Loop"
  | .Expression_MacroCall => c!"MacroCall"
  | .Expression_Match => c!"Match"
  | .Expression_Number => c!"Number"
  | .Expression_Parenthetical => c!"Parenthetical"
  | .Expression_Range => c!"Range"
  | .Expression_RangeInclusive => c!"RangeInclusive"
  | .Expression_Reference => c!"Reference"
  | .Expression_Return => c!"Return"
  | .Expression_Slice => c!"Slice"
  | .Expression_String => c!"String"
  | .Expression_Tuple => c!"Tuple"
  | .Expression_TryOperator => c!"TryOperator"
  | .Expression_Unary => c!"Unary"
  | .Expression_UnsafeBlock => c!"UnsafeBlock"
  | .Expression_Value => c!"Value"
  | .Expression_While => c!"While"
  | .Expression_WhileLet => c!"WhileLet"
  | .MacroCallArgs_Paren => c!"Paren"
  | .MacroCallArgs_Curly => c!"Curly"
  | .MacroCallArgs_Square => c!"Square"
  | .FieldName_Path => c!"Path"
  | .FieldName_Number => c!"Number"
  | .NumberValue_Binary => c!"Binary"
  | .NumberValue_Decimal => c!"Decimal"
  | .NumberValue_Hexadecimal => c!"Hexadecimal"
  | .NumberValue_Octal => c!"Octal"
  | .UnaryOp_Negate => c!"Negate"
  | .UnaryOp_Not => c!"Not"
  | .BinaryOp_Add => c!"Add"
  | .BinaryOp_AddAssign => c!"AddAssign"
  | .BinaryOp_Assign => c!"Assign"
  | .BinaryOp_BitwiseAnd => c!"BitwiseAnd"
  | .BinaryOp_BitwiseAndAssign => c!"BitwiseAndAssign"
  | .BinaryOp_BitwiseOr => c!"BitwiseOr"
  | .BinaryOp_BitwiseOrAssign => c!"BitwiseOrAssign"
  | .BinaryOp_BitwiseXor => c!"BitwiseXor"
  | .BinaryOp_BitwiseXorAssign => c!"BitwiseXorAssign"
  | .BinaryOp_BooleanAnd => c!"BooleanAnd"
  | .BinaryOp_BooleanOr => c!"BooleanOr"
  | .BinaryOp_Div => c!"Div"
  | .BinaryOp_DivAssign => c!"DivAssign"
  | .BinaryOp_Equal => c!"Equal"
  | .BinaryOp_GreaterThan => c!"GreaterThan"
  | .BinaryOp_GreaterThanOrEqual => c!"GreaterThanOrEqual"
  | .BinaryOp_LessThan => c!"LessThan"
  | .BinaryOp_LessThanOrEqual => c!"LessThanOrEqual"
  | .BinaryOp_Mod => c!"Mod"
  | .BinaryOp_ModAssign => c!"ModAssign"
  | .BinaryOp_Mul => c!"Mul"
  | .BinaryOp_MulAssign => c!"MulAssign"
  | .BinaryOp_NotEqual => c!"NotEqual"
  | .BinaryOp_ShiftLeft => c!"ShiftLeft"
  | .BinaryOp_ShiftLeftAssign => c!"ShiftLeftAssign"
  | .BinaryOp_ShiftRight => c!"ShiftRight"
  | .BinaryOp_ShiftRightAssign => c!"ShiftRightAssign"
  | .BinaryOp_Sub => c!"Sub"
  | .BinaryOp_SubAssign => c!"SubAssign"
  | .MatchHand_Brace => c!"Brace"
  | .MatchHand_Expression => c!"Expression"
  | .RangeInclusiveOperator_Legacy => c!"Legacy"
  | .RangeInclusiveOperator_Recommended => c!"Recommended"
  | .Array_Explicit => c!"Explicit"
  | .Array_Repeated => c!"Repeated"
  | .PatternKind_Box => c!"Box"
  | .PatternKind_Byte => c!"Byte"
  | .PatternKind_ByteString => c!"ByteString"
  | .PatternKind_Character => c!"Character"
  | .PatternKind_Ident => c!"Ident"
  | .PatternKind_MacroCall => c!"MacroCall"
  | .PatternKind_Number => c!"Number"
  | .PatternKind_RangeExclusive => c!"RangeExclusive"
  | .PatternKind_RangeInclusive => c!"RangeInclusive"
  | .PatternKind_Reference => c!"Reference"
  | .PatternKind_Slice => c!"Slice"
  | .PatternKind_String => c!"String"
  | .PatternKind_Struct => c!"Struct"
  | .PatternKind_Tuple => c!"Tuple"
  | .PatternStructField_Long => c!"Long"
  | .PatternStructField_Short => c!"Short"
  | .PatternTupleMember_Pattern => c!"Pattern"
  | .PatternTupleMember_Wildcard => c!"Wildcard"
  | .PatternSliceMember_Pattern => c!"Pattern"
  | .PatternSliceMember_Subslice => c!"Subslice"
  | .PatternSliceMember_Wildcard => c!"Wildcard"
  | .PatternRangeComponent_Ident => c!"Ident"
  | .PatternRangeComponent_Byte => c!"Byte"
  | .PatternRangeComponent_Character => c!"Character"
  | .PatternRangeComponent_Number => c!"Number"
  | .TraitMember_Const => c!"Const"
  | .TraitMember_Function => c!"Function"
  | .TraitMember_Type => c!"Type"
  | .TraitMember_MacroCall => c!"MacroCall"
  | .ImplKind_Trait => c!"Trait"
  | .ImplKind_Inherent => c!"Inherent"
  | .ImplOfTraitType_Type => c!"Type"
  | .ImplOfTraitType_Wildcard => c!"Wildcard"
  | .ImplMember_Const => c!"Const"
  | .ImplMember_Function => c!"Function"
  | .ImplMember_Type => c!"Type"
  | .ImplMember_MacroCall => c!"MacroCall"
  | .ExternBlockMember_Function => c!"Function"
  | .ExternBlockMember_Static => c!"Static"
  | .ExternBlockMember_Type => c!"Type"
  | .ExternBlockMemberFunctionArgument_Named => c!"Named"
  | .ExternBlockMemberFunctionArgument_Variadic => c!"Variadic"
  | .Visibility_Public => c!"Public"
  | .Visibility_Crate => c!"Crate"
  | .VisibilityPublicQualifier_Crate => c!"Crate"
  | .VisibilityPublicQualifier_SelfIdent => c!"SelfIdent"
  | .VisibilityPublicQualifier_Path => c!"Path"

/-- `fuzzy-pickles-derive/src/lib.rs` 34-47, `camelcase_to_snake_case`.  Simplified: lower and upper case are those of ASCII, as all
names in `src/ast.rs` are. -/
def snakeCase (name : Text) : Text := name.flatMap fun c => if c.isLower then [c] else ['_', c.toLower]

/-- The name of a generated method (`fuzzy-pickles-derive/src/lib.rs` 205, 219, 233). -/
def Tag.method (t : Tag) (stem : Text) : Text := stem ++ snakeCase t.name

/-- Which variant a method of an enum is about: `impl_decompose` generates one method with each stem for each variant
(`fuzzy-pickles-derive/src/lib.rs` 173-255); `none` if there is no method of that name. -/
def En.lookup (n : En) (stem name : Text) : Option Tag :=
  if n.decompose then n.variants.find? fun t => t.method stem == name else none

/-- Calling a method `is_…` (`fuzzy-pickles-derive/src/lib.rs` 231-242); `none` if there is no such method. -/
def V.callIs (name : Text) : V → Option Bool
  | .enm t _ => (t.en.lookup c!"is" name).map fun u => t == u
  | _ => none

/-- Calling a method `as_…` or `into_…` (`fuzzy-pickles-derive/src/lib.rs` 203-229): the two differ only in taking a reference. -/
def V.callGet (stem name : Text) : V → Option (Option V)
  | .enm t vs => (t.en.lookup stem name).map fun u => if t == u then vs.head? else none
  | _ => none

/-- Whether a type has `HasExtent`: derived, or `src/lib.rs` 197-211, or `src/ast.rs` 1305-1309. -/
def Ty.hasExtent : Ty → Bool
  | .ext => true
  | .node _ => true
  | .enm n => n.hasExtent
  | .bool | .opt _ | .vec _ => false

/-- Indexing a text with a value of the tree (`fuzzy-pickles-derive/src/lib.rs` 299-322, `src/lib.rs` 178-194); `none` is a panic.  For
`Attributed` this is indexing with `extent()`. -/
def V.index (text : Text) (v : V) : Option Text := v.extent?.bind (sliceText text)

end Verif
