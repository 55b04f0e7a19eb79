# one rule per Rust function: name = Lean term of type G
@mod
item = alts [wrap .Item_AttributeContaining (r .attribute_containing), wrap .Item_Const (r .p_const), wrap .Item_ExternCrate (r .extern_crate), wrap .Item_ExternBlock (r .extern_block), wrap .Item_Function (r .function), wrap .Item_MacroCall (r .item_macro_call), wrap .Item_Module (r .module), wrap .Item_Enum (r .p_enum), wrap .Item_Impl (r .p_impl), wrap .Item_Static (r .p_static), wrap .Item_Struct (r .p_struct), wrap .Item_Trait (r .p_trait), wrap .Item_Union (r .p_union), wrap .Item_Use (r .p_use), wrap .Item_TypeAlias (r .type_alias)]
function = node .Function (sq [r .function_header, r .block])
function_header = node .FunctionHeader (sq [opt (r .visibility), r .function_qualifiers, d .Fn, r .ident, opt (r .generic_declarations), r .function_arglist, opt (r .function_return_type), wheres])
function_qualifiers = node .FunctionQualifiers (sq [opt (ext (tok .Default)), opt (ext (tok .Const)), opt (ext (tok .Unsafe)), opt (ext (tok .Async)), map .externAbi (opt (r .function_qualifier_extern))])
function_qualifier_extern = sq [ext (tok .Extern), opt (r .string_literal)]
ident = mapErr (.Expected .Ident) (map .ident (alts [tok .Default, tok .SelfIdent, tok .Dyn, tok .Union, tok .Ident]))
generic_declarations = node .GenericDeclarations (sq [d .LeftAngle, tailedValues comma (attributed .AttributedGenericDeclarationLifetime (r .generic_declaration_lifetime)), tailedValues comma (attributed .AttributedGenericDeclarationType (r .generic_declaration_type)), tailedValues comma (attributed .AttributedGenericDeclarationConst (r .generic_declaration_const)), d .RightAngle])
generic_declaration_lifetime = node .GenericDeclarationLifetime (sq [r .lifetime, map .flat (opt (r .generic_declaration_lifetime_bounds))])
generic_declaration_lifetime_bounds = sq [d .Colon, tailedValues (tok .Plus) (r .lifetime)]
generic_declaration_type = node .GenericDeclarationType (sq [r .ident, opt (r .generic_declaration_type_bounds), opt (r .generic_declaration_type_default)])
generic_declaration_type_bounds = sq [d .Colon, r .trait_bounds]
generic_declaration_type_default = sq [d .Equals, r .typ]
generic_declaration_const = node .GenericDeclarationConst (sq [d .Const, r .ident, d .Colon, r .typ])
function_arglist = sq [d .LeftParen, map .append (sq [opt (wrap .Argument_SelfArgument (r .self_argument)), tailedValues comma (r .function_argument)]), d .RightParen]
self_argument = alts [wrap .SelfArgument_Longhand (r .self_argument_longhand), wrap .SelfArgument_Shorthand (r .self_argument_shorthand)]
self_argument_longhand = node .SelfArgumentLonghand (sq [opt (tok .Mut), map .ident (tok .SelfIdent), d .Colon, r .typ, drop (opt comma)])
self_argument_shorthand = node .SelfArgumentShorthand (sq [opt (r .self_argument_qualifier), map .ident (tok .SelfIdent), drop (opt comma)])
self_argument_qualifier = alts [wrap .SelfArgumentShorthandQualifier_Reference (r .typ_reference_kind), wrap .SelfArgumentShorthandQualifier_Mut (ext (tok .Mut))]
function_argument = wrap .Argument_Named (node .NamedArgument (sq [r .pattern, d .Colon, r .typ]))
function_return_type = sq [d .ThinArrow, r .typ]
where_clause = sq [d .Where, tailed1Values comma (r .where_clause_item)]
where_clause_item = node .Where (sq [map .flat (opt (r .higher_ranked_trait_bounds)), r .where_clause_kind])
where_clause_kind = alts [wrap .WhereKind_Lifetime (r .where_lifetime), wrap .WhereKind_Type (r .where_type)]
where_lifetime = node .WhereLifetime (sq [r .lifetime, r .generic_declaration_lifetime_bounds])
where_type = node .WhereType (sq [r .typ, r .generic_declaration_type_bounds])
trait_bounds = node .TraitBounds (tailedValues (tok .Plus) (r .trait_bound))
trait_bound = alts [wrap .TraitBound_Lifetime (r .trait_bound_lifetime), wrap .TraitBound_Normal (r .trait_bound_normal), wrap .TraitBound_Relaxed (r .trait_bound_relaxed)]
trait_bound_lifetime = node .TraitBoundLifetime (r .lifetime)
trait_bound_normal = node .TraitBoundNormal (r .trait_bound_normal_child)
trait_bound_normal_child = alts [wrap .TraitBoundType_Named (r .typ_named), wrap .TraitBoundType_HigherRankedTraitBounds (r .typ_higher_ranked_trait_bounds)]
trait_bound_relaxed = node .TraitBoundRelaxed (sq [d .QuestionMark, r .trait_bound_normal_child])
block = node .Block (sq [d .LeftCurly, implTailed .block .statement (tok .Semicolon) (r .statement), d .RightCurly])
statement = alts [wrap .Statement_Item (attributed .AttributedItem (r .item)), wrap .Statement_Expression (r .statement_expression), wrap .Statement_Empty (r .statement_empty)]
statement_empty = ext (peek (tok .Semicolon))
item_macro_call = node .MacroCall (sq [r .pathed_ident, d .Bang, opt (r .ident), r .item_macro_call_args])
item_macro_call_args = alts [wrap .MacroCallArgs_Paren (r .item_macro_call_paren), wrap .MacroCallArgs_Square (r .item_macro_call_square), wrap .MacroCallArgs_Curly (r .item_macro_call_curly)]
item_macro_call_paren = sq [nested .LeftParen .RightParen, d .RightParen, d .Semicolon]
item_macro_call_square = sq [nested .LeftSquare .RightSquare, d .RightSquare, d .Semicolon]
item_macro_call_curly = sq [nested .LeftCurly .RightCurly, d .RightCurly]
character_literal = map .character (tok .Character)
string_literal = alts [map .string (tok .String), map .string (tok .StringRaw)]
number_literal = number
path = node .Path (sq [drop (opt (tok .DoubleColon)), tailed1Values (tok .DoubleColon) (r .ident)])
pathed_ident = node .PathedIdent (sq [drop (opt (tok .DoubleColon)), tailed1Values (tok .DoubleColon) (r .path_component)])
path_component = node .PathComponent (sq [r .path_member, opt (r .turbofish)])
turbofish = node .Turbofish (sq [d .DoubleColon, d .LeftAngle, tailedValues comma (r .lifetime), tailedValues comma (r .typ), d .RightAngle])
pattern = node .Pattern (sq [opt (r .pattern_name), r .pattern_kind])
pattern_name = nodeEmpty .PatternName (sq [opt (ext (tok .Ref)), opt (ext (tok .Mut)), r .ident, d .At])
pattern_kind = alts [wrap .PatternKind_RangeExclusive (r .pattern_range_exclusive), wrap .PatternKind_RangeInclusive (r .pattern_range_inclusive), wrap .PatternKind_Character (r .pattern_char), wrap .PatternKind_Byte (r .pattern_byte), wrap .PatternKind_Number (r .pattern_number), wrap .PatternKind_Reference (r .pattern_reference), wrap .PatternKind_ByteString (r .pattern_byte_string), wrap .PatternKind_String (r .pattern_string), wrap .PatternKind_Struct (r .pattern_struct), wrap .PatternKind_Tuple (r .pattern_tuple), wrap .PatternKind_Slice (r .pattern_slice), wrap .PatternKind_MacroCall (r .pattern_macro_call), wrap .PatternKind_Box (r .pattern_box), wrap .PatternKind_Ident (r .pattern_ident)]
pattern_ident = node .PatternIdent (sq [opt (ext (tok .Ref)), opt (ext (tok .Mut)), r .pathed_ident, opt (r .pattern_tuple)])
pattern_tuple = node .PatternTuple (sq [d .LeftParen, tailedValues comma (r .pattern_tuple_member), d .RightParen])
pattern_tuple_member = alts [wrap .PatternTupleMember_Pattern (r .pattern), wrap .PatternTupleMember_Wildcard (ext (tok .DoublePeriod))]
pattern_slice = node .PatternSlice (sq [d .LeftSquare, tailedValues comma (r .pattern_slice_member), d .RightSquare])
pattern_slice_member = alts [wrap .PatternSliceMember_Subslice (r .pattern_slice_subslice), wrap .PatternSliceMember_Pattern (r .pattern), wrap .PatternSliceMember_Wildcard (ext (tok .DoublePeriod))]
pattern_slice_subslice = node .PatternSliceSubslice (sq [opt (tok .Ref), opt (tok .Mut), r .ident, d .At, d .DoublePeriod])
pattern_struct = node .PatternStruct (sq [r .pathed_ident, d .LeftCurly, tailedValues comma (r .pattern_struct_field), map .isSome (opt (tok .DoublePeriod)), d .RightCurly])
pattern_struct_field = alts [wrap .PatternStructField_Long (r .pattern_struct_field_long), wrap .PatternStructField_Short (map (.copyExtent .PatternStructFieldShort) (r .pattern_ident))]
pattern_struct_field_long = node .PatternStructFieldLong (sq [r .ident, d .Colon, r .pattern])
pattern_byte = map (.copyExtent .PatternByte) (r .expr_byte)
pattern_char = map (.copyExtent .PatternCharacter) (r .character_literal)
pattern_byte_string = map (.copyExtent .PatternByteString) (r .expr_byte_string)
pattern_string = map (.copyExtent .PatternString) (r .string_literal)
pattern_number = node .PatternNumber (sq [opt (tok .Minus), r .number_literal])
pattern_reference = node .PatternReference (sq [d .Ampersand, opt (ext (tok .Mut)), r .pattern])
pattern_box = node .PatternBox (sq [d .Box, r .pattern])
pattern_range_exclusive = node .PatternRangeExclusive (sq [r .pattern_range_component, d .DoublePeriod, r .pattern_range_component])
range_inclusive_operator = alts [wrap .RangeInclusiveOperator_Legacy (tok .TriplePeriod), wrap .RangeInclusiveOperator_Recommended (tok .DoublePeriodEquals)]
pattern_range_inclusive = node .PatternRangeInclusive (sq [r .pattern_range_component, r .range_inclusive_operator, r .pattern_range_component])
pattern_range_component = alts [wrap .PatternRangeComponent_Ident (r .pathed_ident), wrap .PatternRangeComponent_Character (r .character_literal), wrap .PatternRangeComponent_Byte (r .expr_byte), wrap .PatternRangeComponent_Number (r .pattern_number)]
pattern_macro_call = map (.copyExtent .PatternMacroCall) (r .expr_macro_call)
p_struct = node .Struct (sq [opt (r .visibility), d .Struct, r .ident, opt (r .generic_declarations), r .struct_defn_body])
struct_defn_body = alts [map (.wrapSecond .StructDefinitionBody_Brace) (r .struct_defn_body_brace), map (.wrapSecond .StructDefinitionBody_Tuple) (r .struct_defn_body_tuple), map (.wrapSecond .StructDefinitionBody_Empty) (sq [none, ext (tok .Semicolon)])]
struct_defn_body_brace = sq [wheres, r .struct_defn_body_brace_only]
struct_defn_body_brace_only = node .StructDefinitionBodyBrace (sq [d .LeftCurly, tailedValues comma (attributed .AttributedStructDefinitionFieldNamed (r .struct_defn_field)), d .RightCurly])
struct_defn_body_tuple = build .tupleBody (sq [r .struct_defn_body_tuple_only, wheres, d .Semicolon])
struct_defn_body_tuple_only = sq [d .LeftParen, tailedValues comma (attributed .AttributedStructDefinitionFieldUnnamed (r .tuple_defn_field)), d .RightParen]
tuple_defn_field = node .StructDefinitionFieldUnnamed (sq [opt (r .visibility), r .typ])
struct_defn_field = node .StructDefinitionFieldNamed (sq [opt (r .visibility), r .ident, d .Colon, r .typ])
p_union = node .Union (sq [opt (r .visibility), d .Union, r .ident, opt (r .generic_declarations), wheres, d .LeftCurly, tailedValues comma (attributed .AttributedStructDefinitionFieldNamed (r .struct_defn_field)), d .RightCurly])
p_enum = node .Enum (sq [opt (r .visibility), d .Enum, r .ident, opt (r .generic_declarations), wheres, d .LeftCurly, tailedValues comma (attributed .AttributedEnumVariant (r .enum_variant)), d .RightCurly])
enum_variant = node .EnumVariant (sq [r .ident, r .enum_variant_body])
enum_variant_body = alts [wrap .EnumVariantBody_Tuple (r .struct_defn_body_tuple_only), wrap .EnumVariantBody_Struct (r .struct_defn_body_brace_only), wrap .EnumVariantBody_Unit (opt (r .enum_discriminant))]
enum_discriminant = sq [d .Equals, r .expression]
p_trait = node .Trait (sq [opt (r .visibility), opt (tok .Unsafe), opt (tok .Auto), d .Trait, r .ident, opt (r .generic_declarations), opt (r .generic_declaration_type_bounds), wheres, d .LeftCurly, many (attributed .AttributedTraitMember (r .trait_impl_member)), d .RightCurly])
trait_impl_member = alts [wrap .TraitMember_Function (r .trait_member_function), wrap .TraitMember_Type (r .trait_member_type), wrap .TraitMember_Const (r .trait_member_const), wrap .TraitMember_MacroCall (r .item_macro_call)]
trait_member_function = node .TraitMemberFunction (sq [r .trait_impl_function_header, r .trait_impl_function_body])
trait_member_type = node .TraitMemberType (sq [d .Type, r .ident, opt (r .generic_declaration_type_bounds), opt (r .generic_declaration_type_default), d .Semicolon])
trait_member_const = node .TraitMemberConst (sq [d .Const, r .ident, d .Colon, r .typ, opt (r .trait_member_const_value), d .Semicolon])
trait_member_const_value = sq [d .Equals, r .expression]
visibility = alts [wrap .Visibility_Public (r .visibility_public), wrap .Visibility_Crate (tok .Crate)]
visibility_public = node .VisibilityPublic (sq [d .Pub, opt (r .visibility_public_qualifier)])
visibility_public_qualifier = sq [d .LeftParen, r .visibility_qualifier_kind, d .RightParen]
visibility_qualifier_kind = alts [wrap .VisibilityPublicQualifier_SelfIdent (d .SelfIdent), wrap .VisibilityPublicQualifier_Crate (d .Crate), wrap .VisibilityPublicQualifier_Path (r .path)]
trait_impl_function_header = node .TraitImplFunctionHeader (sq [opt (r .visibility), r .function_qualifiers, d .Fn, r .ident, opt (r .generic_declarations), r .trait_impl_function_arglist, opt (r .function_return_type), wheres])
trait_impl_function_arglist = sq [d .LeftParen, map .append (sq [opt (wrap .TraitImplArgument_SelfArgument (r .self_argument)), tailedValues comma (r .trait_impl_function_argument)]), d .RightParen]
trait_impl_function_argument = wrap .TraitImplArgument_Named (node .TraitImplArgumentNamed (sq [opt (r .trait_impl_function_argument_name), r .typ]))
trait_impl_function_argument_name = sq [r .pattern, d .Colon]
trait_impl_function_body = alts [map .some (r .block), map .none (tok .Semicolon)]
p_impl = node .Impl (sq [opt (ext (tok .Unsafe)), d .Impl, opt (r .generic_declarations), r .p_impl_kind, wheres, d .LeftCurly, many (attributed .AttributedImplMember (r .impl_member)), d .RightCurly])
p_impl_kind = alts [wrap .ImplKind_Trait (r .p_impl_of_trait), wrap .ImplKind_Inherent (r .p_impl_of_inherent)]
p_impl_of_inherent = node .ImplOfInherent (r .typ)
p_impl_of_trait = node .ImplOfTrait (sq [opt (ext (tok .Bang)), r .typ, d .For, r .type_or_wildcard])
type_or_wildcard = alts [wrap .ImplOfTraitType_Type (r .typ), wrap .ImplOfTraitType_Wildcard (ext (tok .DoublePeriod))]
impl_member = alts [wrap .ImplMember_Const (r .impl_const), wrap .ImplMember_Function (r .impl_function), wrap .ImplMember_Type (r .impl_type), wrap .ImplMember_MacroCall (r .item_macro_call)]
impl_function = node .ImplFunction (sq [r .function_header, r .block])
impl_type = node .ImplType (sq [d .Type, r .ident, d .Equals, r .typ, d .Semicolon])
impl_const = node .ImplConst (sq [opt (r .visibility), d .Const, r .ident, d .Colon, r .typ, d .Equals, r .expression, d .Semicolon])
p_const = node .Const (sq [opt (r .visibility), d .Const, r .ident, d .Colon, r .typ, d .Equals, r .expression, d .Semicolon])
p_static = node .Static (sq [opt (r .visibility), d .Static, opt (ext (tok .Mut)), r .ident, d .Colon, r .typ, d .Equals, r .expression, d .Semicolon])
extern_crate = node .Crate (sq [opt (r .visibility), d .Extern, d .Crate, r .ident, opt (r .extern_crate_rename), d .Semicolon])
extern_crate_rename = sq [d .As, r .ident]
extern_block = node .ExternBlock (sq [d .Extern, opt (r .string_literal), d .LeftCurly, many (attributed .AttributedExternBlockMember (r .extern_block_member)), d .RightCurly])
extern_block_member = alts [wrap .ExternBlockMember_Static (r .extern_block_static), wrap .ExternBlockMember_Type (r .extern_block_type), wrap .ExternBlockMember_Function (r .extern_block_member_function)]
extern_block_static = node .ExternBlockMemberStatic (sq [opt (r .visibility), d .Static, opt (ext (tok .Mut)), r .ident, d .Colon, r .typ, d .Semicolon])
extern_block_type = node .ExternBlockMemberType (sq [opt (r .visibility), d .Type, r .ident, d .Semicolon])
extern_block_member_function = node .ExternBlockMemberFunction (sq [opt (r .visibility), d .Fn, r .ident, opt (r .generic_declarations), r .extern_block_function_arglist, opt (r .function_return_type), wheres, d .Semicolon])
extern_block_function_arglist = sq [d .LeftParen, tailedValues comma (r .extern_block_function_argument), d .RightParen]
extern_block_function_argument = alts [wrap .ExternBlockMemberFunctionArgument_Named (r .extern_block_function_argument_named), wrap .ExternBlockMemberFunctionArgument_Variadic (r .extern_block_function_argument_variadic)]
extern_block_function_argument_named = node .ExternBlockMemberFunctionArgumentNamed (sq [r .pattern, d .Colon, r .typ])
extern_block_function_argument_variadic = node .ExternBlockMemberFunctionArgumentVariadic (d .TriplePeriod)
p_use = node .Use (sq [opt (r .visibility), d .Use, drop (opt (tok .DoubleColon)), r .use_path, d .Semicolon])
use_path = node .UsePath (sq [many (r .use_path_component), r .use_tail])
use_path_component = sq [r .path_member, d .DoubleColon]
path_member = alts [map .ident (tok .Crate), r .ident]
use_tail = alts [wrap .UseTail_Ident (r .use_tail_ident), wrap .UseTail_Glob (r .use_tail_glob), wrap .UseTail_Multi (r .use_tail_multi)]
use_tail_ident = node .UseTailIdent (sq [r .ident, opt (r .use_tail_ident_rename)])
use_tail_ident_rename = sq [d .As, r .ident]
use_tail_glob = node .UseTailGlob (d .Asterisk)
use_tail_multi = node .UseTailMulti (sq [d .LeftCurly, tailedValues comma (r .use_path), d .RightCurly])
type_alias = node .TypeAlias (sq [opt (r .visibility), d .Type, r .ident, opt (r .generic_declarations), wheres, d .Equals, r .typ, d .Semicolon])
module = node .Module (sq [opt (r .visibility), d .Mod, r .ident, r .module_body_or_not])
module_body_or_not = alts [map .some (r .module_body), map .none (tok .Semicolon)]
module_body = sq [d .LeftCurly, many (attributed .AttributedItem (r .item)), d .RightCurly]
typ = node .Type (sq [r .typ_kind, resume (tok .Plus) (r .typ_additional)])
typ_single = node .Type (sq [r .typ_kind, none])
typ_kind = alts [wrap .TypeKind_Array (r .typ_array), wrap .TypeKind_Disambiguation (r .typ_disambiguation), wrap .TypeKind_Function (r .typ_function), wrap .TypeKind_HigherRankedTraitBounds (r .typ_higher_ranked_trait_bounds), wrap .TypeKind_DynTrait (r .typ_dyn_trait), wrap .TypeKind_ImplTrait (r .typ_impl_trait), wrap .TypeKind_Named (r .typ_named), wrap .TypeKind_Pointer (r .typ_pointer), wrap .TypeKind_Reference (r .typ_reference), wrap .TypeKind_Slice (r .typ_slice), wrap .TypeKind_Tuple (r .typ_tuple), wrap .TypeKind_Uninhabited (ext (tok .Bang))]
typ_reference = node .TypeReference (sq [r .typ_reference_kind, r .typ])
typ_reference_kind = node .TypeReferenceKind (sq [d .Ampersand, opt (r .lifetime), opt (ext (tok .Mut))])
typ_pointer = node .TypePointer (sq [d .Asterisk, r .typ_pointer_kind, r .typ])
typ_pointer_kind = alts [wrap .TypePointerKind_Const (d .Const), wrap .TypePointerKind_Mutable (d .Mut)]
typ_tuple = node .TypeTuple (sq [d .LeftParen, tailedValues comma (r .typ), d .RightParen])
typ_higher_ranked_trait_bounds = node .TypeHigherRankedTraitBounds (sq [r .higher_ranked_trait_bounds, r .typ_higher_ranked_trait_bounds_child])
higher_ranked_trait_bounds = sq [d .For, d .LeftAngle, tailedValues comma (r .lifetime), d .RightAngle]
typ_higher_ranked_trait_bounds_child = alts [wrap .TypeHigherRankedTraitBoundsChild_Named (r .typ_named), wrap .TypeHigherRankedTraitBoundsChild_Function (r .typ_function), wrap .TypeHigherRankedTraitBoundsChild_Reference (r .typ_reference)]
typ_dyn_trait = node .TypeDynTrait (sq [d .Dyn, r .typ_named])
typ_impl_trait = node .TypeImplTrait (sq [d .Impl, r .typ_named])
typ_additional = alts [wrap .TypeAdditional_Named (r .typ_named), wrap .TypeAdditional_Lifetime (r .lifetime)]
typ_named = node .TypeNamed (sq [drop (opt (tok .DoubleColon)), tailed1Values (tok .DoubleColon) (r .typ_named_component)])
typ_named_component = node .TypeNamedComponent (sq [r .path_member, opt (r .typ_generics)])
typ_disambiguation = node .TypeDisambiguation (sq [r .disambiguation_core, resume (tok .DoubleColon) (r .typ_named_component)])
disambiguation_core = sq [d .LeftAngle, r .typ, opt (r .disambiguation_core_to_type), d .RightAngle]
disambiguation_core_to_type = sq [d .As, r .typ_named]
typ_array = node .TypeArray (sq [d .LeftSquare, r .typ, d .Semicolon, r .expression, d .RightSquare])
typ_slice = node .TypeSlice (sq [d .LeftSquare, r .typ, d .RightSquare])
typ_generics = alts [wrap .TypeGenerics_Function (r .typ_generics_fn), wrap .TypeGenerics_Angle (r .typ_generics_angle)]
typ_generics_fn = node .TypeGenericsFunction (sq [d .LeftParen, tailedValues comma (r .typ), d .RightParen, opt (r .function_return_type)])
typ_generics_angle = node .TypeGenericsAngle (sq [d .LeftAngle, tailedValues comma (r .typ_generics_angle_member), d .RightAngle])
typ_generics_angle_member = alts [wrap .TypeGenericsAngleMember_AssociatedType (r .associated_type), wrap .TypeGenericsAngleMember_Lifetime (r .lifetime), wrap .TypeGenericsAngleMember_Type (r .typ)]
associated_type = node .AssociatedType (sq [r .ident, r .associated_type_value])
associated_type_value = alts [wrap .AssociatedTypeValue_Equal (r .associated_type_value_equal), wrap .AssociatedTypeValue_Bound (r .associated_type_value_bound)]
associated_type_value_equal = node .AssociatedTypeValueEqual (sq [d .Equals, r .typ])
associated_type_value_bound = node .AssociatedTypeValueBound (sq [d .Colon, r .trait_bounds])
typ_function = node .TypeFunction (sq [r .function_qualifiers, d .Fn, d .LeftParen, map .append (sq [tailedValues comma (r .typ_function_argument), tailedValues comma (r .typ_function_argument_variadic)]), d .RightParen, opt (r .function_return_type)])
typ_function_argument = wrap .TypeFunctionArgument_Named (node .TypeFunctionArgumentNamed (sq [opt (r .typ_function_argument_name), r .typ]))
typ_function_argument_name = sq [r .ident, d .Colon]
typ_function_argument_variadic = wrap .TypeFunctionArgument_Variadic (tok .TriplePeriod)
lifetime = map .lifetime (tok .Lifetime)
attribute = alts [wrap .Attribute_DocCommentLine (tok .DocCommentOuterLine), wrap .Attribute_DocCommentBlock (tok .DocCommentOuterBlock), wrap .Attribute_Literal (r .attribute_literal)]
attribute_literal = node .AttributeLiteral (sq [d .Hash, nested .LeftSquare .RightSquare, d .RightSquare])
attribute_containing = alts [wrap .AttributeContaining_DocCommentLine (tok .DocCommentInnerLine), wrap .AttributeContaining_DocCommentBlock (tok .DocCommentInnerBlock), wrap .AttributeContaining_Literal (r .attribute_containing_literal)]
attribute_containing_literal = node .AttributeContainingLiteral (sq [d .Hash, d .Bang, nested .LeftSquare .RightSquare, d .RightSquare])
@expression
operator_prefix_reference = sq [d .Ampersand, opt (tok .Mut)]
operator_postfix_as_type = sq [d .As, r .typ_single]
operator_postfix_ascription = sq [d .Colon, r .typ]
operator_postfix_call = sq [d .LeftParen, amb .Unambiguous (tailedValues comma (r .expression)), d .RightParen]
operator_postfix_field_access = sq [d .Period, r .field_name]
field_name = alts [wrap .FieldName_Path (r .path_component), wrap .FieldName_Number (r .field_name_number)]
field_name_number = simpleNumber
operator_postfix_slice = sq [d .LeftSquare, amb .Unambiguous (r .expression), d .RightSquare]
expression_atom = alts [wrap .Expression_If (r .expr_if), wrap .Expression_IfLet (r .expr_if_let), wrap .Expression_ForLoop (r .expr_for_loop), wrap .Expression_Loop (r .expr_loop), wrap .Expression_While (r .expr_while), wrap .Expression_WhileLet (r .expr_while_let), wrap .Expression_Match (r .expr_match), wrap .Expression_UnsafeBlock (r .expr_unsafe_block), wrap .Expression_AsyncBlock (r .expr_async_block), wrap .Expression_Block (r .expr_block), wrap .Expression_MacroCall (r .expr_macro_call), wrap .Expression_Let (r .expr_let), r .expr_tuple_or_parenthetical, wrap .Expression_Array (r .expr_array), wrap .Expression_Character (r .character_literal), wrap .Expression_String (r .string_literal), wrap .Expression_Closure (r .expr_closure), wrap .Expression_Return (r .expr_return), wrap .Expression_Continue (r .expr_continue), wrap .Expression_Break (r .expr_break), wrap .Expression_Number (r .number_literal), wrap .Expression_Byte (r .expr_byte), wrap .Expression_ByteString (r .expr_byte_string), wrap .Expression_Disambiguation (r .expr_disambiguation), wrap .Expression_Value (r .expr_value)]
expr_macro_call = node .MacroCall (sq [r .pathed_ident, d .Bang, opt (r .ident), r .expr_macro_call_args])
expr_macro_call_args = alts [wrap .MacroCallArgs_Paren (r .expr_macro_call_paren), wrap .MacroCallArgs_Square (r .expr_macro_call_square), wrap .MacroCallArgs_Curly (r .expr_macro_call_curly)]
expr_macro_call_paren = sq [nested .LeftParen .RightParen, d .RightParen]
expr_macro_call_square = sq [nested .LeftSquare .RightSquare, d .RightSquare]
expr_macro_call_curly = sq [nested .LeftCurly .RightCurly, d .RightCurly]
expr_let = node .Let (sq [d .Let, r .pattern, opt (r .expr_let_type), opt (r .expr_let_rhs)])
expr_let_type = sq [d .Colon, r .typ]
expr_let_rhs = sq [d .Equals, r .expression]
expr_if = node .If (sq [d .If, r .expr_followed_by_block, many (r .expr_if_else_if), opt (r .expr_if_else_end)])
expr_if_else_if = sq [d .Else, r .expr_if]
expr_if_else_end = sq [d .Else, r .block]
expr_followed_by_block = sq [amb .OnlyStructLiterals (r .expression), r .block]
expr_for_loop = node .ForLoop (sq [opt (r .loop_label), d .For, r .pattern, d .In, r .expr_followed_by_block])
loop_label = sq [r .lifetime, d .Colon]
expr_loop = node .Loop (sq [opt (r .loop_label), d .Loop, r .block])
expr_if_let = node .IfLet (sq [d .If, d .Let, r .pattern, d .Equals, r .expr_followed_by_block])
expr_while = node .While (sq [opt (r .loop_label), d .While, r .expr_followed_by_block])
expr_while_let = node .WhileLet (sq [opt (r .loop_label), d .While, d .Let, r .pattern, d .Equals, r .expr_followed_by_block])
expr_match = node .Match (sq [d .Match, amb .OnlyStructLiterals (r .expression), d .LeftCurly, implTailed .values .matchArm comma (r .match_arm), d .RightCurly])
match_arm = node .MatchArm (sq [many (r .attribute), tailed1Values (tok .Pipe) (r .pattern), opt (r .match_arm_guard), d .ThickArrow, r .match_arm_hand])
match_arm_guard = sq [d .If, amb .Unambiguous (r .expression)]
match_arm_hand = alts [wrap .MatchHand_Brace (map .into (wrap .Expression_Block (amb .Unambiguous (r .expr_block)))), wrap .MatchHand_Expression (amb .Unambiguous (r .expression))]
expr_tuple_or_parenthetical = build .paren (sq [d .LeftParen, amb .Unambiguous (tailed .paren comma (r .expression)), d .RightParen])
expr_array = alts [wrap .Array_Explicit (r .expr_array_explicit), wrap .Array_Repeated (r .expr_array_repeated)]
expr_array_explicit = node .ArrayExplicit (sq [d .LeftSquare, amb .Unambiguous (tailedValues comma (r .expression)), d .RightSquare])
expr_array_repeated = node .ArrayRepeated (sq [d .LeftSquare, amb .Unambiguous (r .expression), d .Semicolon, r .expression, d .RightSquare])
expr_byte = map .byte (tok .Byte)
expr_byte_string = alts [map .byteString (tok .ByteString), map .byteString (tok .ByteStringRaw)]
expr_closure = node .Closure (sq [opt (tok .Async), opt (tok .Move), d .Pipe, tailedValues comma (r .expr_closure_arg), d .Pipe, r .expr_closure_return])
expr_closure_arg = node .ClosureArg (sq [r .pattern, opt (r .expr_closure_arg_type)])
expr_closure_arg_type = sq [d .Colon, r .typ]
expr_closure_return = alts [r .expr_closure_return_explicit, r .expr_closure_return_inferred]
expr_closure_return_explicit = sq [d .ThinArrow, map .some (r .typ), map .into (r .expr_closure_return_body)]
expr_closure_return_body = alts [r .expr_tuple_or_parenthetical, wrap .Expression_Block (r .expr_block)]
expr_closure_return_inferred = sq [none, r .expression]
expr_return = node .Return (sq [d .Return, opt (r .expression)])
expr_continue = node .Continue (sq [d .Continue, opt (r .lifetime)])
expr_break = node .Break (sq [d .Break, opt (r .lifetime), opt (r .expression)])
expr_block = notMaximum (r .block)
expr_unsafe_block = node .UnsafeBlock (sq [d .Unsafe, r .block])
expr_async_block = node .AsyncBlock (map .swap (sq [d .Async, opt (tok .Move), r .block]))
expr_value = ifAmbiguous (node .Value (sq [r .pathed_ident, none])) (node .Value (sq [r .pathed_ident, opt (r .expr_value_struct_literal)]))
expr_value_struct_literal = node .StructLiteral (sq [d .LeftCurly, tailedValues comma (r .expr_value_struct_literal_field), opt (r .expr_value_struct_literal_splat), d .RightCurly])
expr_value_struct_literal_field = nodeEmpty .StructLiteralField (map .fieldValue (sq [build .span (r .ident), opt (r .expr_value_struct_literal_field_value)]))
expr_value_struct_literal_field_value = sq [d .Colon, amb .Unambiguous (r .expression)]
expr_value_struct_literal_splat = sq [d .DoublePeriod, amb .Unambiguous (r .expression)]
expr_disambiguation = node .Disambiguation (sq [r .disambiguation_core, resume (tok .DoubleColon) (r .path_component)])
