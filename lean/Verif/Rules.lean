import Verif.Gram
/-!
# The grammar rules

Generated by `tools/mkrules.py` from `tools/rules.txt`, which is a transcription by hand of `src/parser/mod.rs` and
`src/parser/expression.rs`: one rule for each parser function.  The functions of the tables at the end are the operator
parsers used by the shunting yard.
-/

namespace Verif

namespace Rules
open G

/-- `src/parser/mod.rs` 330-348, `item`. -/
def rule_item : G :=
  alts [wrap .Item_AttributeContaining (r .attribute_containing), wrap .Item_Const (r .p_const), wrap
  .Item_ExternCrate (r .extern_crate), wrap .Item_ExternBlock (r .extern_block), wrap .Item_Function (r
  .function), wrap .Item_MacroCall (r .item_macro_call), wrap .Item_Module (r .«module»), wrap .Item_Enum (r
  .p_enum), wrap .Item_Impl (r .p_impl), wrap .Item_Static (r .p_static), wrap .Item_Struct (r .p_struct), wrap
  .Item_Trait (r .p_trait), wrap .Item_Union (r .p_union), wrap .Item_Use (r .p_use), wrap .Item_TypeAlias (r
  .type_alias)]

/-- `src/parser/mod.rs` 578-589, `function`. -/
def rule_function : G :=
  node .Function (sq [r .function_header, r .block])

/-- `src/parser/mod.rs` 591-614, `function_header`. -/
def rule_function_header : G :=
  node .FunctionHeader (sq [opt (r .visibility), r .function_qualifiers, d .Fn, r .ident, opt (r
  .generic_declarations), r .function_arglist, opt (r .function_return_type), wheres])

/-- `src/parser/mod.rs` 618-645, `function_qualifiers`. -/
def rule_function_qualifiers : G :=
  node .FunctionQualifiers (sq [opt (ext (tok .Default)), opt (ext (tok .Const)), opt (ext (tok .Unsafe)), opt
  (ext (tok .Async)), map .externAbi (opt (r .function_qualifier_extern))])

/-- `src/parser/mod.rs` 647-654, `function_qualifier_extern`. -/
def rule_function_qualifier_extern : G :=
  sq [ext (tok .Extern), opt (r .string_literal)]

/-- `src/parser/mod.rs` 656-667, `ident`. -/
def rule_ident : G :=
  mapErr (.Expected .Ident) (map .ident (alts [tok .Default, tok .SelfIdent, tok .Dyn, tok .Union, tok .Ident]))

/-- `src/parser/mod.rs` 669-684, `generic_declarations`. -/
def rule_generic_declarations : G :=
  node .GenericDeclarations (sq [d .LeftAngle, tailedValues comma (attributed
  .AttributedGenericDeclarationLifetime (r .generic_declaration_lifetime)), tailedValues comma (attributed
  .AttributedGenericDeclarationType (r .generic_declaration_type)), tailedValues comma (attributed
  .AttributedGenericDeclarationConst (r .generic_declaration_const)), d .RightAngle])

/-- `src/parser/mod.rs` 686-697, `generic_declaration_lifetime`. -/
def rule_generic_declaration_lifetime : G :=
  node .GenericDeclarationLifetime (sq [r .lifetime, map .flat (opt (r .generic_declaration_lifetime_bounds))])

/-- `src/parser/mod.rs` 699-704, `generic_declaration_lifetime_bounds`. -/
def rule_generic_declaration_lifetime_bounds : G :=
  sq [d .Colon, tailedValues (tok .Plus) (r .lifetime)]

/-- `src/parser/mod.rs` 706-720, `generic_declaration_type`. -/
def rule_generic_declaration_type : G :=
  node .GenericDeclarationType (sq [r .ident, opt (r .generic_declaration_type_bounds), opt (r
  .generic_declaration_type_default)])

/-- `src/parser/mod.rs` 722-727, `generic_declaration_type_bounds`. -/
def rule_generic_declaration_type_bounds : G :=
  sq [d .Colon, r .trait_bounds]

/-- `src/parser/mod.rs` 729-734, `generic_declaration_type_default`. -/
def rule_generic_declaration_type_default : G :=
  sq [d .Equals, r .typ]

/-- `src/parser/mod.rs` 736-749, `generic_declaration_const`. -/
def rule_generic_declaration_const : G :=
  node .GenericDeclarationConst (sq [d .Const, r .ident, d .Colon, r .typ])

/-- `src/parser/mod.rs` 751-758, `function_arglist`. -/
def rule_function_arglist : G :=
  sq [d .LeftParen, map .append (sq [opt (wrap .Argument_SelfArgument (r .self_argument)), tailedValues comma (r
  .function_argument)]), d .RightParen]

/-- `src/parser/mod.rs` 760-765, `self_argument`. -/
def rule_self_argument : G :=
  alts [wrap .SelfArgument_Longhand (r .self_argument_longhand), wrap .SelfArgument_Shorthand (r
  .self_argument_shorthand)]

/-- `src/parser/mod.rs` 767-782, `self_argument_longhand`. -/
def rule_self_argument_longhand : G :=
  node .SelfArgumentLonghand (sq [opt (tok .Mut), map .ident (tok .SelfIdent), d .Colon, r .typ, drop (opt
  comma)])

/-- `src/parser/mod.rs` 784-796, `self_argument_shorthand`. -/
def rule_self_argument_shorthand : G :=
  node .SelfArgumentShorthand (sq [opt (r .self_argument_qualifier), map .ident (tok .SelfIdent), drop (opt
  comma)])

/-- `src/parser/mod.rs` 798-805, `self_argument_qualifier`. -/
def rule_self_argument_qualifier : G :=
  alts [wrap .SelfArgumentShorthandQualifier_Reference (r .typ_reference_kind), wrap
  .SelfArgumentShorthandQualifier_Mut (ext (tok .Mut))]

/-- `src/parser/mod.rs` 807-819, `function_argument`. -/
def rule_function_argument : G :=
  wrap .Argument_Named (node .NamedArgument (sq [r .pattern, d .Colon, r .typ]))

/-- `src/parser/mod.rs` 821-826, `function_return_type`. -/
def rule_function_return_type : G :=
  sq [d .ThinArrow, r .typ]

/-- `src/parser/mod.rs` 828-833, `where_clause`. -/
def rule_where_clause : G :=
  sq [d .Where, tailed1Values comma (r .where_clause_item)]

/-- `src/parser/mod.rs` 835-846, `where_clause_item`. -/
def rule_where_clause_item : G :=
  node .Where (sq [map .flat (opt (r .higher_ranked_trait_bounds)), r .where_clause_kind])

/-- `src/parser/mod.rs` 848-853, `where_clause_kind`. -/
def rule_where_clause_kind : G :=
  alts [wrap .WhereKind_Lifetime (r .where_lifetime), wrap .WhereKind_Type (r .where_type)]

/-- `src/parser/mod.rs` 855-866, `where_lifetime`. -/
def rule_where_lifetime : G :=
  node .WhereLifetime (sq [r .lifetime, r .generic_declaration_lifetime_bounds])

/-- `src/parser/mod.rs` 868-879, `where_type`. -/
def rule_where_type : G :=
  node .WhereType (sq [r .typ, r .generic_declaration_type_bounds])

/-- `src/parser/mod.rs` 881-890, `trait_bounds`. -/
def rule_trait_bounds : G :=
  node .TraitBounds (tailedValues (tok .Plus) (r .trait_bound))

/-- `src/parser/mod.rs` 892-898, `trait_bound`. -/
def rule_trait_bound : G :=
  alts [wrap .TraitBound_Lifetime (r .trait_bound_lifetime), wrap .TraitBound_Normal (r .trait_bound_normal), wrap
  .TraitBound_Relaxed (r .trait_bound_relaxed)]

/-- `src/parser/mod.rs` 900-909, `trait_bound_lifetime`. -/
def rule_trait_bound_lifetime : G :=
  node .TraitBoundLifetime (r .lifetime)

/-- `src/parser/mod.rs` 911-920, `trait_bound_normal`. -/
def rule_trait_bound_normal : G :=
  node .TraitBoundNormal (r .trait_bound_normal_child)

/-- `src/parser/mod.rs` 922-929, `trait_bound_normal_child`. -/
def rule_trait_bound_normal_child : G :=
  alts [wrap .TraitBoundType_Named (r .typ_named), wrap .TraitBoundType_HigherRankedTraitBounds (r
  .typ_higher_ranked_trait_bounds)]

/-- `src/parser/mod.rs` 931-937, `trait_bound_relaxed`. -/
def rule_trait_bound_relaxed : G :=
  node .TraitBoundRelaxed (sq [d .QuestionMark, r .trait_bound_normal_child])

/-- `src/parser/mod.rs` 939-959, `block`. -/
def rule_block : G :=
  node .Block (sq [d .LeftCurly, implTailed .block .statement (tok .Semicolon) (r .statement), d .RightCurly])

/-- `src/parser/mod.rs` 961-967, `statement`. -/
def rule_statement : G :=
  alts [wrap .Statement_Item (attributed .AttributedItem (r .item)), wrap .Statement_Expression (r
  .statement_expression), wrap .Statement_Empty (r .statement_empty)]

/-- `src/parser/mod.rs` 969-974, `statement_empty`. -/
def rule_statement_empty : G :=
  ext (peek (tok .Semicolon))

/-- `src/parser/mod.rs` 988-1002, `item_macro_call`. -/
def rule_item_macro_call : G :=
  node .MacroCall (sq [r .pathed_ident, d .Bang, opt (r .ident), r .item_macro_call_args])

/-- `src/parser/mod.rs` 1004-1010, `item_macro_call_args`. -/
def rule_item_macro_call_args : G :=
  alts [wrap .MacroCallArgs_Paren (r .item_macro_call_paren), wrap .MacroCallArgs_Square (r
  .item_macro_call_square), wrap .MacroCallArgs_Curly (r .item_macro_call_curly)]

/-- `src/parser/mod.rs` 1012-1019, `item_macro_call_paren`. -/
def rule_item_macro_call_paren : G :=
  sq [nested .LeftParen .RightParen, d .RightParen, d .Semicolon]

/-- `src/parser/mod.rs` 1021-1028, `item_macro_call_square`. -/
def rule_item_macro_call_square : G :=
  sq [nested .LeftSquare .RightSquare, d .RightSquare, d .Semicolon]

/-- `src/parser/mod.rs` 1030-1036, `item_macro_call_curly`. -/
def rule_item_macro_call_curly : G :=
  sq [nested .LeftCurly .RightCurly, d .RightCurly]

/-- `src/parser/mod.rs` 1038-1041, `character_literal`. -/
def rule_character_literal : G :=
  map .character (tok .Character)

/-- `src/parser/mod.rs` 1043-1049, `string_literal`. -/
def rule_string_literal : G :=
  alts [map .string (tok .String), map .string (tok .StringRaw)]

/-- `src/parser/mod.rs` 1051-1055, `number_literal`. -/
def rule_number_literal : G :=
  number

/-- `src/parser/mod.rs` 1078-1088, `path`. -/
def rule_path : G :=
  node .Path (sq [drop (opt (tok .DoubleColon)), tailed1Values (tok .DoubleColon) (r .ident)])

/-- `src/parser/mod.rs` 1090-1100, `pathed_ident`. -/
def rule_pathed_ident : G :=
  node .PathedIdent (sq [drop (opt (tok .DoubleColon)), tailed1Values (tok .DoubleColon) (r .path_component)])

/-- `src/parser/mod.rs` 1102-1113, `path_component`. -/
def rule_path_component : G :=
  node .PathComponent (sq [r .path_member, opt (r .turbofish)])

/-- `src/parser/mod.rs` 1115-1129, `turbofish`. -/
def rule_turbofish : G :=
  node .Turbofish (sq [d .DoubleColon, d .LeftAngle, tailedValues comma (r .lifetime), tailedValues comma (r
  .typ), d .RightAngle])

/-- `src/parser/mod.rs` 1131-1142, `pattern`. -/
def rule_pattern : G :=
  node .Pattern (sq [opt (r .pattern_name), r .pattern_kind])

/-- `src/parser/mod.rs` 1144-1152, `pattern_name`. -/
def rule_pattern_name : G :=
  nodeEmpty .PatternName (sq [opt (ext (tok .Ref)), opt (ext (tok .Mut)), r .ident, d .At])

/-- `src/parser/mod.rs` 1154-1173, `pattern_kind`. -/
def rule_pattern_kind : G :=
  alts [wrap .PatternKind_RangeExclusive (r .pattern_range_exclusive), wrap .PatternKind_RangeInclusive (r
  .pattern_range_inclusive), wrap .PatternKind_Character (r .pattern_char), wrap .PatternKind_Byte (r
  .pattern_byte), wrap .PatternKind_Number (r .pattern_number), wrap .PatternKind_Reference (r
  .pattern_reference), wrap .PatternKind_ByteString (r .pattern_byte_string), wrap .PatternKind_String (r
  .pattern_string), wrap .PatternKind_Struct (r .pattern_struct), wrap .PatternKind_Tuple (r .pattern_tuple), wrap
  .PatternKind_Slice (r .pattern_slice), wrap .PatternKind_MacroCall (r .pattern_macro_call), wrap
  .PatternKind_Box (r .pattern_box), wrap .PatternKind_Ident (r .pattern_ident)]

/-- `src/parser/mod.rs` 1175-1190, `pattern_ident`. -/
def rule_pattern_ident : G :=
  node .PatternIdent (sq [opt (ext (tok .Ref)), opt (ext (tok .Mut)), r .pathed_ident, opt (r .pattern_tuple)])

/-- `src/parser/mod.rs` 1192-1203, `pattern_tuple`. -/
def rule_pattern_tuple : G :=
  node .PatternTuple (sq [d .LeftParen, tailedValues comma (r .pattern_tuple_member), d .RightParen])

/-- `src/parser/mod.rs` 1205-1212, `pattern_tuple_member`. -/
def rule_pattern_tuple_member : G :=
  alts [wrap .PatternTupleMember_Pattern (r .pattern), wrap .PatternTupleMember_Wildcard (ext (tok
  .DoublePeriod))]

/-- `src/parser/mod.rs` 1214-1225, `pattern_slice`. -/
def rule_pattern_slice : G :=
  node .PatternSlice (sq [d .LeftSquare, tailedValues comma (r .pattern_slice_member), d .RightSquare])

/-- `src/parser/mod.rs` 1227-1235, `pattern_slice_member`. -/
def rule_pattern_slice_member : G :=
  alts [wrap .PatternSliceMember_Subslice (r .pattern_slice_subslice), wrap .PatternSliceMember_Pattern (r
  .pattern), wrap .PatternSliceMember_Wildcard (ext (tok .DoublePeriod))]

/-- `src/parser/mod.rs` 1237-1252, `pattern_slice_subslice`. -/
def rule_pattern_slice_subslice : G :=
  node .PatternSliceSubslice (sq [opt (tok .Ref), opt (tok .Mut), r .ident, d .At, d .DoublePeriod])

/-- `src/parser/mod.rs` 1254-1269, `pattern_struct`. -/
def rule_pattern_struct : G :=
  node .PatternStruct (sq [r .pathed_ident, d .LeftCurly, tailedValues comma (r .pattern_struct_field), map
  .isSome (opt (tok .DoublePeriod)), d .RightCurly])

/-- `src/parser/mod.rs` 1271-1278, `pattern_struct_field`. -/
def rule_pattern_struct_field : G :=
  alts [wrap .PatternStructField_Long (r .pattern_struct_field_long), wrap .PatternStructField_Short (map
  (.copyExtent .PatternStructFieldShort) (r .pattern_ident))]

/-- `src/parser/mod.rs` 1280-1289, `pattern_struct_field_long`. -/
def rule_pattern_struct_field_long : G :=
  node .PatternStructFieldLong (sq [r .ident, d .Colon, r .pattern])

/-- `src/parser/mod.rs` 1291-1293, `pattern_byte`. -/
def rule_pattern_byte : G :=
  map (.copyExtent .PatternByte) (r .expr_byte)

/-- `src/parser/mod.rs` 1295-1297, `pattern_char`. -/
def rule_pattern_char : G :=
  map (.copyExtent .PatternCharacter) (r .character_literal)

/-- `src/parser/mod.rs` 1299-1301, `pattern_byte_string`. -/
def rule_pattern_byte_string : G :=
  map (.copyExtent .PatternByteString) (r .expr_byte_string)

/-- `src/parser/mod.rs` 1303-1305, `pattern_string`. -/
def rule_pattern_string : G :=
  map (.copyExtent .PatternString) (r .string_literal)

/-- `src/parser/mod.rs` 1307-1318, `pattern_number`. -/
def rule_pattern_number : G :=
  node .PatternNumber (sq [opt (tok .Minus), r .number_literal])

/-- `src/parser/mod.rs` 1320-1332, `pattern_reference`. -/
def rule_pattern_reference : G :=
  node .PatternReference (sq [d .Ampersand, opt (ext (tok .Mut)), r .pattern])

/-- `src/parser/mod.rs` 1334-1344, `pattern_box`. -/
def rule_pattern_box : G :=
  node .PatternBox (sq [d .Box, r .pattern])

/-- `src/parser/mod.rs` 1346-1360, `pattern_range_exclusive`. -/
def rule_pattern_range_exclusive : G :=
  node .PatternRangeExclusive (sq [r .pattern_range_component, d .DoublePeriod, r .pattern_range_component])

/-- `src/parser/mod.rs` 1362-1369, `range_inclusive_operator`. -/
def rule_range_inclusive_operator : G :=
  alts [wrap .RangeInclusiveOperator_Legacy (tok .TriplePeriod), wrap .RangeInclusiveOperator_Recommended (tok
  .DoublePeriodEquals)]

/-- `src/parser/mod.rs` 1371-1386, `pattern_range_inclusive`. -/
def rule_pattern_range_inclusive : G :=
  node .PatternRangeInclusive (sq [r .pattern_range_component, r .range_inclusive_operator, r
  .pattern_range_component])

/-- `src/parser/mod.rs` 1388-1395, `pattern_range_component`. -/
def rule_pattern_range_component : G :=
  alts [wrap .PatternRangeComponent_Ident (r .pathed_ident), wrap .PatternRangeComponent_Character (r
  .character_literal), wrap .PatternRangeComponent_Byte (r .expr_byte), wrap .PatternRangeComponent_Number (r
  .pattern_number)]

/-- `src/parser/mod.rs` 1397-1403, `pattern_macro_call`. -/
def rule_pattern_macro_call : G :=
  map (.copyExtent .PatternMacroCall) (r .expr_macro_call)

/-- `src/parser/mod.rs` 1405-1422, `p_struct`. -/
def rule_p_struct : G :=
  node .Struct (sq [opt (r .visibility), d .Struct, r .ident, opt (r .generic_declarations), r .struct_defn_body])

/-- `src/parser/mod.rs` 1424-1432, `struct_defn_body`. -/
def rule_struct_defn_body : G :=
  alts [map (.wrapSecond .StructDefinitionBody_Brace) (r .struct_defn_body_brace), map (.wrapSecond
  .StructDefinitionBody_Tuple) (r .struct_defn_body_tuple), map (.wrapSecond .StructDefinitionBody_Empty) (sq
  [none, ext (tok .Semicolon)])]

/-- `src/parser/mod.rs` 1434-1441, `struct_defn_body_brace`. -/
def rule_struct_defn_body_brace : G :=
  sq [wheres, r .struct_defn_body_brace_only]

/-- `src/parser/mod.rs` 1443-1452, `struct_defn_body_brace_only`. -/
def rule_struct_defn_body_brace_only : G :=
  node .StructDefinitionBodyBrace (sq [d .LeftCurly, tailedValues comma (attributed
  .AttributedStructDefinitionFieldNamed (r .struct_defn_field)), d .RightCurly])

/-- `src/parser/mod.rs` 1454-1463, `struct_defn_body_tuple`. -/
def rule_struct_defn_body_tuple : G :=
  build .tupleBody (sq [r .struct_defn_body_tuple_only, wheres, d .Semicolon])

/-- `src/parser/mod.rs` 1465-1471, `struct_defn_body_tuple_only`. -/
def rule_struct_defn_body_tuple_only : G :=
  sq [d .LeftParen, tailedValues comma (attributed .AttributedStructDefinitionFieldUnnamed (r .tuple_defn_field)),
  d .RightParen]

/-- `src/parser/mod.rs` 1473-1484, `tuple_defn_field`. -/
def rule_tuple_defn_field : G :=
  node .StructDefinitionFieldUnnamed (sq [opt (r .visibility), r .typ])

/-- `src/parser/mod.rs` 1486-1500, `struct_defn_field`. -/
def rule_struct_defn_field : G :=
  node .StructDefinitionFieldNamed (sq [opt (r .visibility), r .ident, d .Colon, r .typ])

/-- `src/parser/mod.rs` 1502-1522, `p_union`. -/
def rule_p_union : G :=
  node .Union (sq [opt (r .visibility), d .Union, r .ident, opt (r .generic_declarations), wheres, d .LeftCurly,
  tailedValues comma (attributed .AttributedStructDefinitionFieldNamed (r .struct_defn_field)), d .RightCurly])

/-- `src/parser/mod.rs` 1524-1544, `p_enum`. -/
def rule_p_enum : G :=
  node .Enum (sq [opt (r .visibility), d .Enum, r .ident, opt (r .generic_declarations), wheres, d .LeftCurly,
  tailedValues comma (attributed .AttributedEnumVariant (r .enum_variant)), d .RightCurly])

/-- `src/parser/mod.rs` 1546-1557, `enum_variant`. -/
def rule_enum_variant : G :=
  node .EnumVariant (sq [r .ident, r .enum_variant_body])

/-- `src/parser/mod.rs` 1559-1565, `enum_variant_body`. -/
def rule_enum_variant_body : G :=
  alts [wrap .EnumVariantBody_Tuple (r .struct_defn_body_tuple_only), wrap .EnumVariantBody_Struct (r
  .struct_defn_body_brace_only), wrap .EnumVariantBody_Unit (opt (r .enum_discriminant))]

/-- `src/parser/mod.rs` 1567-1572, `enum_discriminant`. -/
def rule_enum_discriminant : G :=
  sq [d .Equals, r .expression]

/-- `src/parser/mod.rs` 1574-1600, `p_trait`. -/
def rule_p_trait : G :=
  node .Trait (sq [opt (r .visibility), opt (tok .Unsafe), opt (tok .Auto), d .Trait, r .ident, opt (r
  .generic_declarations), opt (r .generic_declaration_type_bounds), wheres, d .LeftCurly, many (attributed
  .AttributedTraitMember (r .trait_impl_member)), d .RightCurly])

/-- `src/parser/mod.rs` 1603-1610, `trait_impl_member`. -/
def rule_trait_impl_member : G :=
  alts [wrap .TraitMember_Function (r .trait_member_function), wrap .TraitMember_Type (r .trait_member_type), wrap
  .TraitMember_Const (r .trait_member_const), wrap .TraitMember_MacroCall (r .item_macro_call)]

/-- `src/parser/mod.rs` 1612-1623, `trait_member_function`. -/
def rule_trait_member_function : G :=
  node .TraitMemberFunction (sq [r .trait_impl_function_header, r .trait_impl_function_body])

/-- `src/parser/mod.rs` 1625-1640, `trait_member_type`. -/
def rule_trait_member_type : G :=
  node .TraitMemberType (sq [d .Type, r .ident, opt (r .generic_declaration_type_bounds), opt (r
  .generic_declaration_type_default), d .Semicolon])

/-- `src/parser/mod.rs` 1642-1652, `trait_member_const`. -/
def rule_trait_member_const : G :=
  node .TraitMemberConst (sq [d .Const, r .ident, d .Colon, r .typ, opt (r .trait_member_const_value), d
  .Semicolon])

/-- `src/parser/mod.rs` 1654-1659, `trait_member_const_value`. -/
def rule_trait_member_const_value : G :=
  sq [d .Equals, r .expression]

/-- `src/parser/mod.rs` 1661-1666, `visibility`. -/
def rule_visibility : G :=
  alts [wrap .Visibility_Public (r .visibility_public), wrap .Visibility_Crate (tok .Crate)]

/-- `src/parser/mod.rs` 1668-1674, `visibility_public`. -/
def rule_visibility_public : G :=
  node .VisibilityPublic (sq [d .Pub, opt (r .visibility_public_qualifier)])

/-- `src/parser/mod.rs` 1676-1684, `visibility_public_qualifier`. -/
def rule_visibility_public_qualifier : G :=
  sq [d .LeftParen, r .visibility_qualifier_kind, d .RightParen]

/-- `src/parser/mod.rs` 1686-1694, `visibility_qualifier_kind`. -/
def rule_visibility_qualifier_kind : G :=
  alts [wrap .VisibilityPublicQualifier_SelfIdent (d .SelfIdent), wrap .VisibilityPublicQualifier_Crate (d
  .Crate), wrap .VisibilityPublicQualifier_Path (r .path)]

/-- `src/parser/mod.rs` 1697-1720, `trait_impl_function_header`. -/
def rule_trait_impl_function_header : G :=
  node .TraitImplFunctionHeader (sq [opt (r .visibility), r .function_qualifiers, d .Fn, r .ident, opt (r
  .generic_declarations), r .trait_impl_function_arglist, opt (r .function_return_type), wheres])

/-- `src/parser/mod.rs` 1722-1729, `trait_impl_function_arglist`. -/
def rule_trait_impl_function_arglist : G :=
  sq [d .LeftParen, map .append (sq [opt (wrap .TraitImplArgument_SelfArgument (r .self_argument)), tailedValues
  comma (r .trait_impl_function_argument)]), d .RightParen]

/-- `src/parser/mod.rs` 1731-1742, `trait_impl_function_argument`. -/
def rule_trait_impl_function_argument : G :=
  wrap .TraitImplArgument_Named (node .TraitImplArgumentNamed (sq [opt (r .trait_impl_function_argument_name), r
  .typ]))

/-- `src/parser/mod.rs` 1744-1751, `trait_impl_function_argument_name`. -/
def rule_trait_impl_function_argument_name : G :=
  sq [r .pattern, d .Colon]

/-- `src/parser/mod.rs` 1753-1758, `trait_impl_function_body`. -/
def rule_trait_impl_function_body : G :=
  alts [map .some (r .block), map .none (tok .Semicolon)]

/-- `src/parser/mod.rs` 1760-1780, `p_impl`. -/
def rule_p_impl : G :=
  node .Impl (sq [opt (ext (tok .Unsafe)), d .Impl, opt (r .generic_declarations), r .p_impl_kind, wheres, d
  .LeftCurly, many (attributed .AttributedImplMember (r .impl_member)), d .RightCurly])

/-- `src/parser/mod.rs` 1782-1787, `p_impl_kind`. -/
def rule_p_impl_kind : G :=
  alts [wrap .ImplKind_Trait (r .p_impl_of_trait), wrap .ImplKind_Inherent (r .p_impl_of_inherent)]

/-- `src/parser/mod.rs` 1789-1798, `p_impl_of_inherent`. -/
def rule_p_impl_of_inherent : G :=
  node .ImplOfInherent (r .typ)

/-- `src/parser/mod.rs` 1800-1814, `p_impl_of_trait`. -/
def rule_p_impl_of_trait : G :=
  node .ImplOfTrait (sq [opt (ext (tok .Bang)), r .typ, d .For, r .type_or_wildcard])

/-- `src/parser/mod.rs` 1816-1821, `type_or_wildcard`. -/
def rule_type_or_wildcard : G :=
  alts [wrap .ImplOfTraitType_Type (r .typ), wrap .ImplOfTraitType_Wildcard (ext (tok .DoublePeriod))]

/-- `src/parser/mod.rs` 1823-1830, `impl_member`. -/
def rule_impl_member : G :=
  alts [wrap .ImplMember_Const (r .impl_const), wrap .ImplMember_Function (r .impl_function), wrap
  .ImplMember_Type (r .impl_type), wrap .ImplMember_MacroCall (r .item_macro_call)]

/-- `src/parser/mod.rs` 1832-1843, `impl_function`. -/
def rule_impl_function : G :=
  node .ImplFunction (sq [r .function_header, r .block])

/-- `src/parser/mod.rs` 1845-1854, `impl_type`. -/
def rule_impl_type : G :=
  node .ImplType (sq [d .Type, r .ident, d .Equals, r .typ, d .Semicolon])

/-- `src/parser/mod.rs` 1856-1874, `impl_const`. -/
def rule_impl_const : G :=
  node .ImplConst (sq [opt (r .visibility), d .Const, r .ident, d .Colon, r .typ, d .Equals, r .expression, d
  .Semicolon])

/-- `src/parser/mod.rs` 1878-1890, `p_const`. -/
def rule_p_const : G :=
  node .Const (sq [opt (r .visibility), d .Const, r .ident, d .Colon, r .typ, d .Equals, r .expression, d
  .Semicolon])

/-- `src/parser/mod.rs` 1892-1905, `p_static`. -/
def rule_p_static : G :=
  node .Static (sq [opt (r .visibility), d .Static, opt (ext (tok .Mut)), r .ident, d .Colon, r .typ, d .Equals, r
  .expression, d .Semicolon])

/-- `src/parser/mod.rs` 1907-1917, `extern_crate`. -/
def rule_extern_crate : G :=
  node .Crate (sq [opt (r .visibility), d .Extern, d .Crate, r .ident, opt (r .extern_crate_rename), d
  .Semicolon])

/-- `src/parser/mod.rs` 1919-1924, `extern_crate_rename`. -/
def rule_extern_crate_rename : G :=
  sq [d .As, r .ident]

/-- `src/parser/mod.rs` 1926-1935, `extern_block`. -/
def rule_extern_block : G :=
  node .ExternBlock (sq [d .Extern, opt (r .string_literal), d .LeftCurly, many (attributed
  .AttributedExternBlockMember (r .extern_block_member)), d .RightCurly])

/-- `src/parser/mod.rs` 1937-1943, `extern_block_member`. -/
def rule_extern_block_member : G :=
  alts [wrap .ExternBlockMember_Static (r .extern_block_static), wrap .ExternBlockMember_Type (r
  .extern_block_type), wrap .ExternBlockMember_Function (r .extern_block_member_function)]

/-- `src/parser/mod.rs` 1946-1957, `extern_block_static`. -/
def rule_extern_block_static : G :=
  node .ExternBlockMemberStatic (sq [opt (r .visibility), d .Static, opt (ext (tok .Mut)), r .ident, d .Colon, r
  .typ, d .Semicolon])

/-- `src/parser/mod.rs` 1959-1972, `extern_block_type`. -/
def rule_extern_block_type : G :=
  node .ExternBlockMemberType (sq [opt (r .visibility), d .Type, r .ident, d .Semicolon])

/-- `src/parser/mod.rs` 1975-2000, `extern_block_member_function`. -/
def rule_extern_block_member_function : G :=
  node .ExternBlockMemberFunction (sq [opt (r .visibility), d .Fn, r .ident, opt (r .generic_declarations), r
  .extern_block_function_arglist, opt (r .function_return_type), wheres, d .Semicolon])

/-- `src/parser/mod.rs` 2002-2010, `extern_block_function_arglist`. -/
def rule_extern_block_function_arglist : G :=
  sq [d .LeftParen, tailedValues comma (r .extern_block_function_argument), d .RightParen]

/-- `src/parser/mod.rs` 2012-2019, `extern_block_function_argument`. -/
def rule_extern_block_function_argument : G :=
  alts [wrap .ExternBlockMemberFunctionArgument_Named (r .extern_block_function_argument_named), wrap
  .ExternBlockMemberFunctionArgument_Variadic (r .extern_block_function_argument_variadic)]

/-- `src/parser/mod.rs` 2021-2035, `extern_block_function_argument_named`. -/
def rule_extern_block_function_argument_named : G :=
  node .ExternBlockMemberFunctionArgumentNamed (sq [r .pattern, d .Colon, r .typ])

/-- `src/parser/mod.rs` 2037-2044, `extern_block_function_argument_variadic`. -/
def rule_extern_block_function_argument_variadic : G :=
  node .ExternBlockMemberFunctionArgumentVariadic (d .TriplePeriod)

/-- `src/parser/mod.rs` 2046-2057, `p_use`. -/
def rule_p_use : G :=
  node .Use (sq [opt (r .visibility), d .Use, drop (opt (tok .DoubleColon)), r .use_path, d .Semicolon])

/-- `src/parser/mod.rs` 2059-2070, `use_path`. -/
def rule_use_path : G :=
  node .UsePath (sq [many (r .use_path_component), r .use_tail])

/-- `src/parser/mod.rs` 2072-2077, `use_path_component`. -/
def rule_use_path_component : G :=
  sq [r .path_member, d .DoubleColon]

/-- `src/parser/mod.rs` 2079-2084, `path_member`. -/
def rule_path_member : G :=
  alts [map .ident (tok .Crate), r .ident]

/-- `src/parser/mod.rs` 2086-2092, `use_tail`. -/
def rule_use_tail : G :=
  alts [wrap .UseTail_Ident (r .use_tail_ident), wrap .UseTail_Glob (r .use_tail_glob), wrap .UseTail_Multi (r
  .use_tail_multi)]

/-- `src/parser/mod.rs` 2094-2105, `use_tail_ident`. -/
def rule_use_tail_ident : G :=
  node .UseTailIdent (sq [r .ident, opt (r .use_tail_ident_rename)])

/-- `src/parser/mod.rs` 2107-2112, `use_tail_ident_rename`. -/
def rule_use_tail_ident_rename : G :=
  sq [d .As, r .ident]

/-- `src/parser/mod.rs` 2114-2119, `use_tail_glob`. -/
def rule_use_tail_glob : G :=
  node .UseTailGlob (d .Asterisk)

/-- `src/parser/mod.rs` 2121-2132, `use_tail_multi`. -/
def rule_use_tail_multi : G :=
  node .UseTailMulti (sq [d .LeftCurly, tailedValues comma (r .use_path), d .RightCurly])

/-- `src/parser/mod.rs` 2134-2154, `type_alias`. -/
def rule_type_alias : G :=
  node .TypeAlias (sq [opt (r .visibility), d .Type, r .ident, opt (r .generic_declarations), wheres, d .Equals, r
  .typ, d .Semicolon])

/-- `src/parser/mod.rs` 2156-2164, `module`. -/
def rule_module : G :=
  node .Module (sq [opt (r .visibility), d .Mod, r .ident, r .module_body_or_not])

/-- `src/parser/mod.rs` 2166-2171, `module_body_or_not`. -/
def rule_module_body_or_not : G :=
  alts [map .some (r .module_body), map .none (tok .Semicolon)]

/-- `src/parser/mod.rs` 2173-2179, `module_body`. -/
def rule_module_body : G :=
  sq [d .LeftCurly, many (attributed .AttributedItem (r .item)), d .RightCurly]

/-- `src/parser/mod.rs` 2181-2192, `typ`. -/
def rule_typ : G :=
  node .Type (sq [r .typ_kind, resume (tok .Plus) (r .typ_additional)])

/-- `src/parser/mod.rs` 2194-2204, `typ_single`. -/
def rule_typ_single : G :=
  node .Type (sq [r .typ_kind, none])

/-- `src/parser/mod.rs` 2206-2221, `typ_kind`. -/
def rule_typ_kind : G :=
  alts [wrap .TypeKind_Array (r .typ_array), wrap .TypeKind_Disambiguation (r .typ_disambiguation), wrap
  .TypeKind_Function (r .typ_function), wrap .TypeKind_HigherRankedTraitBounds (r
  .typ_higher_ranked_trait_bounds), wrap .TypeKind_DynTrait (r .typ_dyn_trait), wrap .TypeKind_ImplTrait (r
  .typ_impl_trait), wrap .TypeKind_Named (r .typ_named), wrap .TypeKind_Pointer (r .typ_pointer), wrap
  .TypeKind_Reference (r .typ_reference), wrap .TypeKind_Slice (r .typ_slice), wrap .TypeKind_Tuple (r
  .typ_tuple), wrap .TypeKind_Uninhabited (ext (tok .Bang))]

/-- `src/parser/mod.rs` 2223-2234, `typ_reference`. -/
def rule_typ_reference : G :=
  node .TypeReference (sq [r .typ_reference_kind, r .typ])

/-- `src/parser/mod.rs` 2236-2243, `typ_reference_kind`. -/
def rule_typ_reference_kind : G :=
  node .TypeReferenceKind (sq [d .Ampersand, opt (r .lifetime), opt (ext (tok .Mut))])

/-- `src/parser/mod.rs` 2245-2252, `typ_pointer`. -/
def rule_typ_pointer : G :=
  node .TypePointer (sq [d .Asterisk, r .typ_pointer_kind, r .typ])

/-- `src/parser/mod.rs` 2254-2259, `typ_pointer_kind`. -/
def rule_typ_pointer_kind : G :=
  alts [wrap .TypePointerKind_Const (d .Const), wrap .TypePointerKind_Mutable (d .Mut)]

/-- `src/parser/mod.rs` 2261-2272, `typ_tuple`. -/
def rule_typ_tuple : G :=
  node .TypeTuple (sq [d .LeftParen, tailedValues comma (r .typ), d .RightParen])

/-- `src/parser/mod.rs` 2274-2282, `typ_higher_ranked_trait_bounds`. -/
def rule_typ_higher_ranked_trait_bounds : G :=
  node .TypeHigherRankedTraitBounds (sq [r .higher_ranked_trait_bounds, r .typ_higher_ranked_trait_bounds_child])

/-- `src/parser/mod.rs` 2284-2293, `higher_ranked_trait_bounds`. -/
def rule_higher_ranked_trait_bounds : G :=
  sq [d .For, d .LeftAngle, tailedValues comma (r .lifetime), d .RightAngle]

/-- `src/parser/mod.rs` 2295-2303, `typ_higher_ranked_trait_bounds_child`. -/
def rule_typ_higher_ranked_trait_bounds_child : G :=
  alts [wrap .TypeHigherRankedTraitBoundsChild_Named (r .typ_named), wrap
  .TypeHigherRankedTraitBoundsChild_Function (r .typ_function), wrap .TypeHigherRankedTraitBoundsChild_Reference
  (r .typ_reference)]

/-- `src/parser/mod.rs` 2305-2311, `typ_dyn_trait`. -/
def rule_typ_dyn_trait : G :=
  node .TypeDynTrait (sq [d .Dyn, r .typ_named])

/-- `src/parser/mod.rs` 2313-2319, `typ_impl_trait`. -/
def rule_typ_impl_trait : G :=
  node .TypeImplTrait (sq [d .Impl, r .typ_named])

/-- `src/parser/mod.rs` 2321-2328, `typ_additional`. -/
def rule_typ_additional : G :=
  alts [wrap .TypeAdditional_Named (r .typ_named), wrap .TypeAdditional_Lifetime (r .lifetime)]

/-- `src/parser/mod.rs` 2330-2340, `typ_named`. -/
def rule_typ_named : G :=
  node .TypeNamed (sq [drop (opt (tok .DoubleColon)), tailed1Values (tok .DoubleColon) (r .typ_named_component)])

/-- `src/parser/mod.rs` 2342-2353, `typ_named_component`. -/
def rule_typ_named_component : G :=
  node .TypeNamedComponent (sq [r .path_member, opt (r .typ_generics)])

/-- `src/parser/mod.rs` 2355-2367, `typ_disambiguation`. -/
def rule_typ_disambiguation : G :=
  node .TypeDisambiguation (sq [r .disambiguation_core, resume (tok .DoubleColon) (r .typ_named_component)])

/-- `src/parser/mod.rs` 2375-2382, `disambiguation_core`. -/
def rule_disambiguation_core : G :=
  sq [d .LeftAngle, r .typ, opt (r .disambiguation_core_to_type), d .RightAngle]

/-- `src/parser/mod.rs` 2384-2391, `disambiguation_core_to_type`. -/
def rule_disambiguation_core_to_type : G :=
  sq [d .As, r .typ_named]

/-- `src/parser/mod.rs` 2393-2407, `typ_array`. -/
def rule_typ_array : G :=
  node .TypeArray (sq [d .LeftSquare, r .typ, d .Semicolon, r .expression, d .RightSquare])

/-- `src/parser/mod.rs` 2409-2416, `typ_slice`. -/
def rule_typ_slice : G :=
  node .TypeSlice (sq [d .LeftSquare, r .typ, d .RightSquare])

/-- `src/parser/mod.rs` 2418-2423, `typ_generics`. -/
def rule_typ_generics : G :=
  alts [wrap .TypeGenerics_Function (r .typ_generics_fn), wrap .TypeGenerics_Angle (r .typ_generics_angle)]

/-- `src/parser/mod.rs` 2425-2438, `typ_generics_fn`. -/
def rule_typ_generics_fn : G :=
  node .TypeGenericsFunction (sq [d .LeftParen, tailedValues comma (r .typ), d .RightParen, opt (r
  .function_return_type)])

/-- `src/parser/mod.rs` 2440-2447, `typ_generics_angle`. -/
def rule_typ_generics_angle : G :=
  node .TypeGenericsAngle (sq [d .LeftAngle, tailedValues comma (r .typ_generics_angle_member), d .RightAngle])

/-- `src/parser/mod.rs` 2453-2461, `typ_generics_angle_member`. -/
def rule_typ_generics_angle_member : G :=
  alts [wrap .TypeGenericsAngleMember_AssociatedType (r .associated_type), wrap .TypeGenericsAngleMember_Lifetime
  (r .lifetime), wrap .TypeGenericsAngleMember_Type (r .typ)]

/-- `src/parser/mod.rs` 2463-2469, `associated_type`. -/
def rule_associated_type : G :=
  node .AssociatedType (sq [r .ident, r .associated_type_value])

/-- `src/parser/mod.rs` 2471-2478, `associated_type_value`. -/
def rule_associated_type_value : G :=
  alts [wrap .AssociatedTypeValue_Equal (r .associated_type_value_equal), wrap .AssociatedTypeValue_Bound (r
  .associated_type_value_bound)]

/-- `src/parser/mod.rs` 2480-2486, `associated_type_value_equal`. -/
def rule_associated_type_value_equal : G :=
  node .AssociatedTypeValueEqual (sq [d .Equals, r .typ])

/-- `src/parser/mod.rs` 2488-2494, `associated_type_value_bound`. -/
def rule_associated_type_value_bound : G :=
  node .AssociatedTypeValueBound (sq [d .Colon, r .trait_bounds])

/-- `src/parser/mod.rs` 2496-2513, `typ_function`. -/
def rule_typ_function : G :=
  node .TypeFunction (sq [r .function_qualifiers, d .Fn, d .LeftParen, map .append (sq [tailedValues comma (r
  .typ_function_argument), tailedValues comma (r .typ_function_argument_variadic)]), d .RightParen, opt (r
  .function_return_type)])

/-- `src/parser/mod.rs` 2515-2528, `typ_function_argument`. -/
def rule_typ_function_argument : G :=
  wrap .TypeFunctionArgument_Named (node .TypeFunctionArgumentNamed (sq [opt (r .typ_function_argument_name), r
  .typ]))

/-- `src/parser/mod.rs` 2530-2537, `typ_function_argument_name`. -/
def rule_typ_function_argument_name : G :=
  sq [r .ident, d .Colon]

/-- `src/parser/mod.rs` 2539-2543, `typ_function_argument_variadic`. -/
def rule_typ_function_argument_variadic : G :=
  wrap .TypeFunctionArgument_Variadic (tok .TriplePeriod)

/-- `src/parser/mod.rs` 2545-2549, `lifetime`. -/
def rule_lifetime : G :=
  map .lifetime (tok .Lifetime)

/-- `src/parser/mod.rs` 2570-2576, `attribute`. -/
def rule_attribute : G :=
  alts [wrap .Attribute_DocCommentLine (tok .DocCommentOuterLine), wrap .Attribute_DocCommentBlock (tok
  .DocCommentOuterBlock), wrap .Attribute_Literal (r .attribute_literal)]

/-- `src/parser/mod.rs` 2578-2590, `attribute_literal`. -/
def rule_attribute_literal : G :=
  node .AttributeLiteral (sq [d .Hash, nested .LeftSquare .RightSquare, d .RightSquare])

/-- `src/parser/mod.rs` 2592-2598, `attribute_containing`. -/
def rule_attribute_containing : G :=
  alts [wrap .AttributeContaining_DocCommentLine (tok .DocCommentInnerLine), wrap
  .AttributeContaining_DocCommentBlock (tok .DocCommentInnerBlock), wrap .AttributeContaining_Literal (r
  .attribute_containing_literal)]

/-- `src/parser/mod.rs` 2600-2613, `attribute_containing_literal`. -/
def rule_attribute_containing_literal : G :=
  node .AttributeContainingLiteral (sq [d .Hash, d .Bang, nested .LeftSquare .RightSquare, d .RightSquare])

/-- `src/parser/expression.rs` 316-323, `operator_prefix_reference`. -/
def rule_operator_prefix_reference : G :=
  sq [d .Ampersand, opt (tok .Mut)]

/-- `src/parser/expression.rs` 388-395, `operator_postfix_as_type`. -/
def rule_operator_postfix_as_type : G :=
  sq [d .As, r .typ_single]

/-- `src/parser/expression.rs` 397-404, `operator_postfix_ascription`. -/
def rule_operator_postfix_ascription : G :=
  sq [d .Colon, r .typ]

/-- `src/parser/expression.rs` 407-415, `operator_postfix_call`. -/
def rule_operator_postfix_call : G :=
  sq [d .LeftParen, amb .Unambiguous (tailedValues comma (r .expression)), d .RightParen]

/-- `src/parser/expression.rs` 417-424, `operator_postfix_field_access`. -/
def rule_operator_postfix_field_access : G :=
  sq [d .Period, r .field_name]

/-- `src/parser/expression.rs` 426-431, `field_name`. -/
def rule_field_name : G :=
  alts [wrap .FieldName_Path (r .path_component), wrap .FieldName_Number (r .field_name_number)]

/-- `src/parser/expression.rs` 433-436, `field_name_number`. -/
def rule_field_name_number : G :=
  simpleNumber

/-- `src/parser/expression.rs` 439-447, `operator_postfix_slice`. -/
def rule_operator_postfix_slice : G :=
  sq [d .LeftSquare, amb .Unambiguous (r .expression), d .RightSquare]

/-- `src/parser/expression.rs` 449-477, `expression_atom`. -/
def rule_expression_atom : G :=
  alts [wrap .Expression_If (r .expr_if), wrap .Expression_IfLet (r .expr_if_let), wrap .Expression_ForLoop (r
  .expr_for_loop), wrap .Expression_Loop (r .expr_loop), wrap .Expression_While (r .expr_while), wrap
  .Expression_WhileLet (r .expr_while_let), wrap .Expression_Match (r .expr_match), wrap .Expression_UnsafeBlock
  (r .expr_unsafe_block), wrap .Expression_AsyncBlock (r .expr_async_block), wrap .Expression_Block (r
  .expr_block), wrap .Expression_MacroCall (r .expr_macro_call), wrap .Expression_Let (r .expr_let), r
  .expr_tuple_or_parenthetical, wrap .Expression_Array (r .expr_array), wrap .Expression_Character (r
  .character_literal), wrap .Expression_String (r .string_literal), wrap .Expression_Closure (r .expr_closure),
  wrap .Expression_Return (r .expr_return), wrap .Expression_Continue (r .expr_continue), wrap .Expression_Break
  (r .expr_break), wrap .Expression_Number (r .number_literal), wrap .Expression_Byte (r .expr_byte), wrap
  .Expression_ByteString (r .expr_byte_string), wrap .Expression_Disambiguation (r .expr_disambiguation), wrap
  .Expression_Value (r .expr_value)]

/-- `src/parser/expression.rs` 866-880, `expr_macro_call`. -/
def rule_expr_macro_call : G :=
  node .MacroCall (sq [r .pathed_ident, d .Bang, opt (r .ident), r .expr_macro_call_args])

/-- `src/parser/expression.rs` 882-888, `expr_macro_call_args`. -/
def rule_expr_macro_call_args : G :=
  alts [wrap .MacroCallArgs_Paren (r .expr_macro_call_paren), wrap .MacroCallArgs_Square (r
  .expr_macro_call_square), wrap .MacroCallArgs_Curly (r .expr_macro_call_curly)]

/-- `src/parser/expression.rs` 890-896, `expr_macro_call_paren`. -/
def rule_expr_macro_call_paren : G :=
  sq [nested .LeftParen .RightParen, d .RightParen]

/-- `src/parser/expression.rs` 898-904, `expr_macro_call_square`. -/
def rule_expr_macro_call_square : G :=
  sq [nested .LeftSquare .RightSquare, d .RightSquare]

/-- `src/parser/expression.rs` 906-912, `expr_macro_call_curly`. -/
def rule_expr_macro_call_curly : G :=
  sq [nested .LeftCurly .RightCurly, d .RightCurly]

/-- `src/parser/expression.rs` 914-928, `expr_let`. -/
def rule_expr_let : G :=
  node .Let (sq [d .Let, r .pattern, opt (r .expr_let_type), opt (r .expr_let_rhs)])

/-- `src/parser/expression.rs` 930-935, `expr_let_type`. -/
def rule_expr_let_type : G :=
  sq [d .Colon, r .typ]

/-- `src/parser/expression.rs` 937-942, `expr_let_rhs`. -/
def rule_expr_let_rhs : G :=
  sq [d .Equals, r .expression]

/-- `src/parser/expression.rs` 944-959, `expr_if`. -/
def rule_expr_if : G :=
  node .If (sq [d .If, r .expr_followed_by_block, many (r .expr_if_else_if), opt (r .expr_if_else_end)])

/-- `src/parser/expression.rs` 961-966, `expr_if_else_if`. -/
def rule_expr_if_else_if : G :=
  sq [d .Else, r .expr_if]

/-- `src/parser/expression.rs` 968-973, `expr_if_else_end`. -/
def rule_expr_if_else_end : G :=
  sq [d .Else, r .block]

/-- `src/parser/expression.rs` 975-980, `expr_followed_by_block`. -/
def rule_expr_followed_by_block : G :=
  sq [amb .OnlyStructLiterals (r .expression), r .block]

/-- `src/parser/expression.rs` 982-998, `expr_for_loop`. -/
def rule_expr_for_loop : G :=
  node .ForLoop (sq [opt (r .loop_label), d .For, r .pattern, d .In, r .expr_followed_by_block])

/-- `src/parser/expression.rs` 1000-1005, `loop_label`. -/
def rule_loop_label : G :=
  sq [r .lifetime, d .Colon]

/-- `src/parser/expression.rs` 1007-1014, `expr_loop`. -/
def rule_expr_loop : G :=
  node .Loop (sq [opt (r .loop_label), d .Loop, r .block])

/-- `src/parser/expression.rs` 1016-1031, `expr_if_let`. -/
def rule_expr_if_let : G :=
  node .IfLet (sq [d .If, d .Let, r .pattern, d .Equals, r .expr_followed_by_block])

/-- `src/parser/expression.rs` 1033-1046, `expr_while`. -/
def rule_expr_while : G :=
  node .While (sq [opt (r .loop_label), d .While, r .expr_followed_by_block])

/-- `src/parser/expression.rs` 1048-1065, `expr_while_let`. -/
def rule_expr_while_let : G :=
  node .WhileLet (sq [opt (r .loop_label), d .While, d .Let, r .pattern, d .Equals, r .expr_followed_by_block])

/-- `src/parser/expression.rs` 1076-1085, `expr_match`. -/
def rule_expr_match : G :=
  node .Match (sq [d .Match, amb .OnlyStructLiterals (r .expression), d .LeftCurly, implTailed .values .matchArm
  comma (r .match_arm), d .RightCurly])

/-- `src/parser/expression.rs` 1087-1096, `match_arm`. -/
def rule_match_arm : G :=
  node .MatchArm (sq [many (r .attribute), tailed1Values (tok .Pipe) (r .pattern), opt (r .match_arm_guard), d
  .ThickArrow, r .match_arm_hand])

/-- `src/parser/expression.rs` 1098-1103, `match_arm_guard`. -/
def rule_match_arm_guard : G :=
  sq [d .If, amb .Unambiguous (r .expression)]

/-- `src/parser/expression.rs` 1105-1110, `match_arm_hand`. -/
def rule_match_arm_hand : G :=
  alts [wrap .MatchHand_Brace (map .into (wrap .Expression_Block (amb .Unambiguous (r .expr_block)))), wrap
  .MatchHand_Expression (amb .Unambiguous (r .expression))]

/-- `src/parser/expression.rs` 1112-1135, `expr_tuple_or_parenthetical`. -/
def rule_expr_tuple_or_parenthetical : G :=
  build .paren (sq [d .LeftParen, amb .Unambiguous (tailed .paren comma (r .expression)), d .RightParen])

/-- `src/parser/expression.rs` 1137-1142, `expr_array`. -/
def rule_expr_array : G :=
  alts [wrap .Array_Explicit (r .expr_array_explicit), wrap .Array_Repeated (r .expr_array_repeated)]

/-- `src/parser/expression.rs` 1144-1155, `expr_array_explicit`. -/
def rule_expr_array_explicit : G :=
  node .ArrayExplicit (sq [d .LeftSquare, amb .Unambiguous (tailedValues comma (r .expression)), d .RightSquare])

/-- `src/parser/expression.rs` 1157-1171, `expr_array_repeated`. -/
def rule_expr_array_repeated : G :=
  node .ArrayRepeated (sq [d .LeftSquare, amb .Unambiguous (r .expression), d .Semicolon, r .expression, d
  .RightSquare])

/-- `src/parser/expression.rs` 1173-1176, `expr_byte`. -/
def rule_expr_byte : G :=
  map .byte (tok .Byte)

/-- `src/parser/expression.rs` 1178-1187, `expr_byte_string`. -/
def rule_expr_byte_string : G :=
  alts [map .byteString (tok .ByteString), map .byteString (tok .ByteStringRaw)]

/-- `src/parser/expression.rs` 1189-1207, `expr_closure`. -/
def rule_expr_closure : G :=
  node .Closure (sq [opt (tok .Async), opt (tok .Move), d .Pipe, tailedValues comma (r .expr_closure_arg), d
  .Pipe, r .expr_closure_return])

/-- `src/parser/expression.rs` 1209-1220, `expr_closure_arg`. -/
def rule_expr_closure_arg : G :=
  node .ClosureArg (sq [r .pattern, opt (r .expr_closure_arg_type)])

/-- `src/parser/expression.rs` 1222-1227, `expr_closure_arg_type`. -/
def rule_expr_closure_arg_type : G :=
  sq [d .Colon, r .typ]

/-- `src/parser/expression.rs` 1229-1236, `expr_closure_return`. -/
def rule_expr_closure_return : G :=
  alts [r .expr_closure_return_explicit, r .expr_closure_return_inferred]

/-- `src/parser/expression.rs` 1238-1246, `expr_closure_return_explicit`. -/
def rule_expr_closure_return_explicit : G :=
  sq [d .ThinArrow, map .some (r .typ), map .into (r .expr_closure_return_body)]

/-- `src/parser/expression.rs` 1248-1255, `expr_closure_return_body`. -/
def rule_expr_closure_return_body : G :=
  alts [r .expr_tuple_or_parenthetical, wrap .Expression_Block (r .expr_block)]

/-- `src/parser/expression.rs` 1257-1261, `expr_closure_return_inferred`. -/
def rule_expr_closure_return_inferred : G :=
  sq [none, r .expression]

/-- `src/parser/expression.rs` 1263-1273, `expr_return`. -/
def rule_expr_return : G :=
  node .Return (sq [d .Return, opt (r .expression)])

/-- `src/parser/expression.rs` 1275-1281, `expr_continue`. -/
def rule_expr_continue : G :=
  node .Continue (sq [d .Continue, opt (r .lifetime)])

/-- `src/parser/expression.rs` 1283-1295, `expr_break`. -/
def rule_expr_break : G :=
  node .Break (sq [d .Break, opt (r .lifetime), opt (r .expression)])

/-- `src/parser/expression.rs` 1297-1303, `expr_block`. -/
def rule_expr_block : G :=
  notMaximum (r .block)

/-- `src/parser/expression.rs` 1305-1311, `expr_unsafe_block`. -/
def rule_expr_unsafe_block : G :=
  node .UnsafeBlock (sq [d .Unsafe, r .block])

/-- `src/parser/expression.rs` 1313-1325, `expr_async_block`. -/
def rule_expr_async_block : G :=
  node .AsyncBlock (map .swap (sq [d .Async, opt (tok .Move), r .block]))

/-- `src/parser/expression.rs` 1327-1350, `expr_value`. -/
def rule_expr_value : G :=
  ifAmbiguous (node .Value (sq [r .pathed_ident, none])) (node .Value (sq [r .pathed_ident, opt (r
  .expr_value_struct_literal)]))

/-- `src/parser/expression.rs` 1352-1365, `expr_value_struct_literal`. -/
def rule_expr_value_struct_literal : G :=
  node .StructLiteral (sq [d .LeftCurly, tailedValues comma (r .expr_value_struct_literal_field), opt (r
  .expr_value_struct_literal_splat), d .RightCurly])

/-- `src/parser/expression.rs` 1367-1382, `expr_value_struct_literal_field`. -/
def rule_expr_value_struct_literal_field : G :=
  nodeEmpty .StructLiteralField (map .fieldValue (sq [build .span (r .ident), opt (r
  .expr_value_struct_literal_field_value)]))

/-- `src/parser/expression.rs` 1384-1391, `expr_value_struct_literal_field_value`. -/
def rule_expr_value_struct_literal_field_value : G :=
  sq [d .Colon, amb .Unambiguous (r .expression)]

/-- `src/parser/expression.rs` 1393-1400, `expr_value_struct_literal_splat`. -/
def rule_expr_value_struct_literal_splat : G :=
  sq [d .DoublePeriod, amb .Unambiguous (r .expression)]

/-- `src/parser/expression.rs` 1402-1414, `expr_disambiguation`. -/
def rule_expr_disambiguation : G :=
  node .Disambiguation (sq [r .disambiguation_core, resume (tok .DoubleColon) (r .path_component)])

end Rules

/-- The rule of each nonterminal; `expression` and `statement_expression` are the shunting yard
(`src/parser/expression.rs` 14-56). -/
def rules : NT → Rule
  | .expression => .expr false
  | .statement_expression => .expr true
  | .item => .g Rules.rule_item
  | .function => .g Rules.rule_function
  | .function_header => .g Rules.rule_function_header
  | .function_qualifiers => .g Rules.rule_function_qualifiers
  | .function_qualifier_extern => .g Rules.rule_function_qualifier_extern
  | .ident => .g Rules.rule_ident
  | .generic_declarations => .g Rules.rule_generic_declarations
  | .generic_declaration_lifetime => .g Rules.rule_generic_declaration_lifetime
  | .generic_declaration_lifetime_bounds => .g Rules.rule_generic_declaration_lifetime_bounds
  | .generic_declaration_type => .g Rules.rule_generic_declaration_type
  | .generic_declaration_type_bounds => .g Rules.rule_generic_declaration_type_bounds
  | .generic_declaration_type_default => .g Rules.rule_generic_declaration_type_default
  | .generic_declaration_const => .g Rules.rule_generic_declaration_const
  | .function_arglist => .g Rules.rule_function_arglist
  | .self_argument => .g Rules.rule_self_argument
  | .self_argument_longhand => .g Rules.rule_self_argument_longhand
  | .self_argument_shorthand => .g Rules.rule_self_argument_shorthand
  | .self_argument_qualifier => .g Rules.rule_self_argument_qualifier
  | .function_argument => .g Rules.rule_function_argument
  | .function_return_type => .g Rules.rule_function_return_type
  | .where_clause => .g Rules.rule_where_clause
  | .where_clause_item => .g Rules.rule_where_clause_item
  | .where_clause_kind => .g Rules.rule_where_clause_kind
  | .where_lifetime => .g Rules.rule_where_lifetime
  | .where_type => .g Rules.rule_where_type
  | .trait_bounds => .g Rules.rule_trait_bounds
  | .trait_bound => .g Rules.rule_trait_bound
  | .trait_bound_lifetime => .g Rules.rule_trait_bound_lifetime
  | .trait_bound_normal => .g Rules.rule_trait_bound_normal
  | .trait_bound_normal_child => .g Rules.rule_trait_bound_normal_child
  | .trait_bound_relaxed => .g Rules.rule_trait_bound_relaxed
  | .block => .g Rules.rule_block
  | .statement => .g Rules.rule_statement
  | .statement_empty => .g Rules.rule_statement_empty
  | .item_macro_call => .g Rules.rule_item_macro_call
  | .item_macro_call_args => .g Rules.rule_item_macro_call_args
  | .item_macro_call_paren => .g Rules.rule_item_macro_call_paren
  | .item_macro_call_square => .g Rules.rule_item_macro_call_square
  | .item_macro_call_curly => .g Rules.rule_item_macro_call_curly
  | .character_literal => .g Rules.rule_character_literal
  | .string_literal => .g Rules.rule_string_literal
  | .number_literal => .g Rules.rule_number_literal
  | .path => .g Rules.rule_path
  | .pathed_ident => .g Rules.rule_pathed_ident
  | .path_component => .g Rules.rule_path_component
  | .turbofish => .g Rules.rule_turbofish
  | .pattern => .g Rules.rule_pattern
  | .pattern_name => .g Rules.rule_pattern_name
  | .pattern_kind => .g Rules.rule_pattern_kind
  | .pattern_ident => .g Rules.rule_pattern_ident
  | .pattern_tuple => .g Rules.rule_pattern_tuple
  | .pattern_tuple_member => .g Rules.rule_pattern_tuple_member
  | .pattern_slice => .g Rules.rule_pattern_slice
  | .pattern_slice_member => .g Rules.rule_pattern_slice_member
  | .pattern_slice_subslice => .g Rules.rule_pattern_slice_subslice
  | .pattern_struct => .g Rules.rule_pattern_struct
  | .pattern_struct_field => .g Rules.rule_pattern_struct_field
  | .pattern_struct_field_long => .g Rules.rule_pattern_struct_field_long
  | .pattern_byte => .g Rules.rule_pattern_byte
  | .pattern_char => .g Rules.rule_pattern_char
  | .pattern_byte_string => .g Rules.rule_pattern_byte_string
  | .pattern_string => .g Rules.rule_pattern_string
  | .pattern_number => .g Rules.rule_pattern_number
  | .pattern_reference => .g Rules.rule_pattern_reference
  | .pattern_box => .g Rules.rule_pattern_box
  | .pattern_range_exclusive => .g Rules.rule_pattern_range_exclusive
  | .range_inclusive_operator => .g Rules.rule_range_inclusive_operator
  | .pattern_range_inclusive => .g Rules.rule_pattern_range_inclusive
  | .pattern_range_component => .g Rules.rule_pattern_range_component
  | .pattern_macro_call => .g Rules.rule_pattern_macro_call
  | .p_struct => .g Rules.rule_p_struct
  | .struct_defn_body => .g Rules.rule_struct_defn_body
  | .struct_defn_body_brace => .g Rules.rule_struct_defn_body_brace
  | .struct_defn_body_brace_only => .g Rules.rule_struct_defn_body_brace_only
  | .struct_defn_body_tuple => .g Rules.rule_struct_defn_body_tuple
  | .struct_defn_body_tuple_only => .g Rules.rule_struct_defn_body_tuple_only
  | .tuple_defn_field => .g Rules.rule_tuple_defn_field
  | .struct_defn_field => .g Rules.rule_struct_defn_field
  | .p_union => .g Rules.rule_p_union
  | .p_enum => .g Rules.rule_p_enum
  | .enum_variant => .g Rules.rule_enum_variant
  | .enum_variant_body => .g Rules.rule_enum_variant_body
  | .enum_discriminant => .g Rules.rule_enum_discriminant
  | .p_trait => .g Rules.rule_p_trait
  | .trait_impl_member => .g Rules.rule_trait_impl_member
  | .trait_member_function => .g Rules.rule_trait_member_function
  | .trait_member_type => .g Rules.rule_trait_member_type
  | .trait_member_const => .g Rules.rule_trait_member_const
  | .trait_member_const_value => .g Rules.rule_trait_member_const_value
  | .visibility => .g Rules.rule_visibility
  | .visibility_public => .g Rules.rule_visibility_public
  | .visibility_public_qualifier => .g Rules.rule_visibility_public_qualifier
  | .visibility_qualifier_kind => .g Rules.rule_visibility_qualifier_kind
  | .trait_impl_function_header => .g Rules.rule_trait_impl_function_header
  | .trait_impl_function_arglist => .g Rules.rule_trait_impl_function_arglist
  | .trait_impl_function_argument => .g Rules.rule_trait_impl_function_argument
  | .trait_impl_function_argument_name => .g Rules.rule_trait_impl_function_argument_name
  | .trait_impl_function_body => .g Rules.rule_trait_impl_function_body
  | .p_impl => .g Rules.rule_p_impl
  | .p_impl_kind => .g Rules.rule_p_impl_kind
  | .p_impl_of_inherent => .g Rules.rule_p_impl_of_inherent
  | .p_impl_of_trait => .g Rules.rule_p_impl_of_trait
  | .type_or_wildcard => .g Rules.rule_type_or_wildcard
  | .impl_member => .g Rules.rule_impl_member
  | .impl_function => .g Rules.rule_impl_function
  | .impl_type => .g Rules.rule_impl_type
  | .impl_const => .g Rules.rule_impl_const
  | .p_const => .g Rules.rule_p_const
  | .p_static => .g Rules.rule_p_static
  | .extern_crate => .g Rules.rule_extern_crate
  | .extern_crate_rename => .g Rules.rule_extern_crate_rename
  | .extern_block => .g Rules.rule_extern_block
  | .extern_block_member => .g Rules.rule_extern_block_member
  | .extern_block_static => .g Rules.rule_extern_block_static
  | .extern_block_type => .g Rules.rule_extern_block_type
  | .extern_block_member_function => .g Rules.rule_extern_block_member_function
  | .extern_block_function_arglist => .g Rules.rule_extern_block_function_arglist
  | .extern_block_function_argument => .g Rules.rule_extern_block_function_argument
  | .extern_block_function_argument_named => .g Rules.rule_extern_block_function_argument_named
  | .extern_block_function_argument_variadic => .g Rules.rule_extern_block_function_argument_variadic
  | .p_use => .g Rules.rule_p_use
  | .use_path => .g Rules.rule_use_path
  | .use_path_component => .g Rules.rule_use_path_component
  | .path_member => .g Rules.rule_path_member
  | .use_tail => .g Rules.rule_use_tail
  | .use_tail_ident => .g Rules.rule_use_tail_ident
  | .use_tail_ident_rename => .g Rules.rule_use_tail_ident_rename
  | .use_tail_glob => .g Rules.rule_use_tail_glob
  | .use_tail_multi => .g Rules.rule_use_tail_multi
  | .type_alias => .g Rules.rule_type_alias
  | .«module» => .g Rules.rule_module
  | .module_body_or_not => .g Rules.rule_module_body_or_not
  | .module_body => .g Rules.rule_module_body
  | .typ => .g Rules.rule_typ
  | .typ_single => .g Rules.rule_typ_single
  | .typ_kind => .g Rules.rule_typ_kind
  | .typ_reference => .g Rules.rule_typ_reference
  | .typ_reference_kind => .g Rules.rule_typ_reference_kind
  | .typ_pointer => .g Rules.rule_typ_pointer
  | .typ_pointer_kind => .g Rules.rule_typ_pointer_kind
  | .typ_tuple => .g Rules.rule_typ_tuple
  | .typ_higher_ranked_trait_bounds => .g Rules.rule_typ_higher_ranked_trait_bounds
  | .higher_ranked_trait_bounds => .g Rules.rule_higher_ranked_trait_bounds
  | .typ_higher_ranked_trait_bounds_child => .g Rules.rule_typ_higher_ranked_trait_bounds_child
  | .typ_dyn_trait => .g Rules.rule_typ_dyn_trait
  | .typ_impl_trait => .g Rules.rule_typ_impl_trait
  | .typ_additional => .g Rules.rule_typ_additional
  | .typ_named => .g Rules.rule_typ_named
  | .typ_named_component => .g Rules.rule_typ_named_component
  | .typ_disambiguation => .g Rules.rule_typ_disambiguation
  | .disambiguation_core => .g Rules.rule_disambiguation_core
  | .disambiguation_core_to_type => .g Rules.rule_disambiguation_core_to_type
  | .typ_array => .g Rules.rule_typ_array
  | .typ_slice => .g Rules.rule_typ_slice
  | .typ_generics => .g Rules.rule_typ_generics
  | .typ_generics_fn => .g Rules.rule_typ_generics_fn
  | .typ_generics_angle => .g Rules.rule_typ_generics_angle
  | .typ_generics_angle_member => .g Rules.rule_typ_generics_angle_member
  | .associated_type => .g Rules.rule_associated_type
  | .associated_type_value => .g Rules.rule_associated_type_value
  | .associated_type_value_equal => .g Rules.rule_associated_type_value_equal
  | .associated_type_value_bound => .g Rules.rule_associated_type_value_bound
  | .typ_function => .g Rules.rule_typ_function
  | .typ_function_argument => .g Rules.rule_typ_function_argument
  | .typ_function_argument_name => .g Rules.rule_typ_function_argument_name
  | .typ_function_argument_variadic => .g Rules.rule_typ_function_argument_variadic
  | .lifetime => .g Rules.rule_lifetime
  | .attribute => .g Rules.rule_attribute
  | .attribute_literal => .g Rules.rule_attribute_literal
  | .attribute_containing => .g Rules.rule_attribute_containing
  | .attribute_containing_literal => .g Rules.rule_attribute_containing_literal
  | .operator_prefix_reference => .g Rules.rule_operator_prefix_reference
  | .operator_postfix_as_type => .g Rules.rule_operator_postfix_as_type
  | .operator_postfix_ascription => .g Rules.rule_operator_postfix_ascription
  | .operator_postfix_call => .g Rules.rule_operator_postfix_call
  | .operator_postfix_field_access => .g Rules.rule_operator_postfix_field_access
  | .field_name => .g Rules.rule_field_name
  | .field_name_number => .g Rules.rule_field_name_number
  | .operator_postfix_slice => .g Rules.rule_operator_postfix_slice
  | .expression_atom => .g Rules.rule_expression_atom
  | .expr_macro_call => .g Rules.rule_expr_macro_call
  | .expr_macro_call_args => .g Rules.rule_expr_macro_call_args
  | .expr_macro_call_paren => .g Rules.rule_expr_macro_call_paren
  | .expr_macro_call_square => .g Rules.rule_expr_macro_call_square
  | .expr_macro_call_curly => .g Rules.rule_expr_macro_call_curly
  | .expr_let => .g Rules.rule_expr_let
  | .expr_let_type => .g Rules.rule_expr_let_type
  | .expr_let_rhs => .g Rules.rule_expr_let_rhs
  | .expr_if => .g Rules.rule_expr_if
  | .expr_if_else_if => .g Rules.rule_expr_if_else_if
  | .expr_if_else_end => .g Rules.rule_expr_if_else_end
  | .expr_followed_by_block => .g Rules.rule_expr_followed_by_block
  | .expr_for_loop => .g Rules.rule_expr_for_loop
  | .loop_label => .g Rules.rule_loop_label
  | .expr_loop => .g Rules.rule_expr_loop
  | .expr_if_let => .g Rules.rule_expr_if_let
  | .expr_while => .g Rules.rule_expr_while
  | .expr_while_let => .g Rules.rule_expr_while_let
  | .expr_match => .g Rules.rule_expr_match
  | .match_arm => .g Rules.rule_match_arm
  | .match_arm_guard => .g Rules.rule_match_arm_guard
  | .match_arm_hand => .g Rules.rule_match_arm_hand
  | .expr_tuple_or_parenthetical => .g Rules.rule_expr_tuple_or_parenthetical
  | .expr_array => .g Rules.rule_expr_array
  | .expr_array_explicit => .g Rules.rule_expr_array_explicit
  | .expr_array_repeated => .g Rules.rule_expr_array_repeated
  | .expr_byte => .g Rules.rule_expr_byte
  | .expr_byte_string => .g Rules.rule_expr_byte_string
  | .expr_closure => .g Rules.rule_expr_closure
  | .expr_closure_arg => .g Rules.rule_expr_closure_arg
  | .expr_closure_arg_type => .g Rules.rule_expr_closure_arg_type
  | .expr_closure_return => .g Rules.rule_expr_closure_return
  | .expr_closure_return_explicit => .g Rules.rule_expr_closure_return_explicit
  | .expr_closure_return_body => .g Rules.rule_expr_closure_return_body
  | .expr_closure_return_inferred => .g Rules.rule_expr_closure_return_inferred
  | .expr_return => .g Rules.rule_expr_return
  | .expr_continue => .g Rules.rule_expr_continue
  | .expr_break => .g Rules.rule_expr_break
  | .expr_block => .g Rules.rule_expr_block
  | .expr_unsafe_block => .g Rules.rule_expr_unsafe_block
  | .expr_async_block => .g Rules.rule_expr_async_block
  | .expr_value => .g Rules.rule_expr_value
  | .expr_value_struct_literal => .g Rules.rule_expr_value_struct_literal
  | .expr_value_struct_literal_field => .g Rules.rule_expr_value_struct_literal_field
  | .expr_value_struct_literal_field_value => .g Rules.rule_expr_value_struct_literal_field_value
  | .expr_value_struct_literal_splat => .g Rules.rule_expr_value_struct_literal_splat
  | .expr_disambiguation => .g Rules.rule_expr_disambiguation

end Verif
