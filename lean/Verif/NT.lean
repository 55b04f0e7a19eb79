import Verif.Shunt
/-!
# The nonterminals

Generated by `tools/mkrules.py` from `tools/rules.txt`.
-/

namespace Verif

/-- The parser functions of `src/parser/mod.rs` and `src/parser/expression.rs` (lines given at the rules in
`Verif.Rules`). -/
inductive NT
  | expression | statement_expression | item | function | function_header | function_qualifiers
  | function_qualifier_extern | ident | generic_declarations | generic_declaration_lifetime
  | generic_declaration_lifetime_bounds | generic_declaration_type | generic_declaration_type_bounds
  | generic_declaration_type_default | generic_declaration_const | function_arglist | self_argument
  | self_argument_longhand | self_argument_shorthand | self_argument_qualifier | function_argument
  | function_return_type | where_clause | where_clause_item | where_clause_kind | where_lifetime | where_type
  | trait_bounds | trait_bound | trait_bound_lifetime | trait_bound_normal | trait_bound_normal_child
  | trait_bound_relaxed | block | statement | statement_empty | item_macro_call | item_macro_call_args
  | item_macro_call_paren | item_macro_call_square | item_macro_call_curly | character_literal | string_literal
  | number_literal | path | pathed_ident | path_component | turbofish | pattern | pattern_name | pattern_kind
  | pattern_ident | pattern_tuple | pattern_tuple_member | pattern_slice | pattern_slice_member
  | pattern_slice_subslice | pattern_struct | pattern_struct_field | pattern_struct_field_long | pattern_byte
  | pattern_char | pattern_byte_string | pattern_string | pattern_number | pattern_reference | pattern_box
  | pattern_range_exclusive | range_inclusive_operator | pattern_range_inclusive | pattern_range_component
  | pattern_macro_call | p_struct | struct_defn_body | struct_defn_body_brace | struct_defn_body_brace_only
  | struct_defn_body_tuple | struct_defn_body_tuple_only | tuple_defn_field | struct_defn_field | p_union
  | p_enum | enum_variant | enum_variant_body | enum_discriminant | p_trait | trait_impl_member
  | trait_member_function | trait_member_type | trait_member_const | trait_member_const_value | visibility
  | visibility_public | visibility_public_qualifier | visibility_qualifier_kind | trait_impl_function_header
  | trait_impl_function_arglist | trait_impl_function_argument | trait_impl_function_argument_name
  | trait_impl_function_body | p_impl | p_impl_kind | p_impl_of_inherent | p_impl_of_trait | type_or_wildcard
  | impl_member | impl_function | impl_type | impl_const | p_const | p_static | extern_crate
  | extern_crate_rename | extern_block | extern_block_member | extern_block_static | extern_block_type
  | extern_block_member_function | extern_block_function_arglist | extern_block_function_argument
  | extern_block_function_argument_named | extern_block_function_argument_variadic | p_use | use_path
  | use_path_component | path_member | use_tail | use_tail_ident | use_tail_ident_rename | use_tail_glob
  | use_tail_multi | type_alias | «module» | module_body_or_not | module_body | typ | typ_single | typ_kind
  | typ_reference | typ_reference_kind | typ_pointer | typ_pointer_kind | typ_tuple
  | typ_higher_ranked_trait_bounds | higher_ranked_trait_bounds | typ_higher_ranked_trait_bounds_child
  | typ_dyn_trait | typ_impl_trait | typ_additional | typ_named | typ_named_component | typ_disambiguation
  | disambiguation_core | disambiguation_core_to_type | typ_array | typ_slice | typ_generics | typ_generics_fn
  | typ_generics_angle | typ_generics_angle_member | associated_type | associated_type_value
  | associated_type_value_equal | associated_type_value_bound | typ_function | typ_function_argument
  | typ_function_argument_name | typ_function_argument_variadic | lifetime | attribute | attribute_literal
  | attribute_containing | attribute_containing_literal | operator_prefix_reference | operator_postfix_as_type
  | operator_postfix_ascription | operator_postfix_call | operator_postfix_field_access | field_name
  | field_name_number | operator_postfix_slice | expression_atom | expr_macro_call | expr_macro_call_args
  | expr_macro_call_paren | expr_macro_call_square | expr_macro_call_curly | expr_let | expr_let_type
  | expr_let_rhs | expr_if | expr_if_else_if | expr_if_else_end | expr_followed_by_block | expr_for_loop
  | loop_label | expr_loop | expr_if_let | expr_while | expr_while_let | expr_match | match_arm
  | match_arm_guard | match_arm_hand | expr_tuple_or_parenthetical | expr_array | expr_array_explicit
  | expr_array_repeated | expr_byte | expr_byte_string | expr_closure | expr_closure_arg
  | expr_closure_arg_type | expr_closure_return | expr_closure_return_explicit | expr_closure_return_body
  | expr_closure_return_inferred | expr_return | expr_continue | expr_break | expr_block | expr_unsafe_block
  | expr_async_block | expr_value | expr_value_struct_literal | expr_value_struct_literal_field
  | expr_value_struct_literal_field_value | expr_value_struct_literal_splat | expr_disambiguation
deriving DecidableEq, Repr, Inhabited

/-- All nonterminals. -/
def NT.all : List NT := [
  .expression, .statement_expression, .item, .function, .function_header, .function_qualifiers,
  .function_qualifier_extern, .ident, .generic_declarations, .generic_declaration_lifetime,
  .generic_declaration_lifetime_bounds, .generic_declaration_type, .generic_declaration_type_bounds,
  .generic_declaration_type_default, .generic_declaration_const, .function_arglist, .self_argument,
  .self_argument_longhand, .self_argument_shorthand, .self_argument_qualifier, .function_argument,
  .function_return_type, .where_clause, .where_clause_item, .where_clause_kind, .where_lifetime, .where_type,
  .trait_bounds, .trait_bound, .trait_bound_lifetime, .trait_bound_normal, .trait_bound_normal_child,
  .trait_bound_relaxed, .block, .statement, .statement_empty, .item_macro_call, .item_macro_call_args,
  .item_macro_call_paren, .item_macro_call_square, .item_macro_call_curly, .character_literal, .string_literal,
  .number_literal, .path, .pathed_ident, .path_component, .turbofish, .pattern, .pattern_name, .pattern_kind,
  .pattern_ident, .pattern_tuple, .pattern_tuple_member, .pattern_slice, .pattern_slice_member,
  .pattern_slice_subslice, .pattern_struct, .pattern_struct_field, .pattern_struct_field_long, .pattern_byte,
  .pattern_char, .pattern_byte_string, .pattern_string, .pattern_number, .pattern_reference, .pattern_box,
  .pattern_range_exclusive, .range_inclusive_operator, .pattern_range_inclusive, .pattern_range_component,
  .pattern_macro_call, .p_struct, .struct_defn_body, .struct_defn_body_brace, .struct_defn_body_brace_only,
  .struct_defn_body_tuple, .struct_defn_body_tuple_only, .tuple_defn_field, .struct_defn_field, .p_union,
  .p_enum, .enum_variant, .enum_variant_body, .enum_discriminant, .p_trait, .trait_impl_member,
  .trait_member_function, .trait_member_type, .trait_member_const, .trait_member_const_value, .visibility,
  .visibility_public, .visibility_public_qualifier, .visibility_qualifier_kind, .trait_impl_function_header,
  .trait_impl_function_arglist, .trait_impl_function_argument, .trait_impl_function_argument_name,
  .trait_impl_function_body, .p_impl, .p_impl_kind, .p_impl_of_inherent, .p_impl_of_trait, .type_or_wildcard,
  .impl_member, .impl_function, .impl_type, .impl_const, .p_const, .p_static, .extern_crate,
  .extern_crate_rename, .extern_block, .extern_block_member, .extern_block_static, .extern_block_type,
  .extern_block_member_function, .extern_block_function_arglist, .extern_block_function_argument,
  .extern_block_function_argument_named, .extern_block_function_argument_variadic, .p_use, .use_path,
  .use_path_component, .path_member, .use_tail, .use_tail_ident, .use_tail_ident_rename, .use_tail_glob,
  .use_tail_multi, .type_alias, .«module», .module_body_or_not, .module_body, .typ, .typ_single, .typ_kind,
  .typ_reference, .typ_reference_kind, .typ_pointer, .typ_pointer_kind, .typ_tuple,
  .typ_higher_ranked_trait_bounds, .higher_ranked_trait_bounds, .typ_higher_ranked_trait_bounds_child,
  .typ_dyn_trait, .typ_impl_trait, .typ_additional, .typ_named, .typ_named_component, .typ_disambiguation,
  .disambiguation_core, .disambiguation_core_to_type, .typ_array, .typ_slice, .typ_generics, .typ_generics_fn,
  .typ_generics_angle, .typ_generics_angle_member, .associated_type, .associated_type_value,
  .associated_type_value_equal, .associated_type_value_bound, .typ_function, .typ_function_argument,
  .typ_function_argument_name, .typ_function_argument_variadic, .lifetime, .attribute, .attribute_literal,
  .attribute_containing, .attribute_containing_literal, .operator_prefix_reference, .operator_postfix_as_type,
  .operator_postfix_ascription, .operator_postfix_call, .operator_postfix_field_access, .field_name,
  .field_name_number, .operator_postfix_slice, .expression_atom, .expr_macro_call, .expr_macro_call_args,
  .expr_macro_call_paren, .expr_macro_call_square, .expr_macro_call_curly, .expr_let, .expr_let_type,
  .expr_let_rhs, .expr_if, .expr_if_else_if, .expr_if_else_end, .expr_followed_by_block, .expr_for_loop,
  .loop_label, .expr_loop, .expr_if_let, .expr_while, .expr_while_let, .expr_match, .match_arm,
  .match_arm_guard, .match_arm_hand, .expr_tuple_or_parenthetical, .expr_array, .expr_array_explicit,
  .expr_array_repeated, .expr_byte, .expr_byte_string, .expr_closure, .expr_closure_arg,
  .expr_closure_arg_type, .expr_closure_return, .expr_closure_return_explicit, .expr_closure_return_body,
  .expr_closure_return_inferred, .expr_return, .expr_continue, .expr_break, .expr_block, .expr_unsafe_block,
  .expr_async_block, .expr_value, .expr_value_struct_literal, .expr_value_struct_literal_field,
  .expr_value_struct_literal_field_value, .expr_value_struct_literal_splat, .expr_disambiguation]

theorem NT.mem_all (n : NT) : n ∈ NT.all := by cases n <;> decide

end Verif
