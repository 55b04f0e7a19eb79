import Verif.NT
/-!
# A rank that excludes left recursion

Generated by `tools/mkrank.lean.txt`.  The rank of every nonterminal is above the ranks of those that its rule can call
before anything is consumed (checked in `Proofs/Terminate.lean`).
-/

namespace Verif

/-- The rank. -/
def NT.rank : NT → Nat
  | .expression => 6
  | .statement_expression => 6
  | .item => 5
  | .function => 3
  | .function_header => 2
  | .function_qualifiers => 1
  | .function_qualifier_extern => 0
  | .ident => 0
  | .generic_declarations => 0
  | .generic_declaration_lifetime => 1
  | .generic_declaration_lifetime_bounds => 0
  | .generic_declaration_type => 1
  | .generic_declaration_type_bounds => 0
  | .generic_declaration_type_default => 0
  | .generic_declaration_const => 0
  | .function_arglist => 0
  | .self_argument => 3
  | .self_argument_longhand => 0
  | .self_argument_shorthand => 2
  | .self_argument_qualifier => 1
  | .function_argument => 8
  | .function_return_type => 0
  | .where_clause => 0
  | .where_clause_item => 8
  | .where_clause_kind => 7
  | .where_lifetime => 1
  | .where_type => 6
  | .trait_bounds => 7
  | .trait_bound => 6
  | .trait_bound_lifetime => 1
  | .trait_bound_normal => 5
  | .trait_bound_normal_child => 4
  | .trait_bound_relaxed => 0
  | .block => 0
  | .statement => 7
  | .statement_empty => 0
  | .item_macro_call => 4
  | .item_macro_call_args => 1
  | .item_macro_call_paren => 0
  | .item_macro_call_square => 0
  | .item_macro_call_curly => 0
  | .character_literal => 0
  | .string_literal => 0
  | .number_literal => 0
  | .path => 1
  | .pathed_ident => 3
  | .path_component => 2
  | .turbofish => 0
  | .pattern => 7
  | .pattern_name => 1
  | .pattern_kind => 6
  | .pattern_ident => 4
  | .pattern_tuple => 0
  | .pattern_tuple_member => 8
  | .pattern_slice => 0
  | .pattern_slice_member => 8
  | .pattern_slice_subslice => 1
  | .pattern_struct => 4
  | .pattern_struct_field => 5
  | .pattern_struct_field_long => 1
  | .pattern_byte => 1
  | .pattern_char => 1
  | .pattern_byte_string => 1
  | .pattern_string => 1
  | .pattern_number => 1
  | .pattern_reference => 0
  | .pattern_box => 0
  | .pattern_range_exclusive => 5
  | .range_inclusive_operator => 0
  | .pattern_range_inclusive => 5
  | .pattern_range_component => 4
  | .pattern_macro_call => 5
  | .p_struct => 2
  | .struct_defn_body => 2
  | .struct_defn_body_brace => 1
  | .struct_defn_body_brace_only => 0
  | .struct_defn_body_tuple => 1
  | .struct_defn_body_tuple_only => 0
  | .tuple_defn_field => 6
  | .struct_defn_field => 2
  | .p_union => 2
  | .p_enum => 2
  | .enum_variant => 1
  | .enum_variant_body => 1
  | .enum_discriminant => 0
  | .p_trait => 2
  | .trait_impl_member => 5
  | .trait_member_function => 3
  | .trait_member_type => 0
  | .trait_member_const => 0
  | .trait_member_const_value => 0
  | .visibility => 1
  | .visibility_public => 0
  | .visibility_public_qualifier => 0
  | .visibility_qualifier_kind => 2
  | .trait_impl_function_header => 2
  | .trait_impl_function_arglist => 0
  | .trait_impl_function_argument => 9
  | .trait_impl_function_argument_name => 8
  | .trait_impl_function_body => 1
  | .p_impl => 0
  | .p_impl_kind => 7
  | .p_impl_of_inherent => 6
  | .p_impl_of_trait => 6
  | .type_or_wildcard => 6
  | .impl_member => 5
  | .impl_function => 3
  | .impl_type => 0
  | .impl_const => 2
  | .p_const => 2
  | .p_static => 2
  | .extern_crate => 2
  | .extern_crate_rename => 0
  | .extern_block => 0
  | .extern_block_member => 3
  | .extern_block_static => 2
  | .extern_block_type => 2
  | .extern_block_member_function => 2
  | .extern_block_function_arglist => 0
  | .extern_block_function_argument => 9
  | .extern_block_function_argument_named => 8
  | .extern_block_function_argument_variadic => 0
  | .p_use => 2
  | .use_path => 3
  | .use_path_component => 2
  | .path_member => 1
  | .use_tail => 2
  | .use_tail_ident => 1
  | .use_tail_ident_rename => 0
  | .use_tail_glob => 0
  | .use_tail_multi => 0
  | .type_alias => 2
  | .«module» => 2
  | .module_body_or_not => 1
  | .module_body => 0
  | .typ => 5
  | .typ_single => 5
  | .typ_kind => 4
  | .typ_reference => 1
  | .typ_reference_kind => 0
  | .typ_pointer => 0
  | .typ_pointer_kind => 0
  | .typ_tuple => 0
  | .typ_higher_ranked_trait_bounds => 1
  | .higher_ranked_trait_bounds => 0
  | .typ_higher_ranked_trait_bounds_child => 4
  | .typ_dyn_trait => 0
  | .typ_impl_trait => 0
  | .typ_additional => 4
  | .typ_named => 3
  | .typ_named_component => 2
  | .typ_disambiguation => 1
  | .disambiguation_core => 0
  | .disambiguation_core_to_type => 0
  | .typ_array => 0
  | .typ_slice => 0
  | .typ_generics => 1
  | .typ_generics_fn => 0
  | .typ_generics_angle => 0
  | .typ_generics_angle_member => 6
  | .associated_type => 1
  | .associated_type_value => 1
  | .associated_type_value_equal => 0
  | .associated_type_value_bound => 0
  | .typ_function => 2
  | .typ_function_argument => 6
  | .typ_function_argument_name => 1
  | .typ_function_argument_variadic => 0
  | .lifetime => 0
  | .attribute => 1
  | .attribute_literal => 0
  | .attribute_containing => 1
  | .attribute_containing_literal => 0
  | .operator_prefix_reference => 0
  | .operator_postfix_as_type => 0
  | .operator_postfix_ascription => 0
  | .operator_postfix_call => 0
  | .operator_postfix_field_access => 0
  | .field_name => 3
  | .field_name_number => 0
  | .operator_postfix_slice => 0
  | .expression_atom => 5
  | .expr_macro_call => 4
  | .expr_macro_call_args => 1
  | .expr_macro_call_paren => 0
  | .expr_macro_call_square => 0
  | .expr_macro_call_curly => 0
  | .expr_let => 0
  | .expr_let_type => 0
  | .expr_let_rhs => 0
  | .expr_if => 0
  | .expr_if_else_if => 0
  | .expr_if_else_end => 0
  | .expr_followed_by_block => 7
  | .expr_for_loop => 2
  | .loop_label => 1
  | .expr_loop => 2
  | .expr_if_let => 0
  | .expr_while => 2
  | .expr_while_let => 2
  | .expr_match => 0
  | .match_arm => 8
  | .match_arm_guard => 0
  | .match_arm_hand => 7
  | .expr_tuple_or_parenthetical => 0
  | .expr_array => 1
  | .expr_array_explicit => 0
  | .expr_array_repeated => 0
  | .expr_byte => 0
  | .expr_byte_string => 0
  | .expr_closure => 0
  | .expr_closure_arg => 8
  | .expr_closure_arg_type => 0
  | .expr_closure_return => 8
  | .expr_closure_return_explicit => 0
  | .expr_closure_return_body => 2
  | .expr_closure_return_inferred => 7
  | .expr_return => 0
  | .expr_continue => 0
  | .expr_break => 0
  | .expr_block => 1
  | .expr_unsafe_block => 0
  | .expr_async_block => 0
  | .expr_value => 4
  | .expr_value_struct_literal => 0
  | .expr_value_struct_literal_field => 1
  | .expr_value_struct_literal_field_value => 0
  | .expr_value_struct_literal_splat => 0
  | .expr_disambiguation => 1

end Verif
