import Verif.NT
/-!
# What each parser function can begin with

Written by `tools/mkfirst.py`; checked against the rules in `Proofs/Reads.lean`.
-/

namespace Verif

/-- The kinds of tokens a parser function can begin with (`none` for numbers). -/
def NT.first : NT → List (Option TK)
  | .expression => [some .DocCommentOuterLine, some .DocCommentOuterBlock, some .Hash, some .Box, some .TriplePeriod, some .DoublePeriodEquals, some .DoublePeriod, some .Asterisk, some .Bang, some .Minus, some .Ampersand, some .If, some .Lifetime, some .For, some .Loop, some .While, some .Match, some .Unsafe, some .Async, some .LeftCurly, some .DoubleColon, some .Crate, some .Default, some .SelfIdent, some .Dyn, some .Union, some .Ident, some .Let, some .LeftParen, some .LeftSquare, some .Character, some .String, some .StringRaw, some .Move, some .Pipe, some .Return, some .Continue, some .Break, none, some .Byte, some .ByteString, some .ByteStringRaw, some .LeftAngle]
  | .statement_expression => [some .DocCommentOuterLine, some .DocCommentOuterBlock, some .Hash, some .Box, some .TriplePeriod, some .DoublePeriodEquals, some .DoublePeriod, some .Asterisk, some .Bang, some .Minus, some .Ampersand, some .If, some .Lifetime, some .For, some .Loop, some .While, some .Match, some .Unsafe, some .Async, some .LeftCurly, some .DoubleColon, some .Crate, some .Default, some .SelfIdent, some .Dyn, some .Union, some .Ident, some .Let, some .LeftParen, some .LeftSquare, some .Character, some .String, some .StringRaw, some .Move, some .Pipe, some .Return, some .Continue, some .Break, none, some .Byte, some .ByteString, some .ByteStringRaw, some .LeftAngle]
  | .item => [some .DocCommentInnerLine, some .DocCommentInnerBlock, some .Hash, some .Pub, some .Crate, some .Const, some .Extern, some .Default, some .Unsafe, some .Async, some .Fn, some .DoubleColon, some .SelfIdent, some .Dyn, some .Union, some .Ident, some .Mod, some .Enum, some .Impl, some .Static, some .Struct, some .Auto, some .Trait, some .Use, some .Type]
  | .function => [some .Pub, some .Crate, some .Default, some .Const, some .Unsafe, some .Async, some .Extern, some .Fn]
  | .function_header => [some .Pub, some .Crate, some .Default, some .Const, some .Unsafe, some .Async, some .Extern, some .Fn]
  | .function_qualifiers => [some .Default, some .Const, some .Unsafe, some .Async, some .Extern]
  | .function_qualifier_extern => [some .Extern]
  | .ident => [some .Default, some .SelfIdent, some .Dyn, some .Union, some .Ident]
  | .generic_declarations => [some .LeftAngle]
  | .generic_declaration_lifetime => [some .Lifetime]
  | .generic_declaration_lifetime_bounds => [some .Colon]
  | .generic_declaration_type => [some .Default, some .SelfIdent, some .Dyn, some .Union, some .Ident]
  | .generic_declaration_type_bounds => [some .Colon]
  | .generic_declaration_type_default => [some .Equals]
  | .generic_declaration_const => [some .Const]
  | .function_arglist => [some .LeftParen]
  | .self_argument => [some .Mut, some .SelfIdent, some .Ampersand]
  | .self_argument_longhand => [some .Mut, some .SelfIdent]
  | .self_argument_shorthand => [some .Ampersand, some .Mut, some .SelfIdent]
  | .self_argument_qualifier => [some .Ampersand, some .Mut]
  | .function_argument => [some .Ref, some .Mut, some .Default, some .SelfIdent, some .Dyn, some .Union, some .Ident, some .DoubleColon, some .Crate, some .Character, some .Byte, some .Minus, none, some .Ampersand, some .ByteString, some .ByteStringRaw, some .String, some .StringRaw, some .LeftParen, some .LeftSquare, some .Box]
  | .function_return_type => [some .ThinArrow]
  | .where_clause => [some .Where]
  | .where_clause_item => [some .For, some .Lifetime, some .LeftSquare, some .LeftAngle, some .Default, some .Const, some .Unsafe, some .Async, some .Extern, some .Fn, some .Dyn, some .Impl, some .DoubleColon, some .Crate, some .SelfIdent, some .Union, some .Ident, some .Asterisk, some .Ampersand, some .LeftParen, some .Bang]
  | .where_clause_kind => [some .Lifetime, some .LeftSquare, some .LeftAngle, some .Default, some .Const, some .Unsafe, some .Async, some .Extern, some .Fn, some .For, some .Dyn, some .Impl, some .DoubleColon, some .Crate, some .SelfIdent, some .Union, some .Ident, some .Asterisk, some .Ampersand, some .LeftParen, some .Bang]
  | .where_lifetime => [some .Lifetime]
  | .where_type => [some .LeftSquare, some .LeftAngle, some .Default, some .Const, some .Unsafe, some .Async, some .Extern, some .Fn, some .For, some .Dyn, some .Impl, some .DoubleColon, some .Crate, some .SelfIdent, some .Union, some .Ident, some .Asterisk, some .Ampersand, some .LeftParen, some .Bang]
  | .trait_bounds => [some .Lifetime, some .DoubleColon, some .Crate, some .Default, some .SelfIdent, some .Dyn, some .Union, some .Ident, some .For, some .QuestionMark]
  | .trait_bound => [some .Lifetime, some .DoubleColon, some .Crate, some .Default, some .SelfIdent, some .Dyn, some .Union, some .Ident, some .For, some .QuestionMark]
  | .trait_bound_lifetime => [some .Lifetime]
  | .trait_bound_normal => [some .DoubleColon, some .Crate, some .Default, some .SelfIdent, some .Dyn, some .Union, some .Ident, some .For]
  | .trait_bound_normal_child => [some .DoubleColon, some .Crate, some .Default, some .SelfIdent, some .Dyn, some .Union, some .Ident, some .For]
  | .trait_bound_relaxed => [some .QuestionMark]
  | .block => [some .LeftCurly]
  | .statement => [some .DocCommentOuterLine, some .DocCommentOuterBlock, some .Hash, some .DocCommentInnerLine, some .DocCommentInnerBlock, some .Pub, some .Crate, some .Const, some .Extern, some .Default, some .Unsafe, some .Async, some .Fn, some .DoubleColon, some .SelfIdent, some .Dyn, some .Union, some .Ident, some .Mod, some .Enum, some .Impl, some .Static, some .Struct, some .Auto, some .Trait, some .Use, some .Type, some .Box, some .TriplePeriod, some .DoublePeriodEquals, some .DoublePeriod, some .Asterisk, some .Bang, some .Minus, some .Ampersand, some .If, some .Lifetime, some .For, some .Loop, some .While, some .Match, some .LeftCurly, some .Let, some .LeftParen, some .LeftSquare, some .Character, some .String, some .StringRaw, some .Move, some .Pipe, some .Return, some .Continue, some .Break, none, some .Byte, some .ByteString, some .ByteStringRaw, some .LeftAngle, some .Semicolon]
  | .statement_empty => [some .Semicolon]
  | .item_macro_call => [some .DoubleColon, some .Crate, some .Default, some .SelfIdent, some .Dyn, some .Union, some .Ident]
  | .item_macro_call_args => [some .LeftParen, some .LeftSquare, some .LeftCurly]
  | .item_macro_call_paren => [some .LeftParen]
  | .item_macro_call_square => [some .LeftSquare]
  | .item_macro_call_curly => [some .LeftCurly]
  | .character_literal => [some .Character]
  | .string_literal => [some .String, some .StringRaw]
  | .number_literal => [none]
  | .path => [some .DoubleColon, some .Default, some .SelfIdent, some .Dyn, some .Union, some .Ident]
  | .pathed_ident => [some .DoubleColon, some .Crate, some .Default, some .SelfIdent, some .Dyn, some .Union, some .Ident]
  | .path_component => [some .Crate, some .Default, some .SelfIdent, some .Dyn, some .Union, some .Ident]
  | .turbofish => [some .DoubleColon]
  | .pattern => [some .Ref, some .Mut, some .Default, some .SelfIdent, some .Dyn, some .Union, some .Ident, some .DoubleColon, some .Crate, some .Character, some .Byte, some .Minus, none, some .Ampersand, some .ByteString, some .ByteStringRaw, some .String, some .StringRaw, some .LeftParen, some .LeftSquare, some .Box]
  | .pattern_name => [some .Ref, some .Mut, some .Default, some .SelfIdent, some .Dyn, some .Union, some .Ident]
  | .pattern_kind => [some .DoubleColon, some .Crate, some .Default, some .SelfIdent, some .Dyn, some .Union, some .Ident, some .Character, some .Byte, some .Minus, none, some .Ampersand, some .ByteString, some .ByteStringRaw, some .String, some .StringRaw, some .LeftParen, some .LeftSquare, some .Box, some .Ref, some .Mut]
  | .pattern_ident => [some .Ref, some .Mut, some .DoubleColon, some .Crate, some .Default, some .SelfIdent, some .Dyn, some .Union, some .Ident]
  | .pattern_tuple => [some .LeftParen]
  | .pattern_tuple_member => [some .Ref, some .Mut, some .Default, some .SelfIdent, some .Dyn, some .Union, some .Ident, some .DoubleColon, some .Crate, some .Character, some .Byte, some .Minus, none, some .Ampersand, some .ByteString, some .ByteStringRaw, some .String, some .StringRaw, some .LeftParen, some .LeftSquare, some .Box, some .DoublePeriod]
  | .pattern_slice => [some .LeftSquare]
  | .pattern_slice_member => [some .Ref, some .Mut, some .Default, some .SelfIdent, some .Dyn, some .Union, some .Ident, some .DoubleColon, some .Crate, some .Character, some .Byte, some .Minus, none, some .Ampersand, some .ByteString, some .ByteStringRaw, some .String, some .StringRaw, some .LeftParen, some .LeftSquare, some .Box, some .DoublePeriod]
  | .pattern_slice_subslice => [some .Ref, some .Mut, some .Default, some .SelfIdent, some .Dyn, some .Union, some .Ident]
  | .pattern_struct => [some .DoubleColon, some .Crate, some .Default, some .SelfIdent, some .Dyn, some .Union, some .Ident]
  | .pattern_struct_field => [some .Default, some .SelfIdent, some .Dyn, some .Union, some .Ident, some .Ref, some .Mut, some .DoubleColon, some .Crate]
  | .pattern_struct_field_long => [some .Default, some .SelfIdent, some .Dyn, some .Union, some .Ident]
  | .pattern_byte => [some .Byte]
  | .pattern_char => [some .Character]
  | .pattern_byte_string => [some .ByteString, some .ByteStringRaw]
  | .pattern_string => [some .String, some .StringRaw]
  | .pattern_number => [some .Minus, none]
  | .pattern_reference => [some .Ampersand]
  | .pattern_box => [some .Box]
  | .pattern_range_exclusive => [some .DoubleColon, some .Crate, some .Default, some .SelfIdent, some .Dyn, some .Union, some .Ident, some .Character, some .Byte, some .Minus, none]
  | .range_inclusive_operator => [some .TriplePeriod, some .DoublePeriodEquals]
  | .pattern_range_inclusive => [some .DoubleColon, some .Crate, some .Default, some .SelfIdent, some .Dyn, some .Union, some .Ident, some .Character, some .Byte, some .Minus, none]
  | .pattern_range_component => [some .DoubleColon, some .Crate, some .Default, some .SelfIdent, some .Dyn, some .Union, some .Ident, some .Character, some .Byte, some .Minus, none]
  | .pattern_macro_call => [some .DoubleColon, some .Crate, some .Default, some .SelfIdent, some .Dyn, some .Union, some .Ident]
  | .p_struct => [some .Pub, some .Crate, some .Struct]
  | .struct_defn_body => [some .Where, some .LeftCurly, some .LeftParen, some .Semicolon]
  | .struct_defn_body_brace => [some .Where, some .LeftCurly]
  | .struct_defn_body_brace_only => [some .LeftCurly]
  | .struct_defn_body_tuple => [some .LeftParen]
  | .struct_defn_body_tuple_only => [some .LeftParen]
  | .tuple_defn_field => [some .Pub, some .Crate, some .LeftSquare, some .LeftAngle, some .Default, some .Const, some .Unsafe, some .Async, some .Extern, some .Fn, some .For, some .Dyn, some .Impl, some .DoubleColon, some .SelfIdent, some .Union, some .Ident, some .Asterisk, some .Ampersand, some .LeftParen, some .Bang]
  | .struct_defn_field => [some .Pub, some .Crate, some .Default, some .SelfIdent, some .Dyn, some .Union, some .Ident]
  | .p_union => [some .Pub, some .Crate, some .Union]
  | .p_enum => [some .Pub, some .Crate, some .Enum]
  | .enum_variant => [some .Default, some .SelfIdent, some .Dyn, some .Union, some .Ident]
  | .enum_variant_body => [some .LeftParen, some .LeftCurly, some .Equals]
  | .enum_discriminant => [some .Equals]
  | .p_trait => [some .Pub, some .Crate, some .Unsafe, some .Auto, some .Trait]
  | .trait_impl_member => [some .Pub, some .Crate, some .Default, some .Const, some .Unsafe, some .Async, some .Extern, some .Fn, some .Type, some .DoubleColon, some .SelfIdent, some .Dyn, some .Union, some .Ident]
  | .trait_member_function => [some .Pub, some .Crate, some .Default, some .Const, some .Unsafe, some .Async, some .Extern, some .Fn]
  | .trait_member_type => [some .Type]
  | .trait_member_const => [some .Const]
  | .trait_member_const_value => [some .Equals]
  | .visibility => [some .Pub, some .Crate]
  | .visibility_public => [some .Pub]
  | .visibility_public_qualifier => [some .LeftParen]
  | .visibility_qualifier_kind => [some .SelfIdent, some .Crate, some .DoubleColon, some .Default, some .Dyn, some .Union, some .Ident]
  | .trait_impl_function_header => [some .Pub, some .Crate, some .Default, some .Const, some .Unsafe, some .Async, some .Extern, some .Fn]
  | .trait_impl_function_arglist => [some .LeftParen]
  | .trait_impl_function_argument => [some .Ref, some .Mut, some .Default, some .SelfIdent, some .Dyn, some .Union, some .Ident, some .DoubleColon, some .Crate, some .Character, some .Byte, some .Minus, none, some .Ampersand, some .ByteString, some .ByteStringRaw, some .String, some .StringRaw, some .LeftParen, some .LeftSquare, some .Box, some .LeftAngle, some .Const, some .Unsafe, some .Async, some .Extern, some .Fn, some .For, some .Impl, some .Asterisk, some .Bang]
  | .trait_impl_function_argument_name => [some .Ref, some .Mut, some .Default, some .SelfIdent, some .Dyn, some .Union, some .Ident, some .DoubleColon, some .Crate, some .Character, some .Byte, some .Minus, none, some .Ampersand, some .ByteString, some .ByteStringRaw, some .String, some .StringRaw, some .LeftParen, some .LeftSquare, some .Box]
  | .trait_impl_function_body => [some .LeftCurly, some .Semicolon]
  | .p_impl => [some .Unsafe, some .Impl]
  | .p_impl_kind => [some .Bang, some .LeftSquare, some .LeftAngle, some .Default, some .Const, some .Unsafe, some .Async, some .Extern, some .Fn, some .For, some .Dyn, some .Impl, some .DoubleColon, some .Crate, some .SelfIdent, some .Union, some .Ident, some .Asterisk, some .Ampersand, some .LeftParen]
  | .p_impl_of_inherent => [some .LeftSquare, some .LeftAngle, some .Default, some .Const, some .Unsafe, some .Async, some .Extern, some .Fn, some .For, some .Dyn, some .Impl, some .DoubleColon, some .Crate, some .SelfIdent, some .Union, some .Ident, some .Asterisk, some .Ampersand, some .LeftParen, some .Bang]
  | .p_impl_of_trait => [some .Bang, some .LeftSquare, some .LeftAngle, some .Default, some .Const, some .Unsafe, some .Async, some .Extern, some .Fn, some .For, some .Dyn, some .Impl, some .DoubleColon, some .Crate, some .SelfIdent, some .Union, some .Ident, some .Asterisk, some .Ampersand, some .LeftParen]
  | .type_or_wildcard => [some .LeftSquare, some .LeftAngle, some .Default, some .Const, some .Unsafe, some .Async, some .Extern, some .Fn, some .For, some .Dyn, some .Impl, some .DoubleColon, some .Crate, some .SelfIdent, some .Union, some .Ident, some .Asterisk, some .Ampersand, some .LeftParen, some .Bang, some .DoublePeriod]
  | .impl_member => [some .Pub, some .Crate, some .Const, some .Default, some .Unsafe, some .Async, some .Extern, some .Fn, some .Type, some .DoubleColon, some .SelfIdent, some .Dyn, some .Union, some .Ident]
  | .impl_function => [some .Pub, some .Crate, some .Default, some .Const, some .Unsafe, some .Async, some .Extern, some .Fn]
  | .impl_type => [some .Type]
  | .impl_const => [some .Pub, some .Crate, some .Const]
  | .p_const => [some .Pub, some .Crate, some .Const]
  | .p_static => [some .Pub, some .Crate, some .Static]
  | .extern_crate => [some .Pub, some .Crate, some .Extern]
  | .extern_crate_rename => [some .As]
  | .extern_block => [some .Extern]
  | .extern_block_member => [some .Pub, some .Crate, some .Static, some .Type, some .Fn]
  | .extern_block_static => [some .Pub, some .Crate, some .Static]
  | .extern_block_type => [some .Pub, some .Crate, some .Type]
  | .extern_block_member_function => [some .Pub, some .Crate, some .Fn]
  | .extern_block_function_arglist => [some .LeftParen]
  | .extern_block_function_argument => [some .Ref, some .Mut, some .Default, some .SelfIdent, some .Dyn, some .Union, some .Ident, some .DoubleColon, some .Crate, some .Character, some .Byte, some .Minus, none, some .Ampersand, some .ByteString, some .ByteStringRaw, some .String, some .StringRaw, some .LeftParen, some .LeftSquare, some .Box, some .TriplePeriod]
  | .extern_block_function_argument_named => [some .Ref, some .Mut, some .Default, some .SelfIdent, some .Dyn, some .Union, some .Ident, some .DoubleColon, some .Crate, some .Character, some .Byte, some .Minus, none, some .Ampersand, some .ByteString, some .ByteStringRaw, some .String, some .StringRaw, some .LeftParen, some .LeftSquare, some .Box]
  | .extern_block_function_argument_variadic => [some .TriplePeriod]
  | .p_use => [some .Pub, some .Crate, some .Use]
  | .use_path => [some .Crate, some .Default, some .SelfIdent, some .Dyn, some .Union, some .Ident, some .Asterisk, some .LeftCurly]
  | .use_path_component => [some .Crate, some .Default, some .SelfIdent, some .Dyn, some .Union, some .Ident]
  | .path_member => [some .Crate, some .Default, some .SelfIdent, some .Dyn, some .Union, some .Ident]
  | .use_tail => [some .Default, some .SelfIdent, some .Dyn, some .Union, some .Ident, some .Asterisk, some .LeftCurly]
  | .use_tail_ident => [some .Default, some .SelfIdent, some .Dyn, some .Union, some .Ident]
  | .use_tail_ident_rename => [some .As]
  | .use_tail_glob => [some .Asterisk]
  | .use_tail_multi => [some .LeftCurly]
  | .type_alias => [some .Pub, some .Crate, some .Type]
  | .«module» => [some .Pub, some .Crate, some .Mod]
  | .module_body_or_not => [some .LeftCurly, some .Semicolon]
  | .module_body => [some .LeftCurly]
  | .typ => [some .LeftSquare, some .LeftAngle, some .Default, some .Const, some .Unsafe, some .Async, some .Extern, some .Fn, some .For, some .Dyn, some .Impl, some .DoubleColon, some .Crate, some .SelfIdent, some .Union, some .Ident, some .Asterisk, some .Ampersand, some .LeftParen, some .Bang]
  | .typ_single => [some .LeftSquare, some .LeftAngle, some .Default, some .Const, some .Unsafe, some .Async, some .Extern, some .Fn, some .For, some .Dyn, some .Impl, some .DoubleColon, some .Crate, some .SelfIdent, some .Union, some .Ident, some .Asterisk, some .Ampersand, some .LeftParen, some .Bang]
  | .typ_kind => [some .LeftSquare, some .LeftAngle, some .Default, some .Const, some .Unsafe, some .Async, some .Extern, some .Fn, some .For, some .Dyn, some .Impl, some .DoubleColon, some .Crate, some .SelfIdent, some .Union, some .Ident, some .Asterisk, some .Ampersand, some .LeftParen, some .Bang]
  | .typ_reference => [some .Ampersand]
  | .typ_reference_kind => [some .Ampersand]
  | .typ_pointer => [some .Asterisk]
  | .typ_pointer_kind => [some .Const, some .Mut]
  | .typ_tuple => [some .LeftParen]
  | .typ_higher_ranked_trait_bounds => [some .For]
  | .higher_ranked_trait_bounds => [some .For]
  | .typ_higher_ranked_trait_bounds_child => [some .DoubleColon, some .Crate, some .Default, some .SelfIdent, some .Dyn, some .Union, some .Ident, some .Const, some .Unsafe, some .Async, some .Extern, some .Fn, some .Ampersand]
  | .typ_dyn_trait => [some .Dyn]
  | .typ_impl_trait => [some .Impl]
  | .typ_additional => [some .DoubleColon, some .Crate, some .Default, some .SelfIdent, some .Dyn, some .Union, some .Ident, some .Lifetime]
  | .typ_named => [some .DoubleColon, some .Crate, some .Default, some .SelfIdent, some .Dyn, some .Union, some .Ident]
  | .typ_named_component => [some .Crate, some .Default, some .SelfIdent, some .Dyn, some .Union, some .Ident]
  | .typ_disambiguation => [some .LeftAngle]
  | .disambiguation_core => [some .LeftAngle]
  | .disambiguation_core_to_type => [some .As]
  | .typ_array => [some .LeftSquare]
  | .typ_slice => [some .LeftSquare]
  | .typ_generics => [some .LeftParen, some .LeftAngle]
  | .typ_generics_fn => [some .LeftParen]
  | .typ_generics_angle => [some .LeftAngle]
  | .typ_generics_angle_member => [some .Default, some .SelfIdent, some .Dyn, some .Union, some .Ident, some .Lifetime, some .LeftSquare, some .LeftAngle, some .Const, some .Unsafe, some .Async, some .Extern, some .Fn, some .For, some .Impl, some .DoubleColon, some .Crate, some .Asterisk, some .Ampersand, some .LeftParen, some .Bang]
  | .associated_type => [some .Default, some .SelfIdent, some .Dyn, some .Union, some .Ident]
  | .associated_type_value => [some .Equals, some .Colon]
  | .associated_type_value_equal => [some .Equals]
  | .associated_type_value_bound => [some .Colon]
  | .typ_function => [some .Default, some .Const, some .Unsafe, some .Async, some .Extern, some .Fn]
  | .typ_function_argument => [some .Default, some .SelfIdent, some .Dyn, some .Union, some .Ident, some .LeftSquare, some .LeftAngle, some .Const, some .Unsafe, some .Async, some .Extern, some .Fn, some .For, some .Impl, some .DoubleColon, some .Crate, some .Asterisk, some .Ampersand, some .LeftParen, some .Bang]
  | .typ_function_argument_name => [some .Default, some .SelfIdent, some .Dyn, some .Union, some .Ident]
  | .typ_function_argument_variadic => [some .TriplePeriod]
  | .lifetime => [some .Lifetime]
  | .attribute => [some .DocCommentOuterLine, some .DocCommentOuterBlock, some .Hash]
  | .attribute_literal => [some .Hash]
  | .attribute_containing => [some .DocCommentInnerLine, some .DocCommentInnerBlock, some .Hash]
  | .attribute_containing_literal => [some .Hash]
  | .operator_prefix_reference => [some .Ampersand]
  | .operator_postfix_as_type => [some .As]
  | .operator_postfix_ascription => [some .Colon]
  | .operator_postfix_call => [some .LeftParen]
  | .operator_postfix_field_access => [some .Period]
  | .field_name => [some .Crate, some .Default, some .SelfIdent, some .Dyn, some .Union, some .Ident, none]
  | .field_name_number => [none]
  | .operator_postfix_slice => [some .LeftSquare]
  | .expression_atom => [some .If, some .Lifetime, some .For, some .Loop, some .While, some .Match, some .Unsafe, some .Async, some .LeftCurly, some .DoubleColon, some .Crate, some .Default, some .SelfIdent, some .Dyn, some .Union, some .Ident, some .Let, some .LeftParen, some .LeftSquare, some .Character, some .String, some .StringRaw, some .Move, some .Pipe, some .Return, some .Continue, some .Break, none, some .Byte, some .ByteString, some .ByteStringRaw, some .LeftAngle]
  | .expr_macro_call => [some .DoubleColon, some .Crate, some .Default, some .SelfIdent, some .Dyn, some .Union, some .Ident]
  | .expr_macro_call_args => [some .LeftParen, some .LeftSquare, some .LeftCurly]
  | .expr_macro_call_paren => [some .LeftParen]
  | .expr_macro_call_square => [some .LeftSquare]
  | .expr_macro_call_curly => [some .LeftCurly]
  | .expr_let => [some .Let]
  | .expr_let_type => [some .Colon]
  | .expr_let_rhs => [some .Equals]
  | .expr_if => [some .If]
  | .expr_if_else_if => [some .Else]
  | .expr_if_else_end => [some .Else]
  | .expr_followed_by_block => [some .DocCommentOuterLine, some .DocCommentOuterBlock, some .Hash, some .Box, some .TriplePeriod, some .DoublePeriodEquals, some .DoublePeriod, some .Asterisk, some .Bang, some .Minus, some .Ampersand, some .If, some .Lifetime, some .For, some .Loop, some .While, some .Match, some .Unsafe, some .Async, some .LeftCurly, some .DoubleColon, some .Crate, some .Default, some .SelfIdent, some .Dyn, some .Union, some .Ident, some .Let, some .LeftParen, some .LeftSquare, some .Character, some .String, some .StringRaw, some .Move, some .Pipe, some .Return, some .Continue, some .Break, none, some .Byte, some .ByteString, some .ByteStringRaw, some .LeftAngle]
  | .expr_for_loop => [some .Lifetime, some .For]
  | .loop_label => [some .Lifetime]
  | .expr_loop => [some .Lifetime, some .Loop]
  | .expr_if_let => [some .If]
  | .expr_while => [some .Lifetime, some .While]
  | .expr_while_let => [some .Lifetime, some .While]
  | .expr_match => [some .Match]
  | .match_arm => [some .DocCommentOuterLine, some .DocCommentOuterBlock, some .Hash, some .Ref, some .Mut, some .Default, some .SelfIdent, some .Dyn, some .Union, some .Ident, some .DoubleColon, some .Crate, some .Character, some .Byte, some .Minus, none, some .Ampersand, some .ByteString, some .ByteStringRaw, some .String, some .StringRaw, some .LeftParen, some .LeftSquare, some .Box]
  | .match_arm_guard => [some .If]
  | .match_arm_hand => [some .LeftCurly, some .DocCommentOuterLine, some .DocCommentOuterBlock, some .Hash, some .Box, some .TriplePeriod, some .DoublePeriodEquals, some .DoublePeriod, some .Asterisk, some .Bang, some .Minus, some .Ampersand, some .If, some .Lifetime, some .For, some .Loop, some .While, some .Match, some .Unsafe, some .Async, some .DoubleColon, some .Crate, some .Default, some .SelfIdent, some .Dyn, some .Union, some .Ident, some .Let, some .LeftParen, some .LeftSquare, some .Character, some .String, some .StringRaw, some .Move, some .Pipe, some .Return, some .Continue, some .Break, none, some .Byte, some .ByteString, some .ByteStringRaw, some .LeftAngle]
  | .expr_tuple_or_parenthetical => [some .LeftParen]
  | .expr_array => [some .LeftSquare]
  | .expr_array_explicit => [some .LeftSquare]
  | .expr_array_repeated => [some .LeftSquare]
  | .expr_byte => [some .Byte]
  | .expr_byte_string => [some .ByteString, some .ByteStringRaw]
  | .expr_closure => [some .Async, some .Move, some .Pipe]
  | .expr_closure_arg => [some .Ref, some .Mut, some .Default, some .SelfIdent, some .Dyn, some .Union, some .Ident, some .DoubleColon, some .Crate, some .Character, some .Byte, some .Minus, none, some .Ampersand, some .ByteString, some .ByteStringRaw, some .String, some .StringRaw, some .LeftParen, some .LeftSquare, some .Box]
  | .expr_closure_arg_type => [some .Colon]
  | .expr_closure_return => [some .ThinArrow, some .DocCommentOuterLine, some .DocCommentOuterBlock, some .Hash, some .Box, some .TriplePeriod, some .DoublePeriodEquals, some .DoublePeriod, some .Asterisk, some .Bang, some .Minus, some .Ampersand, some .If, some .Lifetime, some .For, some .Loop, some .While, some .Match, some .Unsafe, some .Async, some .LeftCurly, some .DoubleColon, some .Crate, some .Default, some .SelfIdent, some .Dyn, some .Union, some .Ident, some .Let, some .LeftParen, some .LeftSquare, some .Character, some .String, some .StringRaw, some .Move, some .Pipe, some .Return, some .Continue, some .Break, none, some .Byte, some .ByteString, some .ByteStringRaw, some .LeftAngle]
  | .expr_closure_return_explicit => [some .ThinArrow]
  | .expr_closure_return_body => [some .LeftParen, some .LeftCurly]
  | .expr_closure_return_inferred => [some .DocCommentOuterLine, some .DocCommentOuterBlock, some .Hash, some .Box, some .TriplePeriod, some .DoublePeriodEquals, some .DoublePeriod, some .Asterisk, some .Bang, some .Minus, some .Ampersand, some .If, some .Lifetime, some .For, some .Loop, some .While, some .Match, some .Unsafe, some .Async, some .LeftCurly, some .DoubleColon, some .Crate, some .Default, some .SelfIdent, some .Dyn, some .Union, some .Ident, some .Let, some .LeftParen, some .LeftSquare, some .Character, some .String, some .StringRaw, some .Move, some .Pipe, some .Return, some .Continue, some .Break, none, some .Byte, some .ByteString, some .ByteStringRaw, some .LeftAngle]
  | .expr_return => [some .Return]
  | .expr_continue => [some .Continue]
  | .expr_break => [some .Break]
  | .expr_block => [some .LeftCurly]
  | .expr_unsafe_block => [some .Unsafe]
  | .expr_async_block => [some .Async]
  | .expr_value => [some .DoubleColon, some .Crate, some .Default, some .SelfIdent, some .Dyn, some .Union, some .Ident]
  | .expr_value_struct_literal => [some .LeftCurly]
  | .expr_value_struct_literal_field => [some .Default, some .SelfIdent, some .Dyn, some .Union, some .Ident]
  | .expr_value_struct_literal_field_value => [some .Colon]
  | .expr_value_struct_literal_splat => [some .DoublePeriod]
  | .expr_disambiguation => [some .LeftAngle]

end Verif
