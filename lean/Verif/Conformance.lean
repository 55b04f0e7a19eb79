import Verif.ParseLoop
import Verif.Props.Lex
/-!
# Conformance of the model with the unit tests of the parser

Generated by `tools/mkconf.py` from the tests of `src/parser/mod.rs` and `src/parser/expression.rs`: the extent that a test
expects is the extent the model gives.  These are tests of the model, not proofs.
-/

namespace Verif.Conformance

/-- `qp` of `src/parser/test_utils.rs`, then `HasExtent::extent`. -/
def run (nt : NT) (s : String) : Option Extent :=
  match extractWhitespace Verif.Props.asciiXid true s.toList with
  | .ok _ toks => match eval toks (evalFuel toks) nt .Unambiguous .zero with
    | ⟨.ok _ [v], _, _⟩ => v.extent?.orElse fun _ => some ⟨9999,9999⟩
    | _ => none
  | _ => none
-- parse_use
#guard run .p_use "use foo::Bar;" == some ⟨0, 13⟩
-- parse_use_public
#guard run .p_use "pub use foo::Bar;" == some ⟨0, 17⟩
-- parse_use_glob
#guard run .p_use "use foo::*;" == some ⟨0, 11⟩
-- parse_use_with_multi
#guard run .p_use "use foo::{Bar, Baz};" == some ⟨0, 20⟩
-- parse_use_no_path
#guard run .p_use "use {Bar, Baz};" == some ⟨0, 15⟩
-- parse_use_absolute_path
#guard run .p_use "use ::{Bar, Baz};" == some ⟨0, 17⟩
-- parse_use_rename
#guard run .p_use "use foo as bar;" == some ⟨0, 15⟩
-- parse_use_with_multi_rename
#guard run .p_use "use foo::{bar as a, baz as b};" == some ⟨0, 30⟩
-- parse_use_with_nested
#guard run .p_use "use foo::{self, inner::{self, Type}};" == some ⟨0, 37⟩
-- parse_use_with_crate
#guard run .p_use "use crate::foo;" == some ⟨0, 15⟩
-- parse_use_all_space
#guard run .p_use "use foo :: { bar as a , baz as b } ;" == some ⟨0, 36⟩
-- item_mod_multiple
#guard run .item "mod foo { use super::*; }" == some ⟨0, 25⟩
-- item_macro_call_with_parens
#guard run .item "foo!();" == some ⟨0, 7⟩
-- item_macro_call_with_square_brackets
#guard run .item "foo![];" == some ⟨0, 7⟩
-- item_macro_call_with_curly_braces
#guard run .item "foo! { }" == some ⟨0, 8⟩
-- item_macro_call_with_ident
#guard run .item "macro_rules! name { }" == some ⟨0, 21⟩
-- item_macro_call_with_path
#guard run .item "foo::bar!();" == some ⟨0, 12⟩
-- item_macro_call_all_space
#guard run .item "foo :: bar ! baz [ ] ;" == some ⟨0, 22⟩
-- item_mod
#guard run .«module» "mod foo { }" == some ⟨0, 11⟩
-- item_mod_public
#guard run .«module» "pub mod foo;" == some ⟨0, 12⟩
-- item_mod_another_file
#guard run .«module» "mod foo;" == some ⟨0, 8⟩
-- item_trait
#guard run .item "trait Foo {}" == some ⟨0, 12⟩
-- item_auto_trait
#guard run .item "auto trait Foo {}" == some ⟨0, 17⟩
-- item_trait_public
#guard run .item "pub trait Foo {}" == some ⟨0, 16⟩
-- item_trait_unsafe
#guard run .item "unsafe trait Foo {}" == some ⟨0, 19⟩
-- item_trait_with_generics
#guard run .item "trait Foo<T> {}" == some ⟨0, 15⟩
-- item_trait_with_members
#guard run .item "trait Foo { fn bar(&self) -> u8; }" == some ⟨0, 34⟩
-- item_trait_with_members_with_patterns
#guard run .item "trait Foo { fn bar(&self, &a: &u8) -> u8; }" == some ⟨0, 43⟩
-- item_trait_with_members_with_body
#guard run .item "trait Foo { fn bar(&self) -> u8 { 42 } }" == some ⟨0, 40⟩
-- item_trait_with_unnamed_parameters
#guard run .item "trait Foo { fn bar(&self, u8); }" == some ⟨0, 32⟩
-- item_trait_with_associated_type
#guard run .item "trait Foo { type Bar; }" == some ⟨0, 23⟩
-- item_trait_with_associated_type_with_bounds
#guard run .item "trait Foo { type Bar: Baz; }" == some ⟨0, 28⟩
-- item_trait_with_associated_type_with_default
#guard run .item "trait Foo { type Bar = (); }" == some ⟨0, 28⟩
-- item_trait_with_associated_type_with_bounds_and_default
#guard run .item "trait Foo { type Bar: Baz = (); }" == some ⟨0, 33⟩
-- item_trait_with_associated_const
#guard run .item "trait Foo { const Bar: u8; }" == some ⟨0, 28⟩
-- item_trait_with_associated_const_with_default
#guard run .item "trait Foo { const Bar: u8 = 42; }" == some ⟨0, 33⟩
-- item_trait_with_supertraits
#guard run .item "trait Foo: Bar + Baz {}" == some ⟨0, 23⟩
-- item_trait_with_where_clause
#guard run .item "trait Foo where A: B {}" == some ⟨0, 23⟩
-- item_trait_with_macro
#guard run .item "trait Foo { bar!{} }" == some ⟨0, 20⟩
-- item_trait_all_space
#guard run .item "trait Foo : Bar { type A : B ; fn a ( a : u8) -> u8 { a } }" == some ⟨0, 59⟩
-- item_type_alias
#guard run .item "type Foo<T> = Bar<T, u8>;" == some ⟨0, 25⟩
-- item_type_alias_public
#guard run .item "pub type Foo<T> = Bar<T, u8>;" == some ⟨0, 29⟩
-- item_type_alias_with_trait_bounds
#guard run .item "type X<T: Foo> where T: Bar = Option<T>;" == some ⟨0, 40⟩
-- item_const_public
#guard run .item "pub const FOO: u8 = 42;" == some ⟨0, 23⟩
-- item_static_public
#guard run .item "pub static FOO: u8 = 42;" == some ⟨0, 24⟩
-- item_extern_crate
#guard run .item "extern crate foo;" == some ⟨0, 17⟩
-- item_extern_crate_public
#guard run .item "pub extern crate foo;" == some ⟨0, 21⟩
-- item_extern_crate_rename
#guard run .item "extern crate foo as bar;" == some ⟨0, 24⟩
-- item_extern_block
#guard run .item "extern {}" == some ⟨0, 9⟩
-- item_extern_block_with_fn
#guard run .item "extern { fn foo(bar: u8) -> bool; }" == some ⟨0, 35⟩
-- item_extern_block_with_variadic_fn
#guard run .item "extern { fn foo(bar: u8, ...) -> bool; }" == some ⟨0, 40⟩
-- item_extern_block_with_fn_and_generics
#guard run .item "extern { fn foo<A, B>(bar: A) -> B; }" == some ⟨0, 37⟩
-- item_extern_block_with_attribute
#guard run .item "extern { #[wow] static A: u8; }" == some ⟨0, 31⟩
-- item_extern_block_with_static
#guard run .item "extern { static FOO: u32; }" == some ⟨0, 27⟩
-- item_extern_block_with_static_and_qualifiers
#guard run .item "extern { pub static mut FOO: u32; }" == some ⟨0, 35⟩
-- item_extern_block_with_type
#guard run .item "extern { type opaque; }" == some ⟨0, 23⟩
-- item_extern_block_with_type_and_qualifiers
#guard run .item "extern { pub type opaque; }" == some ⟨0, 27⟩
-- item_attribute_containing
#guard run .item "#![feature(sweet)]" == some ⟨0, 18⟩
-- item_attribute_containing_doc_comment_line
#guard run .item "//! Hello" == some ⟨0, 9⟩
-- item_attribute_containing_doc_comment_block
#guard run .item "/*! Hello */" == some ⟨0, 12⟩
-- inherent_impl
#guard run .p_impl "impl Bar {}" == some ⟨0, 11⟩
-- inherent_impl_with_function
#guard run .p_impl "impl Bar { fn foo() {} }" == some ⟨0, 24⟩
-- inherent_impl_with_const_function
#guard run .p_impl "impl Bar { const fn foo() {} }" == some ⟨0, 30⟩
-- inherent_impl_with_default_function
#guard run .p_impl "impl Bar { default fn foo() {} }" == some ⟨0, 32⟩
-- inherent_impl_with_unsafe_function
#guard run .p_impl "impl Bar { unsafe fn foo() {} }" == some ⟨0, 31⟩
-- inherent_impl_with_extern_function
#guard run .p_impl "impl Bar { extern fn foo() {} }" == some ⟨0, 31⟩
-- inherent_impl_with_default_const_unsafe_function
#guard run .p_impl "impl Bar { default const unsafe fn foo() {} }" == some ⟨0, 45⟩
-- inherent_impl_with_default_unsafe_extern_function
#guard run .p_impl "impl Bar { default unsafe extern fn foo() {} }" == some ⟨0, 46⟩
-- impl_with_trait
#guard run .p_impl "impl Foo for Bar {}" == some ⟨0, 19⟩
-- impl_with_negative_trait
#guard run .p_impl "impl !Foo for Bar {}" == some ⟨0, 20⟩
-- impl_trait_with_wildcard_type
#guard run .p_impl "impl Foo for .. {}" == some ⟨0, 18⟩
-- impl_with_generics
#guard run .p_impl "impl<'a, T> Foo<'a, T> for Bar<'a, T> {}" == some ⟨0, 40⟩
-- impl_with_generics_no_space
#guard run .p_impl "impl<'a,T>Foo<'a,T>for Bar<'a,T>{}" == some ⟨0, 34⟩
-- impl_with_trait_bounds
#guard run .p_impl "impl<T> Foo for Bar<T> where T: Quux {}" == some ⟨0, 39⟩
-- impl_with_attribute
#guard run .p_impl "impl Foo { #[attribute] fn bar() {} }" == some ⟨0, 37⟩
-- impl_with_attributes
#guard run .p_impl "impl Foo { #[a] #[b] fn bar() {} }" == some ⟨0, 34⟩
-- impl_with_associated_type
#guard run .p_impl "impl Foo { type A = B; }" == some ⟨0, 24⟩
-- impl_with_associated_const
#guard run .p_impl "impl Foo { const A: i32 = 42; }" == some ⟨0, 31⟩
-- impl_with_public_associated_const
#guard run .p_impl "impl Foo { pub(crate) const A: i32 = 42; }" == some ⟨0, 42⟩
-- impl_with_unsafe
#guard run .p_impl "unsafe impl Foo {}" == some ⟨0, 18⟩
-- impl_with_macro_call
#guard run .p_impl "impl Foo { bar!(); }" == some ⟨0, 20⟩
-- enum_with_trailing_stuff
#guard run .p_enum "enum A {} impl Foo for Bar {}" == some ⟨0, 9⟩
-- enum_with_generic_types
#guard run .p_enum "enum A { Foo(Vec<u8>) }" == some ⟨0, 23⟩
-- enum_with_generic_declarations
#guard run .p_enum "enum A<T> { Foo(Vec<T>) }" == some ⟨0, 25⟩
-- enum_with_struct_variant
#guard run .p_enum "enum A { Foo { a: u8 } }" == some ⟨0, 24⟩
-- enum_with_attribute
#guard run .p_enum "enum Foo { #[attr] A(u8)}" == some ⟨0, 25⟩
-- enum_with_attribute_on_value
#guard run .p_enum "enum Foo { A(#[attr] u8) }" == some ⟨0, 26⟩
-- enum_with_discriminant
#guard run .p_enum "enum Foo { A = 1, B = 2 }" == some ⟨0, 25⟩
-- enum_with_where_clause
#guard run .p_enum "enum Foo<A> where A: Bar { Z }" == some ⟨0, 30⟩
-- enum_public
#guard run .p_enum "pub enum A {}" == some ⟨0, 13⟩
-- fn_with_public_modifier
#guard run .function_header "pub fn foo()" == some ⟨0, 12⟩
-- fn_with_const_modifier
#guard run .function_header "const fn foo()" == some ⟨0, 14⟩
-- fn_with_extern_modifier
#guard run .function_header "extern fn foo()" == some ⟨0, 15⟩
-- fn_with_async_modifier
#guard run .function_header "async fn foo()" == some ⟨0, 14⟩
-- fn_with_self_type_reference
#guard run .function_header "fn foo(&self)" == some ⟨0, 13⟩
-- fn_with_self_type_value
#guard run .function_header "fn foo(self)" == some ⟨0, 12⟩
-- fn_with_self_type_value_mut
#guard run .function_header "fn foo(mut self)" == some ⟨0, 16⟩
-- fn_with_self_type_reference_mut
#guard run .function_header "fn foo(&mut self)" == some ⟨0, 17⟩
-- fn_with_self_type_with_lifetime
#guard run .function_header "fn foo<'a>(&'a self)" == some ⟨0, 20⟩
-- fn_with_self_type_and_regular
#guard run .function_header "fn foo(&self, a: u8)" == some ⟨0, 20⟩
-- fn_with_self_type_explicit_type
#guard run .function_header "fn foo(self: &mut Self)" == some ⟨0, 23⟩
-- fn_with_self_type_explicit_type_mutable
#guard run .function_header "fn foo(mut self: &mut Self)" == some ⟨0, 27⟩
-- fn_with_argument
#guard run .function_header "fn foo(a: u8)" == some ⟨0, 13⟩
-- fn_with_arguments_all_space
#guard run .function_header "fn foo ( a : u8 )" == some ⟨0, 17⟩
-- fn_with_argument_with_generic
#guard run .function_header "fn foo(a: Vec<u8>)" == some ⟨0, 18⟩
-- fn_with_arguments
#guard run .function_header "fn foo(a: u8, b: u8)" == some ⟨0, 20⟩
-- fn_with_arguments_with_patterns
#guard run .function_header "fn foo(&a: &u8)" == some ⟨0, 15⟩
-- fn_with_return_type
#guard run .function_header "fn foo() -> bool" == some ⟨0, 16⟩
-- fn_with_generics
#guard run .function_header "fn foo<A, B>()" == some ⟨0, 14⟩
-- fn_with_lifetimes
#guard run .function_header "fn foo<'a, 'b>()" == some ⟨0, 16⟩
-- fn_with_lifetimes_and_generics
#guard run .function_header "fn foo<'a, T>()" == some ⟨0, 15⟩
-- fn_with_whitespace_before_arguments
#guard run .function_header "fn foo () -> ()" == some ⟨0, 15⟩
-- fn_with_whitespace_before_generics
#guard run .function_header "fn foo <'a, T>() -> ()" == some ⟨0, 22⟩
-- fn_with_unsafe_qualifier
#guard run .function_header "unsafe fn foo()" == some ⟨0, 15⟩
-- block_with_multiple_implicit_statement_macro_calls
#guard run .block "{ a! {} b! {} }" == some ⟨0, 15⟩
-- block_promotes_implicit_statement_to_expression
#guard (run .block "{ if a {} }").isSome
-- block_with_multiple_empty_statements
#guard run .block "{ ; ; ; }" == some ⟨0, 9⟩
-- statement_match_no_semicolon
#guard (run .statement "match a { _ => () }").isSome
-- statement_use
#guard run .statement "use foo::Bar;" == some ⟨0, 13⟩
-- statement_any_item
#guard run .statement "struct Foo {}" == some ⟨0, 13⟩
-- statement_union
#guard run .statement "union union { union: union }" == some ⟨0, 28⟩
-- statement_braced_expression_followed_by_method
#guard run .statement "match 1 { _ => 1u8 }.count_ones()" == some ⟨0, 33⟩
-- pathed_ident_with_leading_separator
#guard run .pathed_ident "::foo" == some ⟨0, 5⟩
-- pathed_ident_with_crate
#guard run .pathed_ident "crate::foo" == some ⟨0, 10⟩
-- pathed_ident_with_turbofish
#guard run .pathed_ident "foo::<Vec<u8>>" == some ⟨0, 14⟩
-- pathed_ident_with_turbofish_with_lifetime
#guard run .pathed_ident "StructWithLifetime::<'a, u8>" == some ⟨0, 28⟩
-- pathed_ident_all_space
#guard run .pathed_ident "foo :: < Vec < u8 > , Option < bool > >" == some ⟨0, 39⟩
-- number_with_exponent
#guard run .number_literal "1e2" == some ⟨0, 3⟩
-- number_with_prefix_and_exponent
#guard run .number_literal "0x1e2" == some ⟨0, 5⟩
-- number_with_fractional
#guard run .number_literal "1.2" == some ⟨0, 3⟩
-- number_with_fractional_with_suffix
#guard run .number_literal "1.2f32" == some ⟨0, 6⟩
-- number_with_prefix_and_fractional
#guard run .number_literal "0x1.2" == some ⟨0, 5⟩
-- number_with_prefix_exponent_and_fractional
#guard run .number_literal "0o7.3e9" == some ⟨0, 7⟩
-- number_with_prefix_can_have_underscore_after_prefix
#guard run .number_literal "0x_123" == some ⟨0, 6⟩
-- number_binary_can_have_suffix
#guard run .number_literal "0b111u8" == some ⟨0, 7⟩
-- number_decimal_can_have_suffix
#guard run .number_literal "123i16" == some ⟨0, 6⟩
-- number_hexadecimal_can_have_suffix
#guard run .number_literal "0xBEEF__u32" == some ⟨0, 11⟩
-- number_octal_can_have_suffix
#guard run .number_literal "0o777_isize" == some ⟨0, 11⟩
-- pattern_with_path
#guard run .pattern "foo::Bar::Baz" == some ⟨0, 13⟩
-- pattern_with_ref
#guard run .pattern "ref a" == some ⟨0, 5⟩
-- pattern_with_tuple
#guard run .pattern "(a, b)" == some ⟨0, 6⟩
-- pattern_with_enum_tuple
#guard run .pattern "Baz(a)" == some ⟨0, 6⟩
-- pattern_with_tuple_wildcard
#guard run .pattern "(..)" == some ⟨0, 4⟩
-- pattern_with_tuple_wildcard_anywhere
#guard run .pattern "(a, .., b)" == some ⟨0, 10⟩
-- pattern_with_tuple_all_space
#guard run .pattern "( a , .. , b )" == some ⟨0, 14⟩
-- pattern_with_enum_struct
#guard run .pattern "Baz { a: a }" == some ⟨0, 12⟩
-- pattern_with_enum_struct_shorthand
#guard run .pattern "Baz { a }" == some ⟨0, 9⟩
-- pattern_with_enum_struct_shorthand_with_ref
#guard run .pattern "Baz { ref a }" == some ⟨0, 13⟩
-- pattern_with_enum_struct_wildcard
#guard run .pattern "Baz { .. }" == some ⟨0, 10⟩
-- pattern_with_byte_literal
#guard run .pattern "b'a'" == some ⟨0, 4⟩
-- pattern_with_char_literal
#guard run .pattern "'a'" == some ⟨0, 3⟩
-- pattern_with_numeric_literal
#guard run .pattern "42" == some ⟨0, 2⟩
-- pattern_with_numeric_literal_negative
#guard run .pattern "- 42" == some ⟨0, 4⟩
-- pattern_with_slice
#guard run .pattern "[a, b]" == some ⟨0, 6⟩
-- pattern_with_slice_and_subslices
#guard run .pattern "[a, b @ ..]" == some ⟨0, 11⟩
-- pattern_with_slice_and_modified_subslices
#guard run .pattern "[a, ref mut b @ ..]" == some ⟨0, 19⟩
-- pattern_with_reference
#guard run .pattern "&a" == some ⟨0, 2⟩
-- pattern_with_reference_mutable
#guard run .pattern "&mut ()" == some ⟨0, 7⟩
-- pattern_with_named_subpattern
#guard run .pattern "a @ 1" == some ⟨0, 5⟩
-- pattern_with_named_subpattern_qualifiers
#guard run .pattern "ref mut a @ 1" == some ⟨0, 13⟩
-- pattern_with_numeric_inclusive_range
#guard run .pattern "1 ..= 10" == some ⟨0, 8⟩
-- pattern_with_numeric_inclusive_range_negative
#guard run .pattern "-10 ..= -1" == some ⟨0, 10⟩
-- pattern_with_character_inclusive_range
#guard run .pattern "'a'..='z'" == some ⟨0, 9⟩
-- pattern_with_byte_inclusive_range
#guard run .pattern "b'a'..=b'z'" == some ⟨0, 11⟩
-- pattern_with_pathed_ident_inclusive_range
#guard run .pattern "foo::a..=z" == some ⟨0, 10⟩
-- pattern_with_legacy_numeric_inclusive_range
#guard run .pattern "1 ... 10" == some ⟨0, 8⟩
-- pattern_with_legacy_numeric_inclusive_range_negative
#guard run .pattern "-10 ... -1" == some ⟨0, 10⟩
-- pattern_with_legacy_character_inclusive_range
#guard run .pattern "'a'...'z'" == some ⟨0, 9⟩
-- pattern_with_legacy_byte_inclusive_range
#guard run .pattern "b'a'...b'z'" == some ⟨0, 11⟩
-- pattern_with_legacy_pathed_ident_inclusive_range
#guard run .pattern "foo::a...z" == some ⟨0, 10⟩
-- pattern_with_numeric_exclusive_range
#guard run .pattern "1 .. 10" == some ⟨0, 7⟩
-- pattern_with_numeric_exclusive_range_negative
#guard run .pattern "-10 .. -1" == some ⟨0, 9⟩
-- pattern_with_character_exclusive_range
#guard run .pattern "'a'..'z'" == some ⟨0, 8⟩
-- pattern_with_byte_exclusive_range
#guard run .pattern "b'a'..b'z'" == some ⟨0, 10⟩
-- pattern_with_pathed_ident_exclusive_range
#guard run .pattern "foo::a..z" == some ⟨0, 9⟩
-- pattern_with_macro_call
#guard run .pattern "foo![]" == some ⟨0, 6⟩
-- pattern_with_box
#guard run .pattern "box a" == some ⟨0, 5⟩
-- type_tuple
#guard run .typ "(u8, u8)" == some ⟨0, 8⟩
-- type_tuple_all_space
#guard run .typ "( u8 , u8 )" == some ⟨0, 11⟩
-- type_with_generics
#guard run .typ "A<T>" == some ⟨0, 4⟩
-- type_with_generics_all_space
#guard run .typ "A < T >" == some ⟨0, 7⟩
-- type_dyn_trait
#guard run .typ "dyn Foo" == some ⟨0, 7⟩
-- type_impl_trait
#guard run .typ "impl Foo" == some ⟨0, 8⟩
-- type_fn_trait
#guard run .typ "Fn(u8) -> u8" == some ⟨0, 12⟩
-- type_ref
#guard run .typ "&mut Foo" == some ⟨0, 8⟩
-- type_mut_ref
#guard run .typ "&mut Foo" == some ⟨0, 8⟩
-- type_mut_ref_with_lifetime
#guard run .typ "&'a mut Foo" == some ⟨0, 11⟩
-- type_const_pointer
#guard run .typ "*const Foo" == some ⟨0, 10⟩
-- type_mut_pointer
#guard run .typ "*mut Foo" == some ⟨0, 8⟩
-- type_uninhabited
#guard run .typ "!" == some ⟨0, 1⟩
-- type_slice
#guard run .typ "[u8]" == some ⟨0, 4⟩
-- type_array
#guard run .typ "[u8; 42]" == some ⟨0, 8⟩
-- type_array_allows_expressions
#guard run .typ "[u8; 1 + 1]" == some ⟨0, 11⟩
-- type_fn
#guard run .typ "fn(u8) -> u8" == some ⟨0, 12⟩
-- type_fn_with_names
#guard run .typ "fn(a: u8) -> u8" == some ⟨0, 15⟩
-- type_fn_with_const
#guard run .typ "const fn()" == some ⟨0, 10⟩
-- type_fn_with_unsafe
#guard run .typ "unsafe fn()" == some ⟨0, 11⟩
-- type_fn_with_extern
#guard run .typ "extern fn()" == some ⟨0, 11⟩
-- type_fn_with_variadic
#guard run .typ "fn(...)" == some ⟨0, 7⟩
-- type_higher_ranked_trait_bounds
#guard run .typ "for <'a> Foo<'a>" == some ⟨0, 16⟩
-- type_higher_ranked_trait_bounds_on_functions
#guard run .typ "for <'a> fn(&'a u8)" == some ⟨0, 19⟩
-- type_higher_ranked_trait_bounds_on_references
#guard run .typ "for <'a> &'a u8" == some ⟨0, 15⟩
-- type_with_path
#guard run .typ "crate::foo::Bar" == some ⟨0, 15⟩
-- type_with_additional_named_type
#guard run .typ "Foo + Bar" == some ⟨0, 9⟩
-- type_with_additional_lifetimes
#guard run .typ "Foo + 'a" == some ⟨0, 8⟩
-- type_disambiguation
#guard run .typ "<Foo as Bar>" == some ⟨0, 12⟩
-- type_disambiguation_with_associated_type
#guard run .typ "<Foo as Bar>::Quux" == some ⟨0, 18⟩
-- type_disambiguation_without_disambiguation
#guard run .typ "<Foo>" == some ⟨0, 5⟩
-- type_disambiguation_with_double_angle_brackets
#guard run .typ "<<A as B> as Option<T>>" == some ⟨0, 23⟩
-- struct_basic
#guard run .p_struct "struct S { field: TheType, other: OtherType }" == some ⟨0, 45⟩
-- struct_with_generic_fields
#guard run .p_struct "struct S { field: Option<u8> }" == some ⟨0, 30⟩
-- struct_with_fields_with_no_space
#guard run .p_struct "struct S{a:u8}" == some ⟨0, 14⟩
-- struct_with_fields_with_all_space
#guard run .p_struct "struct S { a : u8 }" == some ⟨0, 19⟩
-- struct_with_generic_declarations
#guard run .p_struct "struct S<T> { field: Option<T> }" == some ⟨0, 32⟩
-- struct_public
#guard run .p_struct "pub struct S {}" == some ⟨0, 15⟩
-- struct_public_field
#guard run .p_struct "struct S { pub age: u8 }" == some ⟨0, 24⟩
-- struct_with_attributed_field
#guard run .p_struct "struct S { #[foo(bar)] #[baz(quux)] field: u8 }" == some ⟨0, 47⟩
-- struct_with_block_documented_field
#guard run .p_struct "struct S { /** use me */ field: u8 }" == some ⟨0, 36⟩
-- struct_with_line_documented_field
#guard run .p_struct "struct S { /// use me\n field: u8 }" == some ⟨0, 34⟩
-- struct_with_tuple
#guard run .p_struct "struct S(u8);" == some ⟨0, 13⟩
-- struct_with_tuple_and_annotation
#guard run .p_struct "struct S(#[foo] u8);" == some ⟨0, 20⟩
-- struct_with_tuple_and_visibility
#guard run .p_struct "struct S(pub u8);" == some ⟨0, 17⟩
-- struct_empty
#guard run .p_struct "struct S;" == some ⟨0, 9⟩
-- struct_with_where_clause
#guard run .p_struct "struct S<A> where A: Foo { a: A }" == some ⟨0, 33⟩
-- struct_with_tuple_and_where_clause
#guard run .p_struct "struct S<A>(A) where A: Foo;" == some ⟨0, 28⟩
-- union_basic
#guard run .p_union "union U { field: TheType, other: OtherType }" == some ⟨0, 44⟩
-- union_is_still_an_ident
#guard run .p_union "union union { union: union }" == some ⟨0, 28⟩
-- union_with_generic_declarations
#guard run .p_union "union S<T> { field: Option<T> }" == some ⟨0, 31⟩
-- union_with_where_clause
#guard run .p_union "union S<A> where A: Foo { a: A }" == some ⟨0, 32⟩
-- union_public
#guard run .p_union "pub union S {}" == some ⟨0, 14⟩
-- union_public_field
#guard run .p_union "union S { pub age: u8 }" == some ⟨0, 23⟩
-- union_with_attributed_field
#guard run .p_union "union S { #[foo(bar)] #[baz(quux)] field: u8 }" == some ⟨0, 46⟩
-- where_clause_with_path
#guard run .where_clause_item "P: foo::bar::baz::Quux<'a>" == some ⟨0, 26⟩
-- where_clause_with_multiple_bounds
#guard run .where_clause_item "P: A + B" == some ⟨0, 8⟩
-- where_clause_with_multiple_types
#guard (run .where_clause "where P: A, Q: B").isSome
-- where_clause_with_lifetimes
#guard run .where_clause_item "'a: 'b + 'c" == some ⟨0, 11⟩
-- where_clause_with_higher_ranked_trait_bounds
#guard run .where_clause_item "for<'a> [u8; 4]: Send" == some ⟨0, 21⟩
-- ident_with_leading_underscore
#guard run .ident "_foo" == some ⟨0, 4⟩
-- ident_can_have_keyword_substring
#guard run .ident "form" == some ⟨0, 4⟩
-- lifetime_ident
#guard run .lifetime "'a" == some ⟨0, 2⟩
-- lifetime_static
#guard run .lifetime "'static" == some ⟨0, 7⟩
-- generic_declarations_
#guard run .generic_declarations "<A>" == some ⟨0, 3⟩
-- generic_declarations_allow_type_bounds
#guard run .generic_declarations "<A: Foo>" == some ⟨0, 8⟩
-- generic_declarations_with_default_types
#guard run .generic_declarations "<A = Bar>" == some ⟨0, 9⟩
-- generic_declarations_with_type_bounds_and_default_types
#guard run .generic_declarations "<A: Foo = Bar>" == some ⟨0, 14⟩
-- generic_declarations_allow_lifetime_bounds
#guard run .generic_declarations "<'a: 'b>" == some ⟨0, 8⟩
-- generic_declarations_allow_const_bounds
#guard run .generic_declarations "<const N: usize>" == some ⟨0, 16⟩
-- generic_declarations_with_attributes
#guard run .generic_declarations "<#[foo] 'a, #[bar] B>" == some ⟨0, 21⟩
-- generic_declarations_all_space
#guard run .generic_declarations "< 'a : 'b , A : Foo >" == some ⟨0, 21⟩
-- trait_bounds_with_lifetime
#guard run .trait_bounds "'a + 'b" == some ⟨0, 7⟩
-- trait_bounds_with_relaxed
#guard run .trait_bounds "?A + ?B" == some ⟨0, 7⟩
-- trait_bounds_with_associated_type_equality
#guard run .trait_bounds "A<B, C = D>" == some ⟨0, 11⟩
-- trait_bounds_with_associated_type_bounds
#guard run .trait_bounds "A<B, C: D>" == some ⟨0, 10⟩
-- visibility_self
#guard run .visibility "pub(self)" == some ⟨0, 9⟩
-- visibility_super
#guard run .visibility "pub(super)" == some ⟨0, 10⟩
-- visibility_crate
#guard run .visibility "pub(crate)" == some ⟨0, 10⟩
-- visibility_crate_shorthand
#guard run .visibility "crate" == some ⟨0, 5⟩
-- visibility_path
#guard run .visibility "pub(::foo::bar)" == some ⟨0, 15⟩
-- expression_atom_can_have_attributes
#guard run .expression "#[moo] 42" == some ⟨0, 9⟩
-- expression_operator_prefix_can_have_attributes
#guard run .expression "#[moo] *42" == some ⟨0, 10⟩
-- expr_true
#guard run .expression "true" == some ⟨0, 4⟩
-- expr_number_binary
#guard run .expression "0x0101" == some ⟨0, 6⟩
-- expr_number_decimal
#guard run .expression "123" == some ⟨0, 3⟩
-- expr_number_hexadecimal
#guard run .expression "0xDEADBEEF" == some ⟨0, 10⟩
-- expr_number_octal
#guard run .expression "0o777" == some ⟨0, 5⟩
-- expr_number_negative
#guard run .expression "-0x1" == some ⟨0, 4⟩
-- expr_number_with_spacers
#guard run .expression "1_000_000" == some ⟨0, 9⟩
-- expr_let_explicit_type
#guard run .expression "let foo: bool" == some ⟨0, 13⟩
-- expr_let_explicit_type_and_value_not_confused_with_greater_than_or_equal
#guard run .expression "let foo: Vec<u8>=vec![]" == some ⟨0, 23⟩
-- expr_let_explicit_type_and_value_not_confused_with_shift_right_assign
#guard run .expression "let foo: Vec<Vec<u8>>=vec![]" == some ⟨0, 28⟩
-- expr_let_mut
#guard run .expression "let mut pm = Master::new()" == some ⟨0, 26⟩
-- expr_let_no_value
#guard run .expression "let pm" == some ⟨0, 6⟩
-- expr_assign
#guard run .expression "a = b" == some ⟨0, 5⟩
-- expr_assign_to_field
#guard run .expression "a.b = c" == some ⟨0, 7⟩
-- expr_value_with_path
#guard run .expression "Master::new()" == some ⟨0, 13⟩
-- expr_field_access_name
#guard (run .expression "foo.bar").isSome
-- expr_field_access_number
#guard (run .expression "foo.0").isSome
-- expr_field_access_multiple
#guard (run .expression "foo.bar.baz").isSome
-- expr_call_function
#guard (run .expression "foo(a)").isSome
-- expr_call_method
#guard (run .expression "foo.bar(a)").isSome
-- expr_call_method_multiple
#guard (run .expression "foo.bar(a).baz(b)").isSome
-- expr_call_method_with_turbofish
#guard run .expression "foo.bar::<u8>()" == some ⟨0, 15⟩
-- expr_call_method_with_turbofish_nested
#guard run .expression "e.into_iter().collect::<BTreeSet<_>>()" == some ⟨0, 38⟩
-- expr_call_method_with_turbofish_on_type_and_method
#guard run .expression "Foo::<u8>::bar()" == some ⟨0, 16⟩
-- expr_call_of_expr
#guard run .expression "{foo}()" == some ⟨0, 7⟩
-- expr_for_loop
#guard run .expression "for (a, b) in c {}" == some ⟨0, 18⟩
-- expr_for_loop_with_label
#guard run .expression "'a: for (a, b) in c {}" == some ⟨0, 22⟩
-- expr_loop
#guard run .expression "loop {}" == some ⟨0, 7⟩
-- expr_loop_with_label
#guard run .expression "'a: loop {}" == some ⟨0, 11⟩
-- expr_match
#guard run .expression "match foo { _ => () }" == some ⟨0, 21⟩
-- expr_match_brace_with_no_comma_followed_by_tuple_is_not_a_function_call
#guard run .expression "match (1,) { (1,) => {} (_,) => {} }" == some ⟨0, 36⟩
-- expr_match_expr_trailing_comma_and_whitespace
#guard run .expression "match 1 { 1 => 2, _ => 3, }" == some ⟨0, 27⟩
-- expr_match_head_followed_by_block
#guard run .expression "match foo {}" == some ⟨0, 12⟩
-- expr_tuple
#guard run .expression "(1, 2)" == some ⟨0, 6⟩
-- expr_tuple_of_none
#guard run .expression "()" == some ⟨0, 2⟩
-- expr_tuple_of_one
#guard run .expression "(1,)" == some ⟨0, 4⟩
-- expr_parens
#guard run .expression "(a && b)" == some ⟨0, 8⟩
-- expr_parens_with_one_value_is_not_tuple
#guard run .expression "(1)" == some ⟨0, 3⟩
-- expr_block
#guard run .expression "{}" == some ⟨0, 2⟩
-- expr_unsafe_block
#guard run .expression "unsafe {}" == some ⟨0, 9⟩
-- expr_async_block
#guard run .expression "async {}" == some ⟨0, 8⟩
-- expr_async_move_block
#guard run .expression "async move {}" == some ⟨0, 13⟩
-- expr_if_
#guard run .expression "if a {}" == some ⟨0, 7⟩
-- expr_if_else
#guard run .expression "if a {} else {}" == some ⟨0, 15⟩
-- expr_if_else_if
#guard run .expression "if a {} else if b {}" == some ⟨0, 20⟩
-- expr_if_let
#guard run .expression "if let Some(a) = None {}" == some ⟨0, 24⟩
-- expr_while
#guard run .expression "while is_awesome() {}" == some ⟨0, 21⟩
-- expr_while_with_label
#guard run .expression "'a: while is_awesome() {}" == some ⟨0, 25⟩
-- expr_while_let
#guard run .expression "while let Some(a) = None {}" == some ⟨0, 27⟩
-- expr_while_let_with_label
#guard run .expression "'a: while let Some(a) = None {}" == some ⟨0, 31⟩
-- expr_binary_op
#guard run .expression "a < b" == some ⟨0, 5⟩
-- expr_binary_multiple
#guard run .expression "1 + 2 + 3" == some ⟨0, 9⟩
-- expr_binary_op_two_char
#guard run .expression "a >= b" == some ⟨0, 6⟩
-- expr_binary_op_equality
#guard run .expression "a == b != c" == some ⟨0, 11⟩
-- expr_binary_op_math
#guard run .expression "a + b - c / d % e" == some ⟨0, 17⟩
-- expr_binary_op_boolean_logic
#guard run .expression "a && b || c" == some ⟨0, 11⟩
-- expr_binary_op_shifting
#guard run .expression "a >> b << c" == some ⟨0, 11⟩
-- expr_binary_op_shift_assign
#guard run .expression "a >>= b <<= c" == some ⟨0, 13⟩
-- expr_binary_op_bitwise
#guard run .expression "a & b | c ^ d" == some ⟨0, 13⟩
-- expr_binary_op_bitwise_assign
#guard run .expression "a &= b |= c ^= d" == some ⟨0, 16⟩
-- expr_braced_true
#guard run .expression "{ true }" == some ⟨0, 8⟩
-- expr_macro_call_with_nested_parens
#guard run .expression "foo!(())" == some ⟨0, 8⟩
-- expr_macro_call_with_square_brackets
#guard run .expression "vec![]" == some ⟨0, 6⟩
-- expr_macro_call_with_curly_brackets
#guard run .expression "foo! { }" == some ⟨0, 8⟩
-- expr_macro_call_with_ident
#guard run .expression "macro_rules! foo { }" == some ⟨0, 20⟩
-- expr_macro_call_with_path
#guard run .expression "my_crate::my_macro!()" == some ⟨0, 21⟩
-- expr_range_both
#guard run .expression "1..2" == some ⟨0, 4⟩
-- expr_range_left
#guard run .expression "3.." == some ⟨0, 3⟩
-- expr_range_right
#guard run .expression "..4" == some ⟨0, 3⟩
-- expr_range_none
#guard run .expression ".." == some ⟨0, 2⟩
-- expr_range_after_infix
#guard run .expression "1 + 2.." == some ⟨0, 7⟩
-- expr_range_inclusive_both
#guard run .expression "1..=2" == some ⟨0, 5⟩
-- expr_range_inclusive_left
#guard run .expression "3..=" == some ⟨0, 4⟩
-- expr_range_inclusive_right
#guard run .expression "..=4" == some ⟨0, 4⟩
-- expr_range_inclusive_none
#guard run .expression "..=" == some ⟨0, 3⟩
-- expr_range_inclusive_legacy_both
#guard run .expression "1...2" == some ⟨0, 5⟩
-- expr_range_inclusive_legacy_left
#guard run .expression "3..." == some ⟨0, 4⟩
-- expr_range_inclusive_legacy_right
#guard run .expression "...4" == some ⟨0, 4⟩
-- expr_range_inclusive_legacy_none
#guard run .expression "..." == some ⟨0, 3⟩
-- expr_value_struct_literal
#guard run .expression "Point { a: 1 }" == some ⟨0, 14⟩
-- expr_value_struct_literal_shorthand
#guard run .expression "Point { a }" == some ⟨0, 11⟩
-- expr_value_struct_literal_with_splat
#guard run .expression "Point { x: 1, ..point }" == some ⟨0, 23⟩
-- expr_value_starts_with_keyword
#guard run .expression "continuez" == some ⟨0, 9⟩
-- expr_closure
#guard run .expression "|a| a" == some ⟨0, 5⟩
-- expr_closure_no_args
#guard run .expression "|| 42" == some ⟨0, 5⟩
-- expr_closure_multiple
#guard run .expression "|a, b| a + b" == some ⟨0, 12⟩
-- expr_closure_explicit_type
#guard run .expression "|a: u8| a" == some ⟨0, 9⟩
-- expr_closure_return_type
#guard run .expression "|a| -> u8 { a }" == some ⟨0, 15⟩
-- expr_closure_pattern
#guard run .expression "|&a| a" == some ⟨0, 6⟩
-- expr_closure_move
#guard run .expression "move || 42" == some ⟨0, 10⟩
-- expr_closure_async
#guard run .expression "async || 42" == some ⟨0, 11⟩
-- expr_return
#guard run .expression "return 1" == some ⟨0, 8⟩
-- expr_return_no_value
#guard run .expression "return" == some ⟨0, 6⟩
-- expr_continue
#guard run .expression "continue" == some ⟨0, 8⟩
-- expr_continue_with_label
#guard run .expression "continue 'outer" == some ⟨0, 15⟩
-- expr_break
#guard run .expression "break" == some ⟨0, 5⟩
-- expr_break_with_label
#guard run .expression "break 'outer" == some ⟨0, 12⟩
-- expr_break_with_value
#guard run .expression "break 42" == some ⟨0, 8⟩
-- expr_break_with_label_and_value
#guard run .expression "break 'outer 42" == some ⟨0, 15⟩
-- expr_array_explicit
#guard run .expression "[1, 1]" == some ⟨0, 6⟩
-- expr_array_repeated
#guard run .expression "[1; 2*3]" == some ⟨0, 8⟩
-- expr_char_literal
#guard run .expression "'a'" == some ⟨0, 3⟩
-- expr_char_literal_escape
#guard run .expression "'\\''" == some ⟨0, 4⟩
-- expr_slice_index
#guard run .expression "a[..2]" == some ⟨0, 6⟩
-- expr_reference
#guard run .expression "&foo" == some ⟨0, 4⟩
-- expr_reference_of_reference
#guard (run .expression "&&foo").isSome
-- expr_reference_mut
#guard run .expression "&mut foo" == some ⟨0, 8⟩
-- expr_dereference
#guard run .expression "*foo" == some ⟨0, 4⟩
-- expr_unary_not
#guard run .expression "!foo" == some ⟨0, 4⟩
-- expr_unary_negate
#guard run .expression "-foo" == some ⟨0, 4⟩
-- expr_as_type
#guard run .expression "42 as u8" == some ⟨0, 8⟩
-- expr_as_type_followed_by_addition
#guard run .expression "42 as u8 + 1" == some ⟨0, 12⟩
-- expr_as_type_followed_by_addition_of_variable
#guard run .expression "42 as u8 + a" == some ⟨0, 12⟩
-- expr_as_type_of_value
#guard run .expression "bits as u64" == some ⟨0, 11⟩
-- expr_type_ascription
#guard run .expression "42 : u8" == some ⟨0, 7⟩
-- expr_infix_with_left_hand_prefix_operator
#guard run .expression "*a + b" == some ⟨0, 6⟩
-- expr_infix_with_right_hand_prefix_operator
#guard run .expression "a + *b" == some ⟨0, 6⟩
-- expr_infix_with_left_and_right_hand_prefix_operator
#guard run .expression "*a + *b" == some ⟨0, 7⟩
-- expr_infix_with_left_hand_postfix_operator
#guard run .expression "a? + b" == some ⟨0, 6⟩
-- expr_infix_with_right_hand_postfix_operator
#guard run .expression "a + b?" == some ⟨0, 6⟩
-- expr_infix_with_left_and_right_hand_postfix_operator
#guard run .expression "a? + b?" == some ⟨0, 7⟩
-- expr_infix_with_left_hand_prefix_and_postfix_operator
#guard run .expression "*a? + b" == some ⟨0, 7⟩
-- expr_infix_with_right_hand_prefix_and_postfix_operator
#guard run .expression "a + *b?" == some ⟨0, 7⟩
-- expr_infix_with_left_and_right_hand_prefix_and_postfix_operator
#guard run .expression "*a? + *b?" == some ⟨0, 9⟩
-- expr_multiple_prefix_operator
#guard run .expression "&*a" == some ⟨0, 3⟩
-- expr_try_operator
#guard run .expression "foo?" == some ⟨0, 4⟩
-- expr_box
#guard run .expression "box foo" == some ⟨0, 7⟩
-- expr_byte
#guard run .expression "b'a'" == some ⟨0, 4⟩
-- expr_byte_escape
#guard run .expression "b'\\''" == some ⟨0, 5⟩
-- expr_disambiguation
#guard run .expression "<Foo as Bar>::quux" == some ⟨0, 18⟩
-- expr_disambiguation_without_disambiguation
#guard run .expression "<Foo>::quux" == some ⟨0, 11⟩
-- implicit_statement_followed_by_infix
#guard run .statement_expression "if a {} + c" == some ⟨0, 7⟩
-- implicit_statement_followed_by_infix_with_infix_inside
#guard run .statement_expression "for a in b + c {} + d" == some ⟨0, 17⟩
-- implicit_statement_followed_by_infix_with_braced_infix_inside
#guard run .statement_expression "if {a} < b {} &mut c" == some ⟨0, 13⟩
-- implicit_statement_in_infix
#guard run .statement_expression "a + loop {} + d" == some ⟨0, 15⟩
-- implicit_statement_with_prefix_followed_by_infix
#guard run .statement_expression "*match a { _ => b } = c" == some ⟨0, 23⟩
-- implicit_statement_followed_by_field_access
#guard run .statement_expression "{ a }.foo()" == some ⟨0, 11⟩
-- implicit_statement_followed_by_question_mark
#guard run .statement_expression "unsafe { a }?" == some ⟨0, 13⟩
-- implicit_statement_followed_by_tuple_is_not_call
#guard run .statement_expression "if let Some(a) = b {} (c, d)" == some ⟨0, 21⟩
-- match_arm_with_alternate
#guard run .match_arm "a | b => 1" == some ⟨0, 10⟩
-- match_arm_with_guard
#guard run .match_arm "a if a > 2 => 1" == some ⟨0, 15⟩
-- match_arm_with_attribute
#guard run .match_arm "#[cfg(cool)] _ => 1" == some ⟨0, 19⟩

end Verif.Conformance
