import Verif.Spec.Schema
import Verif.Proofs.Origin
/-!
# Types of grammar expressions
-/

namespace Verif

/-- What is known of a value of a grammar expression: a declared type, one of some variants of an enum, an empty list, a list of
nothing or two values, or the members of a parenthesis. -/
inductive STy
  | ty (t : Ty)
  | tags (ts : List Tag)
  | empty
  | pair (a b : Ty)
  | paren
deriving DecidableEq, Repr

/-- A value is of a type. -/
def STy.has : STy → V → Bool
  | .ty t, v => v.hasTy t
  | .tags ts, .enm g vs => decide (g ∈ ts) && hasTys vs g.payload
  | .empty, .list [] => true
  | .pair _ _, .list [] => true
  | .pair a b, .list [x, y] => x.hasTy a && y.hasTy b
  | .paren, .enm .Expression_Parenthetical [v] => v.hasTy (.node .AttributedExpression)
  | .paren, .enm .Expression_Tuple [.list vs] => allTy vs (.node .AttributedExpression)
  | _, _ => false

/-- Values are of types, one each. -/
def hasS : List V → List STy → Bool
  | [], [] => true
  | v :: vs, s :: ss => s.has v && hasS vs ss
  | _, _ => false

/-- Whatever is of the first type is of the second. -/
def STy.le : STy → STy → Bool
  | .tags ts, .ty (.enm n) => ts.all (·.en = n)
  | .tags ts, .tags us => ts.all (decide <| · ∈ us)
  | .empty, .ty (.vec _) => true
  | .empty, .ty (.opt _) => true
  | s, s' => decide (s = s')

/-- The declared type, if there is only one. -/
def STy.toTy : STy → Option Ty
  | .ty t => some t
  | .tags (t :: ts) => if ts.all (·.en = t.en) then some (.enm t.en) else none
  | _ => none

def leS : List STy → List STy → Bool
  | [], [] => true
  | s :: ss, t :: ts => s.le t && leS ss ts
  | _, _ => false

def STy.join : STy → STy → Option STy
  | .tags ts, .tags us => some (.tags (ts ++ us))
  | s, s' => if s.le s' then some s' else if s'.le s then some s else none

def joinS : List STy → List STy → Option (List STy)
  | [], [] => some []
  | s :: ss, t :: ts => do some ((← s.join t) :: (← joinS ss ts))
  | _, _ => none

def Fn.sty : Fn → List STy → Option (List STy)
  | .wrap t, ss => if leS ss (t.payload.map .ty) then Option.some [.tags [t]] else Option.none
  | .wrapSecond t, [w, b] => if leS [b] (t.payload.map .ty) then Option.some [w, .tags [t]] else Option.none
  | .flat, [.ty (.opt (.vec t))] => Option.some [.ty (.vec t)]
  | .some, [s] => s.toTy.map fun t => [.ty (.opt t)]
  | .none, _ => Option.some [.empty]
  | .swap, [a, b] => Option.some [b, a]
  | .isSome, [.ty (.opt _)] => Option.some [.ty .bool]
  | .append, [.ty (.opt t), .ty (.vec t')] => if t = t' then Option.some [.ty (.vec t)] else Option.none
  | .append, [.ty (.vec t), .ty (.vec t')] => if t = t' then Option.some [.ty (.vec t)] else Option.none
  | .externAbi, [.pair a (.opt t)] => Option.some [.ty (.opt a), .ty (.opt t)]
  | .ident, [.ty .ext] => Option.some [.ty (.node .Ident)]
  | .lifetime, [.ty .ext] => Option.some [.ty (.node .Lifetime)]
  | .character, [.ty .ext] => Option.some [.ty (.node .Character)]
  | .string, [.ty .ext] => Option.some [.ty (.node .String)]
  | .byte, [.ty .ext] => Option.some [.ty (.node .Byte)]
  | .byteString, [.ty .ext] => Option.some [.ty (.node .ByteString)]
  | .copyExtent k, [.ty (.node k')] => if k.fields.map (·.ty) = [.node k'] then Option.some [.ty (.node k)] else Option.none
  | .into, [.tags ts] =>
    if ts.all (fun t => t.en = .Expression && (match t.payload with | [.node k] => decide (k ∈ [.Block, .Parenthetical, .Tuple]) | _ => false)) then
      Option.some [.ty (.node .AttributedExpression)] else Option.none
  | .fieldValue, [.ty .ext, .ty (.node .Ident), .ty (.opt (.node .AttributedExpression))] =>
    Option.some [.ty (.node .Ident), .ty (.node .AttributedExpression)]
  | _, _ => Option.none

def Mk.sty : Mk → List STy → Option (List STy)
  | .node k, ss => if leS ss (k.fields.map (.ty ·.ty)) then some [.ty (.node k)] else none
  | .paren, [.paren] => some [.tags [.Expression_Parenthetical, .Expression_Tuple]]
  | .tupleBody, [f, w] =>
    if leS [f] (K.fields .StructDefinitionBodyTuple |>.map (.ty ·.ty)) then some [w, .ty (.node .StructDefinitionBodyTuple)]
    else none
  | .span, ss => some (.ty .ext :: ss)
  | _, _ => none

def TailK.sty : TailK → List STy → Option (List STy)
  | .values, [s] => s.toTy.map fun t => [.ty (.vec t)]
  | .block, [s] =>
    if s.le (.ty (.enm .Statement)) then some [.ty (.vec (.enm .Statement)), .ty (.opt (.node .AttributedExpression))] else none
  | .paren, [.ty (.node .AttributedExpression)] => some [.paren]
  | _, _ => none

def G.sty (d : NT → List STy) : G → Option (List STy)
  | .eps => some []
  | .tok _ => some [.ty .ext]
  | .number => some [.ty (.node .Number)]
  | .simpleNumber => some [.ty .ext]
  | .r n => some (d n)
  | .seq a b => do some ((← a.sty d) ++ (← b.sty d))
  | .alt a b => do joinS (← a.sty d) (← b.sty d)
  | .ifAmbiguous a b => do joinS (← a.sty d) (← b.sty d)
  | .opt a => do
    match ← a.sty d with
    | [s] => s.toTy.map fun t => [.ty (.opt t)]
    | [s, s'] => do some [.pair (← s.toTy) (← s'.toTy)]
    | _ => Option.none
  | .many a => do TailK.sty .values (← a.sty d)
  | .tailed k sep a => do let _ ← sep.sty d; TailK.sty k (← a.sty d)
  | .tailed1Values sep a => do let _ ← sep.sty d; TailK.sty .values (← a.sty d)
  | .resume sep a => do let _ ← sep.sty d; TailK.sty .values (← a.sty d)
  | .implTailed k _ sep a => do let _ ← sep.sty d; TailK.sty k (← a.sty d)
  | .nested _ _ => some [.ty .ext]
  | .ext _ => some [.ty .ext]
  | .drop _ => some []
  | .map f a => do f.sty (← a.sty d)
  | .build m a => do m.sty (← a.sty d)
  | .nodeEmpty k a => do Mk.sty (.node k) (← a.sty d)
  | .mapErr _ a => a.sty d
  | .peek a => a.sty d
  | .amb _ a => a.sty d
  | .notMaximum a => a.sty d

/-- The types of the values of the parser functions (the Rust return types, with the variants that occur). -/
def NT.sty : NT → List STy
  | .expression => [.ty (.node .AttributedExpression)]
  | .statement_expression => [.ty (.node .AttributedExpression)]
  | .item => [.tags [.Item_AttributeContaining, .Item_Const, .Item_ExternCrate, .Item_ExternBlock, .Item_Function,
      .Item_MacroCall, .Item_Module, .Item_Enum, .Item_Impl, .Item_Static, .Item_Struct, .Item_Trait, .Item_Union,
      .Item_Use, .Item_TypeAlias]]
  | .function => [.ty (.node .Function)]
  | .function_header => [.ty (.node .FunctionHeader)]
  | .function_qualifiers => [.ty (.node .FunctionQualifiers)]
  | .function_qualifier_extern => [.ty .ext, .ty (.opt (.node .String))]
  | .ident => [.ty (.node .Ident)]
  | .generic_declarations => [.ty (.node .GenericDeclarations)]
  | .generic_declaration_lifetime => [.ty (.node .GenericDeclarationLifetime)]
  | .generic_declaration_lifetime_bounds => [.ty (.vec (.node .Lifetime))]
  | .generic_declaration_type => [.ty (.node .GenericDeclarationType)]
  | .generic_declaration_type_bounds => [.ty (.node .TraitBounds)]
  | .generic_declaration_type_default => [.ty (.node .Type)]
  | .generic_declaration_const => [.ty (.node .GenericDeclarationConst)]
  | .function_arglist => [.ty (.vec (.enm .Argument))]
  | .self_argument => [.tags [.SelfArgument_Longhand, .SelfArgument_Shorthand]]
  | .self_argument_longhand => [.ty (.node .SelfArgumentLonghand)]
  | .self_argument_shorthand => [.ty (.node .SelfArgumentShorthand)]
  | .self_argument_qualifier => [.tags [.SelfArgumentShorthandQualifier_Reference,
      .SelfArgumentShorthandQualifier_Mut]]
  | .function_argument => [.tags [.Argument_Named]]
  | .function_return_type => [.ty (.node .Type)]
  | .where_clause => [.ty (.vec (.node .Where))]
  | .where_clause_item => [.ty (.node .Where)]
  | .where_clause_kind => [.tags [.WhereKind_Lifetime, .WhereKind_Type]]
  | .where_lifetime => [.ty (.node .WhereLifetime)]
  | .where_type => [.ty (.node .WhereType)]
  | .trait_bounds => [.ty (.node .TraitBounds)]
  | .trait_bound => [.tags [.TraitBound_Lifetime, .TraitBound_Normal, .TraitBound_Relaxed]]
  | .trait_bound_lifetime => [.ty (.node .TraitBoundLifetime)]
  | .trait_bound_normal => [.ty (.node .TraitBoundNormal)]
  | .trait_bound_normal_child => [.tags [.TraitBoundType_Named, .TraitBoundType_HigherRankedTraitBounds]]
  | .trait_bound_relaxed => [.ty (.node .TraitBoundRelaxed)]
  | .block => [.ty (.node .Block)]
  | .statement => [.tags [.Statement_Item, .Statement_Expression, .Statement_Empty]]
  | .statement_empty => [.ty .ext]
  | .item_macro_call => [.ty (.node .MacroCall)]
  | .item_macro_call_args => [.tags [.MacroCallArgs_Paren, .MacroCallArgs_Square, .MacroCallArgs_Curly]]
  | .item_macro_call_paren => [.ty .ext]
  | .item_macro_call_square => [.ty .ext]
  | .item_macro_call_curly => [.ty .ext]
  | .character_literal => [.ty (.node .Character)]
  | .string_literal => [.ty (.node .String)]
  | .number_literal => [.ty (.node .Number)]
  | .path => [.ty (.node .Path)]
  | .pathed_ident => [.ty (.node .PathedIdent)]
  | .path_component => [.ty (.node .PathComponent)]
  | .turbofish => [.ty (.node .Turbofish)]
  | .pattern => [.ty (.node .Pattern)]
  | .pattern_name => [.ty (.node .PatternName)]
  | .pattern_kind => [.tags [.PatternKind_RangeExclusive, .PatternKind_RangeInclusive, .PatternKind_Character,
      .PatternKind_Byte, .PatternKind_Number, .PatternKind_Reference, .PatternKind_ByteString, .PatternKind_String,
      .PatternKind_Struct, .PatternKind_Tuple, .PatternKind_Slice, .PatternKind_MacroCall, .PatternKind_Box,
      .PatternKind_Ident]]
  | .pattern_ident => [.ty (.node .PatternIdent)]
  | .pattern_tuple => [.ty (.node .PatternTuple)]
  | .pattern_tuple_member => [.tags [.PatternTupleMember_Pattern, .PatternTupleMember_Wildcard]]
  | .pattern_slice => [.ty (.node .PatternSlice)]
  | .pattern_slice_member => [.tags [.PatternSliceMember_Subslice, .PatternSliceMember_Pattern,
      .PatternSliceMember_Wildcard]]
  | .pattern_slice_subslice => [.ty (.node .PatternSliceSubslice)]
  | .pattern_struct => [.ty (.node .PatternStruct)]
  | .pattern_struct_field => [.tags [.PatternStructField_Long, .PatternStructField_Short]]
  | .pattern_struct_field_long => [.ty (.node .PatternStructFieldLong)]
  | .pattern_byte => [.ty (.node .PatternByte)]
  | .pattern_char => [.ty (.node .PatternCharacter)]
  | .pattern_byte_string => [.ty (.node .PatternByteString)]
  | .pattern_string => [.ty (.node .PatternString)]
  | .pattern_number => [.ty (.node .PatternNumber)]
  | .pattern_reference => [.ty (.node .PatternReference)]
  | .pattern_box => [.ty (.node .PatternBox)]
  | .pattern_range_exclusive => [.ty (.node .PatternRangeExclusive)]
  | .range_inclusive_operator => [.tags [.RangeInclusiveOperator_Legacy, .RangeInclusiveOperator_Recommended]]
  | .pattern_range_inclusive => [.ty (.node .PatternRangeInclusive)]
  | .pattern_range_component => [.tags [.PatternRangeComponent_Ident, .PatternRangeComponent_Character,
      .PatternRangeComponent_Byte, .PatternRangeComponent_Number]]
  | .pattern_macro_call => [.ty (.node .PatternMacroCall)]
  | .p_struct => [.ty (.node .Struct)]
  | .struct_defn_body => [.ty (.vec (.node .Where)), .tags [.StructDefinitionBody_Brace, .StructDefinitionBody_Tuple,
      .StructDefinitionBody_Empty]]
  | .struct_defn_body_brace => [.ty (.vec (.node .Where)), .ty (.node .StructDefinitionBodyBrace)]
  | .struct_defn_body_brace_only => [.ty (.node .StructDefinitionBodyBrace)]
  | .struct_defn_body_tuple => [.ty (.vec (.node .Where)), .ty (.node .StructDefinitionBodyTuple)]
  | .struct_defn_body_tuple_only => [.ty (.vec (.node .AttributedStructDefinitionFieldUnnamed))]
  | .tuple_defn_field => [.ty (.node .StructDefinitionFieldUnnamed)]
  | .struct_defn_field => [.ty (.node .StructDefinitionFieldNamed)]
  | .p_union => [.ty (.node .Union)]
  | .p_enum => [.ty (.node .Enum)]
  | .enum_variant => [.ty (.node .EnumVariant)]
  | .enum_variant_body => [.tags [.EnumVariantBody_Tuple, .EnumVariantBody_Struct, .EnumVariantBody_Unit]]
  | .enum_discriminant => [.ty (.node .AttributedExpression)]
  | .p_trait => [.ty (.node .Trait)]
  | .trait_impl_member => [.tags [.TraitMember_Function, .TraitMember_Type, .TraitMember_Const,
      .TraitMember_MacroCall]]
  | .trait_member_function => [.ty (.node .TraitMemberFunction)]
  | .trait_member_type => [.ty (.node .TraitMemberType)]
  | .trait_member_const => [.ty (.node .TraitMemberConst)]
  | .trait_member_const_value => [.ty (.node .AttributedExpression)]
  | .visibility => [.tags [.Visibility_Public, .Visibility_Crate]]
  | .visibility_public => [.ty (.node .VisibilityPublic)]
  | .visibility_public_qualifier => [.tags [.VisibilityPublicQualifier_SelfIdent, .VisibilityPublicQualifier_Crate,
      .VisibilityPublicQualifier_Path]]
  | .visibility_qualifier_kind => [.tags [.VisibilityPublicQualifier_SelfIdent, .VisibilityPublicQualifier_Crate,
      .VisibilityPublicQualifier_Path]]
  | .trait_impl_function_header => [.ty (.node .TraitImplFunctionHeader)]
  | .trait_impl_function_arglist => [.ty (.vec (.enm .TraitImplArgument))]
  | .trait_impl_function_argument => [.tags [.TraitImplArgument_Named]]
  | .trait_impl_function_argument_name => [.ty (.node .Pattern)]
  | .trait_impl_function_body => [.ty (.opt (.node .Block))]
  | .p_impl => [.ty (.node .Impl)]
  | .p_impl_kind => [.tags [.ImplKind_Trait, .ImplKind_Inherent]]
  | .p_impl_of_inherent => [.ty (.node .ImplOfInherent)]
  | .p_impl_of_trait => [.ty (.node .ImplOfTrait)]
  | .type_or_wildcard => [.tags [.ImplOfTraitType_Type, .ImplOfTraitType_Wildcard]]
  | .impl_member => [.tags [.ImplMember_Const, .ImplMember_Function, .ImplMember_Type, .ImplMember_MacroCall]]
  | .impl_function => [.ty (.node .ImplFunction)]
  | .impl_type => [.ty (.node .ImplType)]
  | .impl_const => [.ty (.node .ImplConst)]
  | .p_const => [.ty (.node .Const)]
  | .p_static => [.ty (.node .Static)]
  | .extern_crate => [.ty (.node .Crate)]
  | .extern_crate_rename => [.ty (.node .Ident)]
  | .extern_block => [.ty (.node .ExternBlock)]
  | .extern_block_member => [.tags [.ExternBlockMember_Static, .ExternBlockMember_Type, .ExternBlockMember_Function]]
  | .extern_block_static => [.ty (.node .ExternBlockMemberStatic)]
  | .extern_block_type => [.ty (.node .ExternBlockMemberType)]
  | .extern_block_member_function => [.ty (.node .ExternBlockMemberFunction)]
  | .extern_block_function_arglist => [.ty (.vec (.enm .ExternBlockMemberFunctionArgument))]
  | .extern_block_function_argument => [.tags [.ExternBlockMemberFunctionArgument_Named,
      .ExternBlockMemberFunctionArgument_Variadic]]
  | .extern_block_function_argument_named => [.ty (.node .ExternBlockMemberFunctionArgumentNamed)]
  | .extern_block_function_argument_variadic => [.ty (.node .ExternBlockMemberFunctionArgumentVariadic)]
  | .p_use => [.ty (.node .Use)]
  | .use_path => [.ty (.node .UsePath)]
  | .use_path_component => [.ty (.node .Ident)]
  | .path_member => [.ty (.node .Ident)]
  | .use_tail => [.tags [.UseTail_Ident, .UseTail_Glob, .UseTail_Multi]]
  | .use_tail_ident => [.ty (.node .UseTailIdent)]
  | .use_tail_ident_rename => [.ty (.node .Ident)]
  | .use_tail_glob => [.ty (.node .UseTailGlob)]
  | .use_tail_multi => [.ty (.node .UseTailMulti)]
  | .type_alias => [.ty (.node .TypeAlias)]
  | .«module» => [.ty (.node .Module)]
  | .module_body_or_not => [.ty (.opt (.vec (.node .AttributedItem)))]
  | .module_body => [.ty (.vec (.node .AttributedItem))]
  | .typ => [.ty (.node .Type)]
  | .typ_single => [.ty (.node .Type)]
  | .typ_kind => [.tags [.TypeKind_Array, .TypeKind_Disambiguation, .TypeKind_Function,
      .TypeKind_HigherRankedTraitBounds, .TypeKind_DynTrait, .TypeKind_ImplTrait, .TypeKind_Named, .TypeKind_Pointer,
      .TypeKind_Reference, .TypeKind_Slice, .TypeKind_Tuple, .TypeKind_Uninhabited]]
  | .typ_reference => [.ty (.node .TypeReference)]
  | .typ_reference_kind => [.ty (.node .TypeReferenceKind)]
  | .typ_pointer => [.ty (.node .TypePointer)]
  | .typ_pointer_kind => [.tags [.TypePointerKind_Const, .TypePointerKind_Mutable]]
  | .typ_tuple => [.ty (.node .TypeTuple)]
  | .typ_higher_ranked_trait_bounds => [.ty (.node .TypeHigherRankedTraitBounds)]
  | .higher_ranked_trait_bounds => [.ty (.vec (.node .Lifetime))]
  | .typ_higher_ranked_trait_bounds_child => [.tags [.TypeHigherRankedTraitBoundsChild_Named,
      .TypeHigherRankedTraitBoundsChild_Function, .TypeHigherRankedTraitBoundsChild_Reference]]
  | .typ_dyn_trait => [.ty (.node .TypeDynTrait)]
  | .typ_impl_trait => [.ty (.node .TypeImplTrait)]
  | .typ_additional => [.tags [.TypeAdditional_Named, .TypeAdditional_Lifetime]]
  | .typ_named => [.ty (.node .TypeNamed)]
  | .typ_named_component => [.ty (.node .TypeNamedComponent)]
  | .typ_disambiguation => [.ty (.node .TypeDisambiguation)]
  | .disambiguation_core => [.ty (.node .Type), .ty (.opt (.node .TypeNamed))]
  | .disambiguation_core_to_type => [.ty (.node .TypeNamed)]
  | .typ_array => [.ty (.node .TypeArray)]
  | .typ_slice => [.ty (.node .TypeSlice)]
  | .typ_generics => [.tags [.TypeGenerics_Function, .TypeGenerics_Angle]]
  | .typ_generics_fn => [.ty (.node .TypeGenericsFunction)]
  | .typ_generics_angle => [.ty (.node .TypeGenericsAngle)]
  | .typ_generics_angle_member => [.tags [.TypeGenericsAngleMember_AssociatedType, .TypeGenericsAngleMember_Lifetime,
      .TypeGenericsAngleMember_Type]]
  | .associated_type => [.ty (.node .AssociatedType)]
  | .associated_type_value => [.tags [.AssociatedTypeValue_Equal, .AssociatedTypeValue_Bound]]
  | .associated_type_value_equal => [.ty (.node .AssociatedTypeValueEqual)]
  | .associated_type_value_bound => [.ty (.node .AssociatedTypeValueBound)]
  | .typ_function => [.ty (.node .TypeFunction)]
  | .typ_function_argument => [.tags [.TypeFunctionArgument_Named]]
  | .typ_function_argument_name => [.ty (.node .Ident)]
  | .typ_function_argument_variadic => [.tags [.TypeFunctionArgument_Variadic]]
  | .lifetime => [.ty (.node .Lifetime)]
  | .attribute => [.tags [.Attribute_DocCommentLine, .Attribute_DocCommentBlock, .Attribute_Literal]]
  | .attribute_literal => [.ty (.node .AttributeLiteral)]
  | .attribute_containing => [.tags [.AttributeContaining_DocCommentLine, .AttributeContaining_DocCommentBlock,
      .AttributeContaining_Literal]]
  | .attribute_containing_literal => [.ty (.node .AttributeContainingLiteral)]
  | .operator_prefix_reference => [.ty (.opt .ext)]
  | .operator_postfix_as_type => [.ty (.node .Type)]
  | .operator_postfix_ascription => [.ty (.node .Type)]
  | .operator_postfix_call => [.ty (.vec (.node .AttributedExpression))]
  | .operator_postfix_field_access => [.tags [.FieldName_Path, .FieldName_Number]]
  | .field_name => [.tags [.FieldName_Path, .FieldName_Number]]
  | .field_name_number => [.ty .ext]
  | .operator_postfix_slice => [.ty (.node .AttributedExpression)]
  | .expression_atom => [.tags [.Expression_If, .Expression_IfLet, .Expression_ForLoop, .Expression_Loop,
      .Expression_While, .Expression_WhileLet, .Expression_Match, .Expression_UnsafeBlock, .Expression_AsyncBlock,
      .Expression_Block, .Expression_MacroCall, .Expression_Let, .Expression_Parenthetical, .Expression_Tuple,
      .Expression_Array, .Expression_Character, .Expression_String, .Expression_Closure, .Expression_Return,
      .Expression_Continue, .Expression_Break, .Expression_Number, .Expression_Byte, .Expression_ByteString,
      .Expression_Disambiguation, .Expression_Value]]
  | .expr_macro_call => [.ty (.node .MacroCall)]
  | .expr_macro_call_args => [.tags [.MacroCallArgs_Paren, .MacroCallArgs_Square, .MacroCallArgs_Curly]]
  | .expr_macro_call_paren => [.ty .ext]
  | .expr_macro_call_square => [.ty .ext]
  | .expr_macro_call_curly => [.ty .ext]
  | .expr_let => [.ty (.node .Let)]
  | .expr_let_type => [.ty (.node .Type)]
  | .expr_let_rhs => [.ty (.node .AttributedExpression)]
  | .expr_if => [.ty (.node .If)]
  | .expr_if_else_if => [.ty (.node .If)]
  | .expr_if_else_end => [.ty (.node .Block)]
  | .expr_followed_by_block => [.ty (.node .AttributedExpression), .ty (.node .Block)]
  | .expr_for_loop => [.ty (.node .ForLoop)]
  | .loop_label => [.ty (.node .Lifetime)]
  | .expr_loop => [.ty (.node .Loop)]
  | .expr_if_let => [.ty (.node .IfLet)]
  | .expr_while => [.ty (.node .While)]
  | .expr_while_let => [.ty (.node .WhileLet)]
  | .expr_match => [.ty (.node .Match)]
  | .match_arm => [.ty (.node .MatchArm)]
  | .match_arm_guard => [.ty (.node .AttributedExpression)]
  | .match_arm_hand => [.tags [.MatchHand_Brace, .MatchHand_Expression]]
  | .expr_tuple_or_parenthetical => [.tags [.Expression_Parenthetical, .Expression_Tuple]]
  | .expr_array => [.tags [.Array_Explicit, .Array_Repeated]]
  | .expr_array_explicit => [.ty (.node .ArrayExplicit)]
  | .expr_array_repeated => [.ty (.node .ArrayRepeated)]
  | .expr_byte => [.ty (.node .Byte)]
  | .expr_byte_string => [.ty (.node .ByteString)]
  | .expr_closure => [.ty (.node .Closure)]
  | .expr_closure_arg => [.ty (.node .ClosureArg)]
  | .expr_closure_arg_type => [.ty (.node .Type)]
  | .expr_closure_return => [.ty (.opt (.node .Type)), .ty (.node .AttributedExpression)]
  | .expr_closure_return_explicit => [.ty (.opt (.node .Type)), .ty (.node .AttributedExpression)]
  | .expr_closure_return_body => [.tags [.Expression_Parenthetical, .Expression_Tuple, .Expression_Block]]
  | .expr_closure_return_inferred => [.empty, .ty (.node .AttributedExpression)]
  | .expr_return => [.ty (.node .Return)]
  | .expr_continue => [.ty (.node .Continue)]
  | .expr_break => [.ty (.node .Break)]
  | .expr_block => [.ty (.node .Block)]
  | .expr_unsafe_block => [.ty (.node .UnsafeBlock)]
  | .expr_async_block => [.ty (.node .AsyncBlock)]
  | .expr_value => [.ty (.node .Value)]
  | .expr_value_struct_literal => [.ty (.node .StructLiteral)]
  | .expr_value_struct_literal_field => [.ty (.node .StructLiteralField)]
  | .expr_value_struct_literal_field_value => [.ty (.node .AttributedExpression)]
  | .expr_value_struct_literal_splat => [.ty (.node .AttributedExpression)]
  | .expr_disambiguation => [.ty (.node .Disambiguation)]

/-- The rules are well typed. -/
theorem rules_sty (nt : NT) (g : G) (h : rules nt = .g g) : ∃ ss, g.sty NT.sty = some ss ∧ leS ss nt.sty = true := by
  have h1 : NT.all.all (fun nt => match rules nt with
      | .g g => (match g.sty NT.sty with | some ss => leS ss nt.sty | none => false)
      | .expr _ => true) = true := by decide +kernel
  have h2 := List.all_eq_true.mp h1 nt (NT.mem_all nt)
  rw [h] at h2
  dsimp only at h2
  split at h2
  · next ss hs => exact ⟨ss, hs, h2⟩
  · cases h2

/-! ## Soundness -/

theorem hasS_append {vs ws : List V} {ss ts : List STy} (h : hasS vs ss = true) (h' : hasS ws ts = true) :
    hasS (vs ++ ws) (ss ++ ts) = true := by
  induction vs generalizing ss with
  | nil => cases ss <;> simp_all [hasS]
  | cons v vs ih =>
    cases ss with
    | nil => simp [hasS] at h
    | cons s ss =>
      simp only [hasS, Bool.and_eq_true] at h
      simp only [List.cons_append, hasS, h.1, ih h.2, Bool.and_true]

theorem hasS_one {vs : List V} {s : STy} (h : hasS vs [s] = true) : ∃ v, vs = [v] ∧ s.has v = true := by
  match vs, h with
  | [v], h => exact ⟨v, rfl, by simpa [hasS] using h⟩
  | [], h => simp [hasS] at h
  | _ :: _ :: _, h => simp [hasS] at h

theorem hasS_two {vs : List V} {s t : STy} (h : hasS vs [s, t] = true) :
    ∃ v w, vs = [v, w] ∧ s.has v = true ∧ t.has w = true := by
  match vs, h with
  | [v, w], h => exact ⟨v, w, rfl, by simpa [hasS] using h⟩
  | [], h => simp [hasS] at h
  | [_], h => simp [hasS] at h
  | _ :: _ :: _ :: _, h => simp [hasS] at h

theorem hasTy_enm {v : V} {n : En} (h : v.hasTy (.enm n) = true) :
    ∃ g vs, v = .enm g vs ∧ g.en = n ∧ hasTys vs g.payload = true := by
  cases v <;> simp [V.hasTy] at h
  exact ⟨_, _, rfl, h⟩

theorem hasTy_node {v : V} {k : K} (h : v.hasTy (.node k) = true) :
    ∃ e ws vs, v = .node k e ws vs ∧ hasTys vs (k.fields.map (·.ty)) = true := by
  cases v <;> simp [V.hasTy] at h
  obtain ⟨rfl, h⟩ := h
  exact ⟨_, _, _, rfl, h⟩

theorem hasTy_ext {v : V} (h : v.hasTy .ext = true) : ∃ e, v = .ext e := by
  cases v <;> simp [V.hasTy] at h
  exact ⟨_, rfl⟩

theorem hasTy_vec {v : V} {t : Ty} (h : v.hasTy (.vec t) = true) : ∃ vs, v = .list vs ∧ allTy vs t = true := by
  cases v <;> simp [V.hasTy] at h
  exact ⟨_, rfl, h⟩

theorem hasTy_opt {v : V} {t : Ty} (h : v.hasTy (.opt t) = true) :
    v = .list [] ∨ ∃ x, v = .list [x] ∧ x.hasTy t = true := by
  cases v <;> simp [V.hasTy] at h
  rename_i vs
  match vs, h with
  | [], _ => exact .inl rfl
  | [x], h => exact .inr ⟨x, rfl, by simpa [allTy] using h⟩
  | _ :: _ :: _, h => simp at h

theorem allTy_append {vs ws : List V} {t : Ty} (h : allTy vs t = true) (h' : allTy ws t = true) :
    allTy (vs ++ ws) t = true := by
  induction vs with
  | nil => exact h'
  | cons v vs ih =>
    simp only [allTy, Bool.and_eq_true] at h
    simp only [List.cons_append, allTy, h.1, ih h.2, Bool.and_true]

theorem allTy_mem {vs : List V} {t : Ty} : allTy vs t = true ↔ ∀ v ∈ vs, v.hasTy t = true := by
  induction vs with
  | nil => simp [allTy]
  | cons v vs ih => simp [allTy, ih]

theorem STy.has_tags {ts : List Tag} {v : V} (h : (STy.tags ts).has v = true) :
    ∃ g vs, v = .enm g vs ∧ g ∈ ts ∧ hasTys vs g.payload = true := by
  cases v <;> simp [STy.has] at h
  exact ⟨_, _, rfl, h⟩

theorem STy.le_sound {s t : STy} (h : s.le t = true) {v : V} (hv : s.has v = true) : t.has v = true := by
  unfold STy.le at h
  split at h
  · obtain ⟨g, vs, rfl, hg, hp⟩ := has_tags hv
    have := List.all_eq_true.mp h g hg
    simp [STy.has, V.hasTy, hp] at this ⊢
    exact this
  · obtain ⟨g, vs, rfl, hg, hp⟩ := has_tags hv
    have := List.all_eq_true.mp h g hg
    simp [STy.has, hp] at this ⊢
    exact this
  · unfold STy.has at hv; split at hv <;> simp_all [STy.has, V.hasTy, allTy]
  · unfold STy.has at hv; split at hv <;> simp_all [STy.has, V.hasTy, allTy]
  · have := of_decide_eq_true h; subst this; exact hv

theorem leS_sound {ss ts : List STy} (h : leS ss ts = true) {vs : List V} (hv : hasS vs ss = true) : hasS vs ts = true := by
  induction ss generalizing ts vs with
  | nil => cases ts <;> cases vs <;> simp_all [leS, hasS]
  | cons s ss ih =>
    cases ts <;> cases vs <;> simp [leS, hasS] at h hv ⊢
    exact ⟨STy.le_sound h.1 hv.1, ih h.2 hv.2⟩

theorem hasS_ty {vs : List V} {ts : List Ty} : hasS vs (ts.map .ty) = hasTys vs ts := by
  induction vs generalizing ts with
  | nil => cases ts <;> simp [hasS, hasTys]
  | cons v vs ih => cases ts <;> simp [hasS, hasTys, STy.has, ih]

theorem STy.toTy_sound {s : STy} {t : Ty} (h : s.toTy = some t) {v : V} (hv : s.has v = true) : v.hasTy t = true := by
  unfold STy.toTy at h
  split at h
  · cases h; exact hv
  · next g gs =>
    split at h
    · next hall =>
      cases h
      obtain ⟨g', vs, rfl, hg, hp⟩ := has_tags hv
      simp [V.hasTy, hp]
      rcases List.mem_cons.mp hg with rfl | hg
      · rfl
      · simpa using List.all_eq_true.mp hall g' hg
    · cases h
  · cases h

theorem STy.join_sound {s t u : STy} (h : s.join t = some u) {v : V} (hv : s.has v = true ∨ t.has v = true) :
    u.has v = true := by
  unfold STy.join at h
  split at h
  · cases h
    rcases hv with hv | hv
    · obtain ⟨g, vs, rfl, hg, hp⟩ := has_tags hv; simp [STy.has, hg, hp]
    · obtain ⟨g, vs, rfl, hg, hp⟩ := has_tags hv; simp [STy.has, hg, hp]
  · split at h
    · next hle => cases h; exact hv.elim (le_sound hle) id
    · split at h
      · next hle => cases h; exact hv.elim id (le_sound hle)
      · cases h

theorem joinS_sound {ss ts us : List STy} (h : joinS ss ts = some us) {vs : List V}
    (hv : hasS vs ss = true ∨ hasS vs ts = true) : hasS vs us = true := by
  induction ss generalizing ts us vs with
  | nil =>
    cases ts <;> simp [joinS] at h
    subst h; simpa using hv
  | cons s ss ih =>
    cases ts with
    | nil => simp [joinS] at h
    | cons t ts =>
      simp only [joinS, bind, Option.bind_eq_some_iff] at h
      obtain ⟨u, hu, us', hus, h⟩ := h
      cases h
      cases vs with
      | nil => simp [hasS] at hv
      | cons v vs =>
        simp only [hasS, Bool.and_eq_true] at hv ⊢
        exact ⟨STy.join_sound hu (hv.imp And.left And.left), ih hus (hv.imp And.right And.right)⟩

theorem hasS_three {vs : List V} {s t u : STy} (h : hasS vs [s, t, u] = true) :
    ∃ v w x, vs = [v, w, x] ∧ s.has v = true ∧ t.has w = true ∧ u.has x = true := by
  match vs, h with
  | [v, w, x], h => exact ⟨v, w, x, rfl, by simpa [hasS] using h⟩
  | [], h => simp [hasS] at h
  | [_], h => simp [hasS] at h
  | [_, _], h => simp [hasS] at h
  | _ :: _ :: _ :: _ :: _, h => simp [hasS] at h

theorem hasTy_pair {v : V} {a b : Ty} (h : (STy.pair a b).has v = true) :
    v = .list [] ∨ ∃ x y, v = .list [x, y] ∧ x.hasTy a = true ∧ y.hasTy b = true := by
  unfold STy.has at h
  split at h <;> simp_all
  exact ⟨_, _, ⟨rfl, rfl⟩, h⟩

theorem STy.has_ty {t : Ty} {v : V} : (STy.ty t).has v = v.hasTy t := by unfold STy.has; rfl
theorem STy.has_tag {ts : List Tag} {g : Tag} {vs : List V} :
    (STy.tags ts).has (.enm g vs) = (decide (g ∈ ts) && hasTys vs g.payload) := by unfold STy.has; rfl

theorem Fn.sty_sound {f : Fn} {ss ts : List STy} (h : f.sty ss = Option.some ts) {vs : List V} (hv : hasS vs ss = true) :
    hasS (f.app vs) ts = true := by
  unfold Fn.sty at h
  split at h
  · split at h
    · next hle =>
      cases h
      have := leS_sound hle hv
      rw [hasS_ty] at this
      simp [Fn.app, hasS, STy.has, this]
    · cases h
  · obtain ⟨v, w, rfl, h1, h2⟩ := hasS_two hv
    split at h
    · next hle =>
      cases h
      have := leS_sound hle (vs := [w]) (by simp [hasS, h2])
      rw [hasS_ty] at this
      simp [Fn.app, hasS, STy.has_tag, this, h1]
    · cases h
  · cases h
    obtain ⟨v, rfl, h1⟩ := hasS_one hv
    rcases hasTy_opt h1 with rfl | ⟨x, rfl, hx⟩
    · simp [Fn.app, hasS, STy.has, V.hasTy, allTy]
    · obtain ⟨ws, rfl, hw⟩ := hasTy_vec hx
      simp [Fn.app, hasS, STy.has, V.hasTy, hw]
  · obtain ⟨v, rfl, h1⟩ := hasS_one hv
    simp only [Option.map_eq_some_iff] at h
    obtain ⟨t, ht, rfl⟩ := h
    simp [Fn.app, hasS, STy.has, V.hasTy, allTy, STy.toTy_sound ht h1]
  · cases h; simp [Fn.app, hasS, STy.has]
  · cases h
    obtain ⟨v, w, rfl, h1, h2⟩ := hasS_two hv
    simp [Fn.app, hasS, h1, h2]
  · cases h
    obtain ⟨v, rfl, h1⟩ := hasS_one hv
    rcases hasTy_opt h1 with rfl | ⟨x, rfl, -⟩ <;> simp [Fn.app, hasS, STy.has, V.hasTy]
  · obtain ⟨v, w, rfl, h1, h2⟩ := hasS_two hv
    split at h
    · next t t' ht =>
      subst ht; cases h
      obtain ⟨ws, rfl, hw⟩ := hasTy_vec h2
      rcases hasTy_opt h1 with rfl | ⟨x, rfl, hx⟩ <;> simp [Fn.app, hasS, STy.has, V.hasTy, allTy, *]
    · cases h
  · obtain ⟨v, w, rfl, h1, h2⟩ := hasS_two hv
    split at h
    · next t t' ht =>
      subst ht; cases h
      obtain ⟨ws, rfl, hw⟩ := hasTy_vec h2
      obtain ⟨xs, rfl, hx⟩ := hasTy_vec h1
      simp [Fn.app, hasS, STy.has, V.hasTy, allTy_append hx hw]
    · cases h
  · cases h
    obtain ⟨v, rfl, h1⟩ := hasS_one hv
    rcases hasTy_pair h1 with rfl | ⟨x, y, rfl, hx, hy⟩ <;> simp [Fn.app, hasS, STy.has, V.hasTy, allTy, *]
  iterate 6
    · cases h
      obtain ⟨v, rfl, h1⟩ := hasS_one hv
      obtain ⟨e, rfl⟩ := hasTy_ext h1
      simp [Fn.app, hasS, STy.has, V.hasTy, mkIdent, hasTys, K.fields]
  · obtain ⟨v, rfl, h1⟩ := hasS_one hv
    split at h
    · next hk =>
      cases h
      obtain ⟨e, ws, fs, rfl, hf⟩ := hasTy_node h1
      simp only [STy.has] at h1
      simp [Fn.app, hasS, STy.has, V.extent?, V.hasTy, hk, hasTys, hf]
    · cases h
  · obtain ⟨v, rfl, h1⟩ := hasS_one hv
    split at h
    · next hk =>
      cases h
      obtain ⟨g, vs, rfl, hg, hp⟩ := STy.has_tags h1
      have := List.all_eq_true.mp hk g hg
      simp only [Bool.and_eq_true, decide_eq_true_eq] at this
      obtain ⟨hen, hpay⟩ := this
      split at hpay
      · next k hp' =>
        rw [hp', ← hasS_ty] at hp
        obtain ⟨v, rfl, hv'⟩ := hasS_one hp
        obtain ⟨e, ws, fs, rfl, hf⟩ := hasTy_node hv'
        simp [Fn.app, V.extent?, intoExpr, mkAttributed, hasS, STy.has, V.hasTy, hasTys, allTy, K.fields, hen, hp', ↓hf]
      · cases hpay
    · cases h
  · cases h
    obtain ⟨v, w, x, rfl, h1, h2, h3⟩ := hasS_three hv
    obtain ⟨e, rfl⟩ := hasTy_ext h1
    rcases hasTy_opt h3 with rfl | ⟨y, rfl, hy⟩
    · obtain ⟨e', ws, fs, rfl, hf⟩ := hasTy_node h2
      simp only [STy.has, V.hasTy] at h2
      have hf' : hasTys fs [] = true := hf
      simp [Fn.app, hasS, STy.has, V.hasTy, hasTys, allTy, K.fields, intoExpr, mkAttributed, mkPathedIdent, Tag.en, Tag.payload,
        hf']
    · have h2' : w.hasTy (.node .Ident) = true := h2
      simp [Fn.app, hasS, STy.has, hy, h2']
  · cases h

theorem Mk.sty_sound {m : Mk} {ss ts : List STy} (h : m.sty ss = some ts) {vs : List V} (hv : hasS vs ss = true)
    (e : Extent) : hasS (m.app e vs) ts = true := by
  unfold Mk.sty at h
  split at h
  · split at h
    · next k hle =>
      cases h
      have := leS_sound hle hv
      have hm : (k.fields.map fun x => STy.ty x.ty) = (k.fields.map (·.ty)).map .ty := by simp
      rw [hm, hasS_ty] at this
      simp [Mk.app, hasS, STy.has, V.hasTy, this]
    · cases h
  · cases h
    obtain ⟨v, rfl, h1⟩ := hasS_one hv
    unfold STy.has at h1
    split at h1 <;> simp_all [Mk.app, hasS, STy.has, V.hasTy, hasTys, K.fields, Tag.payload]
  · obtain ⟨v, w, rfl, h1, h2⟩ := hasS_two hv
    split at h
    · next hle =>
      cases h
      have := leS_sound hle (vs := [v]) (by simp [hasS, h1])
      simp [K.fields, hasS, STy.has] at this
      simp [Mk.app, hasS, STy.has_ty, V.hasTy, hasTys, K.fields, h2, this]
    · cases h
  · cases h
    simp [Mk.app, hasS, STy.has, V.hasTy, hv]
  · cases h

theorem flatten_has {vss : List (List V)} {s : STy} (h : ∀ v ∈ vss, hasS v [s] = true) : ∀ v ∈ vss.flatten, s.has v = true := by
  intro v hv
  obtain ⟨vs, hvs, hv⟩ := List.mem_flatten.mp hv
  obtain ⟨w, rfl, hw⟩ := hasS_one (h vs hvs)
  simp at hv; subst hv; exact hw

theorem TailK.sty_sound {k : TailK} {ss ts : List STy} (h : k.sty ss = some ts) {t : P.Tailed (List V)}
    (hv : ∀ v ∈ t.values, hasS v ss = true) : hasS (k.out t) ts = true := by
  unfold TailK.sty at h
  split at h
  · have hv := flatten_has hv
    simp only [Option.map_eq_some_iff] at h
    obtain ⟨t, ht, rfl⟩ := h
    simp only [TailK.out, hasS, STy.has, V.hasTy, Bool.and_true]
    exact allTy_mem.mpr fun v h => STy.toTy_sound ht (hv v h)
  · have hv := flatten_has hv
    split at h
    · next hle =>
      cases h
      have hv : ∀ v ∈ t.values.flatten, v.hasTy (.enm .Statement) = true := fun v h => STy.le_sound hle (hv v h)
      have hall : allTy t.values.flatten (.enm .Statement) = true := allTy_mem.mpr hv
      unfold TailK.out
      dsimp only
      split
      · next e he =>
        split
        · simp [hasS, STy.has, V.hasTy, hall, allTy]
        · cases hl : t.values.flatten.getLast? with
          | none => rw [hl] at he; cases he
          | some w =>
            rw [hl] at he
            have hw := hv w (List.mem_of_getLast? hl)
            have hd : allTy t.values.flatten.dropLast (.enm .Statement) = true :=
              allTy_mem.mpr fun v h => hv v (List.dropLast_subset _ h)
            simp only [Option.bind_some] at he
            unfold intoExpression at he
            split at he <;> cases he
            simp [V.hasTy, hasTys, Tag.payload] at hw
            simp [hasS, STy.has, V.hasTy, allTy, hd, hw.2]
      · simp [hasS, STy.has, V.hasTy, hall, allTy]
    · cases h
  · cases h
    have hv' := flatten_has hv
    have hall : allTy t.values.flatten (.node .AttributedExpression) = true := allTy_mem.mpr hv'
    unfold TailK.out
    dsimp only
    split
    · next hl =>
      obtain ⟨hl, -⟩ := hl
      match hvs : t.values, hl with
      | [v], _ =>
        rw [hvs] at hv
        obtain ⟨w, rfl, hw⟩ := hasS_one (hv v (by simp))
        simp only [STy.has] at hw
        simp [hasS, STy.has, hw]
    · simp [hasS, STy.has, hall]
  · cases h

theorem convertNumber_hasTy (n : Number) : (convertNumber n).hasTy (.node .Number) = true := by
  have h : ∀ o, (optExt o).hasTy (.opt .ext) = true := by
    intro o; cases o <;> simp [optExt, V.hasTy, allTy]
  unfold convertNumber
  cases n.base <;> simp [V.hasTy, hasTys, K.fields, Tag.en, Tag.payload, allTy, h]

section
variable {toks : List Token} {Φ : NT → Rel} (hΦ : ∀ nt am p q vs, Φ nt am p q vs → hasS vs nt.sty = true)
include hΦ

theorem den_sty (g : G) : ∀ ss, g.sty NT.sty = some ss → ∀ a p q vs, den toks Φ g a p q vs → hasS vs ss = true := by
  induction g with
  | eps => rintro ss ⟨⟩ a p q vs ⟨-, -, rfl⟩; rfl
  | tok k => rintro ss ⟨⟩ a p q vs ⟨-, e, -, rfl⟩; rfl
  | simpleNumber => rintro ss ⟨⟩ a p q vs ⟨-, n, e, -, -, rfl⟩; rfl
  | number =>
    rintro ss ⟨⟩ a p q vs ⟨-, n, -, rfl⟩
    simp [hasS, STy.has, convertNumber_hasTy]
  | nested o c => rintro ss ⟨⟩ a p q vs ⟨m, e0, e, -, -, -, -, -, rfl⟩; rfl
  | r n => rintro ss ⟨⟩ a p q vs ⟨-, h⟩; exact hΦ _ _ _ _ _ h
  | seq x y ihx ihy =>
    intro ss hs
    simp only [G.sty, bind, Option.bind_eq_some_iff] at hs
    obtain ⟨s, hs, t, ht, h⟩ := hs
    cases h
    rintro a p q vs ⟨m, v, w, hx, hy, rfl⟩
    exact hasS_append (ihx _ hs _ _ _ _ hx) (ihy _ ht _ _ _ _ hy)
  | alt x y ihx ihy =>
    intro ss hs
    simp only [G.sty, bind, Option.bind_eq_some_iff] at hs
    obtain ⟨s, hs, t, ht, hj⟩ := hs
    intro a p q vs h
    exact joinS_sound hj (h.imp (ihx _ hs _ _ _ _) (ihy _ ht _ _ _ _))
  | ifAmbiguous x y ihx ihy =>
    intro ss hs
    simp only [G.sty, bind, Option.bind_eq_some_iff] at hs
    obtain ⟨s, hs, t, ht, hj⟩ := hs
    intro a p q vs h
    simp only [den] at h
    split at h
    · exact joinS_sound hj (.inl (ihx _ hs _ _ _ _ h))
    · exact joinS_sound hj (.inr (ihy _ ht _ _ _ _ h))
  | opt x ih =>
    intro ss hs
    simp only [G.sty, bind, Option.bind_eq_some_iff] at hs
    obtain ⟨s, hs, hj⟩ := hs
    intro a p q vs h
    split at hj
    · simp only [Option.map_eq_some_iff] at hj
      obtain ⟨t, ht, rfl⟩ := hj
      rcases h with ⟨v, h, rfl⟩ | ⟨-, -, rfl⟩
      · obtain ⟨w, rfl, hw⟩ := hasS_one (ih _ hs _ _ _ _ h)
        simp [hasS, STy.has, V.hasTy, allTy, STy.toTy_sound ht hw]
      · simp [hasS, STy.has, V.hasTy, allTy]
    · simp only [Option.bind_eq_some_iff] at hj
      obtain ⟨t, ht, t', ht', h'⟩ := hj
      cases h'
      rcases h with ⟨v, h, rfl⟩ | ⟨-, -, rfl⟩
      · obtain ⟨w, w', rfl, hw, hw'⟩ := hasS_two (ih _ hs _ _ _ _ h)
        simp [hasS, STy.has, STy.toTy_sound ht hw, STy.toTy_sound ht' hw']
      · simp [hasS, STy.has]
    · cases hj
  | many x ih =>
    intro ss hs
    simp only [G.sty, bind, Option.bind_eq_some_iff] at hs
    obtain ⟨s, hs, hj⟩ := hs
    rintro a p q vs ⟨vss, h, rfl⟩
    exact TailK.sty_sound hj (t := ⟨vss, 0, false⟩) (h.all (fun _ _ _ h => ih _ hs _ _ _ _ h))
  | tailed k sp x ihs ih =>
    intro ss hs
    simp only [G.sty, bind, Option.bind_eq_some_iff] at hs
    obtain ⟨-, -, s, hs, hj⟩ := hs
    rintro a p q vs ⟨t, h, rfl⟩
    exact TailK.sty_sound hj (h.all (fun _ _ _ h => ih _ hs _ _ _ _ h) (by simp))
  | implTailed k i sp x ihs ih =>
    intro ss hs
    simp only [G.sty, bind, Option.bind_eq_some_iff] at hs
    obtain ⟨-, -, s, hs, hj⟩ := hs
    rintro a p q vs ⟨t, h, rfl⟩
    exact TailK.sty_sound hj (h.all (fun _ _ _ h => ih _ hs _ _ _ _ h) (by simp))
  | tailed1Values sp x ihs ih =>
    intro ss hs
    simp only [G.sty, bind, Option.bind_eq_some_iff] at hs
    obtain ⟨-, -, s, hs, hj⟩ := hs
    rintro a p q vs ⟨t, h, rfl⟩
    exact TailK.sty_sound hj (h.all (fun _ _ _ h => ih _ hs _ _ _ _ h))
  | resume sp x ihs ih =>
    intro ss hs
    simp only [G.sty, bind, Option.bind_eq_some_iff] at hs
    obtain ⟨-, -, s, hs, hj⟩ := hs
    rintro a p q vs (⟨-, rfl⟩ | ⟨m, w, t, -, h, rfl⟩)
    · exact TailK.sty_sound hj (t := ⟨[], 0, false⟩) (by simp)
    · exact TailK.sty_sound hj (h.all (fun _ _ _ h => ih _ hs _ _ _ _ h))
  | ext x ih => rintro ss ⟨⟩ a p q vs ⟨v, e, -, -, rfl⟩; rfl
  | drop x ih => rintro ss ⟨⟩ a p q vs ⟨v, -, rfl⟩; rfl
  | map f x ih =>
    intro ss hs
    simp only [G.sty, bind, Option.bind_eq_some_iff] at hs
    obtain ⟨s, hs, hj⟩ := hs
    rintro a p q vs ⟨v, h, rfl⟩
    exact Fn.sty_sound hj (ih _ hs _ _ _ _ h)
  | build m x ih =>
    intro ss hs
    simp only [G.sty, bind, Option.bind_eq_some_iff] at hs
    obtain ⟨s, hs, hj⟩ := hs
    rintro a p q vs ⟨v, e, h, -, rfl⟩
    exact Mk.sty_sound hj (ih _ hs _ _ _ _ h) e
  | nodeEmpty k x ih =>
    intro ss hs
    simp only [G.sty, bind, Option.bind_eq_some_iff] at hs
    obtain ⟨s, hs, hj⟩ := hs
    rintro a p q vs ⟨v, e, h, -, rfl⟩
    exact Mk.sty_sound hj (ih _ hs _ _ _ _ h) e
  | mapErr e x ih => intro ss hs a p q vs h; exact ih ss hs _ _ _ _ h
  | peek x ih => rintro ss hs a p q vs ⟨-, -, m, h⟩; exact ih ss hs _ _ _ _ h
  | amb l x ih => intro ss hs a p q vs h; exact ih ss hs _ _ _ _ h
  | notMaximum x ih => rintro ss hs a p q vs ⟨-, h⟩; exact ih ss hs _ _ _ _ h

end

/-! ## Operators -/

/-- The types of the values of a prefix operator. -/
def PrefixOp.payload : PrefixOp → List Ty
  | .Reference => [.opt .ext]
  | .RangeInclusive => [.enm .RangeInclusiveOperator]
  | _ => []

/-- The types of the values of an infix operator. -/
def InfixOp.payload : InfixOp → List Ty
  | .RangeInclusive => [.enm .RangeInclusiveOperator]
  | _ => []

/-- The types of the values of a postfix operator. -/
def PostfixOp.payload : PostfixOp → List Ty
  | .Ascription | .AsType => [.node .Type]
  | .Call => [.vec (.node .AttributedExpression)]
  | .FieldAccess => [.enm .FieldName]
  | .Slice => [.node .AttributedExpression]
  | .Try => []

/-- The operators of a table are well typed. -/
def typedTable {α : Type} (f : α → List Ty) (t : (α × G) × List (α × G)) : Bool :=
  (t.1 :: t.2).all fun (op, g) =>
    match g.sty NT.sty with | some ss => leS ss ((f op).map .ty) | none => false

/-- The binary operators are what they should be. -/
def InfixOp.ok : InfixOp → Bool
  | .binary b => b.en = .BinaryOp && b.payload = []
  | _ => true

theorem prefixTable_typed : typedTable PrefixOp.payload prefixTable = true := by decide +kernel
theorem infixTable_typed : typedTable InfixOp.payload infixTable = true := by decide +kernel
theorem infixTable_ok : (infixTable.1 :: infixTable.2).all (·.1.ok) = true := by decide +kernel
theorem postfixTable_typed : typedTable PostfixOp.payload postfixTable = true := by decide +kernel
theorem limitedTable_typed : typedTable PostfixOp.payload limitedTable = true := by decide +kernel

theorem hasTys_nil {vs : List V} (h : hasTys vs [] = true) : vs = [] := by
  cases vs with
  | nil => rfl
  | cons => simp [hasTys] at h

theorem hasTys_one {vs : List V} {t : Ty} (h : hasTys vs [t] = true) : ∃ v, vs = [v] ∧ v.hasTy t = true := by
  match vs, h with
  | [v], h => exact ⟨v, rfl, by simpa [hasTys] using h⟩
  | [], h => simp [hasTys] at h
  | _ :: _ :: _, h => simp [hasTys] at h

theorem PrefixOp.mk_hasTy {op : PrefixOp} {payload : List V} {e : Extent} {o : Option V}
    (hp : hasTys payload op.payload = true) (ho : o = none ∧ op.isRange = true ∨ ∃ v, o = some v ∧ v.hasTy (.node .AttributedExpression) = true) :
    (op.mk payload e o).hasTy (.enm .Expression) = true := by
  rcases ho with ⟨rfl, hr⟩ | ⟨v, rfl, hv⟩
  · cases op <;> simp [PrefixOp.isRange] at hr
    · simp [PrefixOp.mk, V.hasTy, hasTys, Tag.en, Tag.payload, K.fields, allTy]
    · obtain ⟨w, rfl, hw⟩ := hasTys_one hp
      simp [PrefixOp.mk, V.hasTy, hasTys, Tag.en, Tag.payload, K.fields, allTy, hw]
  · cases op
    case Reference | RangeInclusive =>
      obtain ⟨w, rfl, hw⟩ := hasTys_one hp
      simp [PrefixOp.mk, V.hasTy, hasTys, Tag.en, Tag.payload, K.fields, allTy, hw, hv]
    all_goals
      have := hasTys_nil hp
      subst this
      simp [PrefixOp.mk, V.hasTy, hasTys, Tag.en, Tag.payload, K.fields, allTy, hv]

theorem mkAttributed_hasTy {e : Extent} {attrs : List V} {v : V} (ha : allTy attrs (.enm .Attribute) = true)
    (hv : v.hasTy (.enm .Expression) = true) : (mkAttributed e attrs v).hasTy (.node .AttributedExpression) = true := by
  simp [mkAttributed, V.hasTy, hasTys, K.fields, ha, hv]

theorem InfixOp.mk_hasTy {op : InfixOp} {payload : List V} {e : Extent} {l : V} {o : Option V} (hop : op.ok = true)
    (hp : hasTys payload op.payload = true) (hl : l.hasTy (.node .AttributedExpression) = true)
    (ho : o = none ∧ op.isRange = true ∨ ∃ v, o = some v ∧ v.hasTy (.node .AttributedExpression) = true) :
    (op.mk payload e l o).hasTy (.node .AttributedExpression) = true := by
  rcases ho with ⟨rfl, hr⟩ | ⟨v, rfl, hv⟩
  · cases op <;> simp [InfixOp.isRange] at hr
    · simp [InfixOp.mk, intoAttributed, mkAttributed, V.hasTy, hasTys, Tag.en, Tag.payload, K.fields, allTy, hl]
    · obtain ⟨w, rfl, hw⟩ := hasTys_one hp
      simp [InfixOp.mk, intoAttributed, mkAttributed, V.hasTy, hasTys, Tag.en, Tag.payload, K.fields, allTy, hw, hl]
  · cases op
    case RangeInclusive =>
      obtain ⟨w, rfl, hw⟩ := hasTys_one hp
      simp [InfixOp.mk, intoAttributed, mkAttributed, V.hasTy, hasTys, Tag.en, Tag.payload, K.fields, allTy, hw, hl, hv]
    case RangeExclusive =>
      simp [InfixOp.mk, intoAttributed, mkAttributed, V.hasTy, hasTys, Tag.en, Tag.payload, K.fields, allTy, hl, hv]
    case binary b =>
      simp [InfixOp.ok] at hop
      have hb : (V.enm b []).hasTy (.enm .BinaryOp) = true := by simp [V.hasTy, hop, hasTys]
      simp [InfixOp.mk, intoAttributed, mkAttributed, ↓hb, V.hasTy, hasTys, Tag.en, Tag.payload, K.fields, allTy, hl, hv, hop]

theorem PostfixOp.mk_hasTy {op : PostfixOp} {payload : List V} {e : Extent} {l : V}
    (hp : hasTys payload op.payload = true) (hl : l.hasTy (.node .AttributedExpression) = true) :
    (op.mk payload e l).hasTy (.node .AttributedExpression) = true := by
  cases op
  case Try =>
    have := hasTys_nil hp
    subst this
    simp [PostfixOp.mk, intoAttributed, mkAttributed, V.hasTy, hasTys, Tag.en, Tag.payload, K.fields, allTy, hl]
  all_goals
    obtain ⟨w, rfl, hw⟩ := hasTys_one hp
    simp [PostfixOp.mk, intoAttributed, mkAttributed, V.hasTy, hasTys, Tag.en, Tag.payload, K.fields, allTy, hw, hl]

section
variable {toks : List Token} {Φ : NT → Rel} (hΦ : ∀ nt am p q vs, Φ nt am p q vs → hasS vs nt.sty = true)
include hΦ

theorem TableR.sty {α : Type} {f : α → List Ty} {t : (α × G) × List (α × G)} (ht : typedTable f t = true)
    {am p q op payload} (h : TableR toks Φ t am p q op payload) : hasTys payload (f op) = true := by
  obtain ⟨g, hg, h⟩ := h
  have := List.all_eq_true.mp ht _ hg
  dsimp only at this
  split at this
  · next ss hs =>
    rw [← hasS_ty]
    exact leS_sound this (den_sty hΦ g ss hs _ _ _ _ h)
  · cases this

theorem AttrR.sty {R : Pt → Pt → Prop} {am p q e attrs} (h : AttrR toks Φ R am p q e attrs) :
    allTy attrs (.enm .Attribute) = true := by
  obtain ⟨m, vss, h, -, -, rfl⟩ := h
  refine allTy_mem.mpr fun v hv => ?_
  have h1 := flatten_has (h.all (P := fun vs => hasS vs (NT.sty .attribute) = true) (fun _ _ _ ⟨_, h⟩ => hΦ _ _ _ _ _ h)) v hv
  exact STy.toTy_sound (by decide +kernel) h1

theorem AtomR.sty {am p q v} (h : AtomR toks Φ am p q v) : v.hasTy (.node .AttributedExpression) = true := by
  obtain ⟨e, attrs, vs, h, rfl⟩ := h
  have ha := AttrR.sty hΦ h
  obtain ⟨m, vss, -, ⟨-, h⟩, -, -⟩ := h
  obtain ⟨v, rfl, hv⟩ := hasS_one (hΦ _ _ _ _ _ h)
  exact mkAttributed_hasTy ha (STy.toTy_sound (by decide +kernel) hv)

theorem PrefixR.sty {am p q e attrs op payload} (h : PrefixR toks Φ am p q e attrs op payload) :
    allTy attrs (.enm .Attribute) = true ∧ hasTys payload op.payload = true := by
  refine ⟨AttrR.sty hΦ h, ?_⟩
  obtain ⟨m, vss, -, h, -, -⟩ := h
  exact TableR.sty hΦ prefixTable_typed h

theorem OperandR.sty {a am p q v} (h : OperandR toks Φ a am p q v) : v.hasTy (.node .AttributedExpression) = true := by
  induction h with
  | atom h => exact AtomR.sty hΦ h
  | pre h _ _ ih =>
    have h1 := PrefixR.sty hΦ h
    exact mkAttributed_hasTy h1.1 (PrefixOp.mk_hasTy h1.2 (.inr ⟨_, rfl, ih⟩))

theorem OpenRangeR.sty {a p q v} (h : OpenRangeR toks Φ a p q v) : v.hasTy (.node .AttributedExpression) = true := by
  induction h with
  | last h hr =>
    have h1 := PrefixR.sty hΦ h
    exact mkAttributed_hasTy h1.1 (PrefixOp.mk_hasTy h1.2 (.inl ⟨rfl, hr⟩))
  | pre h _ _ ih =>
    have h1 := PrefixR.sty hΦ h
    exact mkAttributed_hasTy h1.1 (PrefixOp.mk_hasTy h1.2 (.inr ⟨_, rfl, ih⟩))

omit hΦ in
theorem TableR.infix_ok {am p q op payload} (h : TableR toks Φ infixTable am p q op payload) : op.ok = true := by
  obtain ⟨g, hg, h⟩ := h
  exact List.all_eq_true.mp infixTable_ok _ hg

theorem LeftR.sty {stmt a p q v} (h : LeftR toks Φ stmt a p q v) : v.hasTy (.node .AttributedExpression) = true := by
  induction h with
  | operand h => exact OperandR.sty hΦ h
  | post h _ h' he ih => exact PostfixOp.mk_hasTy (TableR.sty hΦ postfixTable_typed h') ih
  | limited h h' he ih => exact PostfixOp.mk_hasTy (TableR.sty hΦ limitedTable_typed h') ih
  | «infix» h _ h' h'' he ih =>
    exact InfixOp.mk_hasTy h'.infix_ok (TableR.sty hΦ infixTable_typed h') ih (.inr ⟨_, rfl, OperandR.sty hΦ h''⟩)

theorem ExprR.sty {stmt a p q v} (h : ExprR toks Φ stmt a p q v) : v.hasTy (.node .AttributedExpression) = true := by
  cases h with
  | left h => exact LeftR.sty hΦ h
  | openInfix h _ h' hr he =>
    exact InfixOp.mk_hasTy h'.infix_ok (TableR.sty hΦ infixTable_typed h') (LeftR.sty hΦ h) (.inl ⟨rfl, hr⟩)
  | openPrefix h => exact OpenRangeR.sty hΦ h

theorem denRule_sty (nt : NT) (a : Amb) (p q : Pt) (vs : List V) (h : denRule toks Φ (rules nt) a p q vs) :
    hasS vs nt.sty = true := by
  cases hr : rules nt with
  | g x =>
    rw [hr] at h
    obtain ⟨ss, hs, hl⟩ := rules_sty nt x hr
    exact leS_sound hl (den_sty hΦ x ss hs _ _ _ _ h)
  | expr s =>
    rw [hr] at h
    obtain ⟨v, -, h, rfl⟩ := h
    have hn : nt.sty = [.ty (.node .AttributedExpression)] := by
      have ha : NT.all.all (fun nt => match rules nt with
        | .g _ => true
        | .expr _ => decide (nt.sty = [.ty (.node .AttributedExpression)])) = true := by decide +kernel
      have := List.all_eq_true.mp ha nt (NT.mem_all nt)
      rw [hr] at this
      simpa using this
    rw [hn]
    simp [hasS, STy.has_ty, ExprR.sty hΦ h]

end
end Verif
