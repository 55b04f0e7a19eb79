import Verif.Ast
/-!
# The nodes the whitespace apportioner handles

Generated by `tools/mkhandled.py` from `src/whitespace_apportioner.rs`.
-/

namespace Verif

/-- `src/whitespace_apportioner.rs` 66-203: the structs with an `exit_…` method in `impl VisitorMut for
WhitespaceApportioner`. -/
def K.handled : K → Bool
  | .ArrayExplicit | .ArrayRepeated | .AsType | .Ascription | .AssociatedType | .AttributeLiteral
  | .AttributeContainingLiteral | .AttributedEnumVariant | .AttributedExpression
  | .AttributedExternBlockMember | .AttributedGenericDeclarationLifetime | .AttributedGenericDeclarationType
  | .AttributedImplMember | .AttributedItem | .AttributedStructDefinitionFieldNamed
  | .AttributedStructDefinitionFieldUnnamed | .AttributedTraitMember | .Binary | .Block | .Break | .Call
  | .Closure | .ClosureArg | .Const | .Continue | .Crate | .Dereference | .Disambiguation | .Enum
  | .EnumVariant | .ExpressionBox | .ExternBlock | .ExternBlockMemberFunction
  | .ExternBlockMemberFunctionArgumentNamed | .ExternBlockMemberStatic | .ExternBlockMemberType
  | .FieldAccess | .ForLoop | .Function | .FunctionHeader | .FunctionQualifiers
  | .GenericDeclarationLifetime | .GenericDeclarationType | .GenericDeclarations | .If | .IfLet | .Impl
  | .ImplConst | .ImplFunction | .ImplOfInherent | .ImplOfTrait | .ImplType | .Let | .Loop | .MacroCall
  | .Match | .MatchArm | .Module | .NamedArgument | .Number | .Parenthetical | .Path | .PathComponent
  | .PathedIdent | .Pattern | .PatternBox | .PatternIdent | .PatternMacroCall | .PatternName
  | .PatternNumber | .PatternRangeExclusive | .PatternRangeInclusive | .PatternReference | .PatternSlice
  | .PatternSliceSubslice | .PatternStruct | .PatternStructFieldLong | .PatternStructFieldShort
  | .PatternTuple | .Range | .RangeInclusive | .Reference | .Return | .SelfArgumentLonghand
  | .SelfArgumentShorthand | .Slice | .Static | .Struct | .StructDefinitionBodyBrace
  | .StructDefinitionBodyTuple | .StructDefinitionFieldNamed | .StructDefinitionFieldUnnamed
  | .StructLiteral | .StructLiteralField | .Trait | .TraitBoundLifetime | .TraitBoundNormal
  | .TraitBoundRelaxed | .TraitBounds | .TraitImplArgumentNamed | .TraitImplFunctionHeader
  | .TraitMemberConst | .TraitMemberFunction | .TraitMemberType | .TryOperator | .Tuple | .Turbofish | .Type
  | .TypeAlias | .TypeArray | .TypeDisambiguation | .TypeFunction | .TypeFunctionArgumentNamed
  | .TypeGenericsAngle | .TypeGenericsFunction | .TypeHigherRankedTraitBounds | .TypeImplTrait | .TypeNamed
  | .TypeNamedComponent | .TypePointer | .TypeReference | .TypeReferenceKind | .TypeSlice | .TypeTuple
  | .Unary | .Union | .UnsafeBlock | .Use | .UsePath | .UseTailIdent | .UseTailMulti | .Value
  | .VisibilityPublic | .Where | .WhereLifetime | .WhereType | .While | .WhileLet => true
  | _ => false

end Verif
