import Verif.Spec.Symbols
/-!
# A grammar of a large part of Rust

`Writes w c xs v`: the symbols `xs` are a `c` written in the situation `w`, and its tree is `v`.  The trees have no places: all
extents are `0..0`.
-/

namespace Verif.Spec.Core
open Verif

/-- Where something is written. -/
inductive Place
  /-- where any expression may be written -/
  | free
  /-- in the head of an `if`, `while`, `for` or `match`, where a struct literal would be taken for the body -/
  | head
  /-- in such a head after `..`, where a block would be taken for the body, too -/
  | bound
deriving DecidableEq, Repr

/-- The place of an operand after `..` (if `u`). -/
def Place.first (u : Bool) : Place → Place
  | .head => if u then .bound else .head
  | w => w

/-- Kinds of expressions without operators. -/
inductive Kin
  | plain
  /-- that end a statement: `if`, `match`, loops and blocks -/
  | brace
  /-- macro calls with `(…)` or `[…]`, and with `{…}` -/
  | mac | curly
deriving DecidableEq, Repr

/-- Whether a statement ends with it. -/
def Kin.ends : Kin → Bool
  | .brace | .curly => true
  | _ => false

/-- How the part of an expression that is written so far ends. -/
inductive Ending
  | plain
  /-- with a path as a type, after `as` -/
  | cast
  /-- with another type -/
  | typed
  /-- it is just a macro call -/
  | mac
deriving DecidableEq, Repr

/-- What may not come next, since it would be taken for a part of the type. -/
def Ending.bars : Ending → List TK
  | .plain | .mac => []
  | .cast => [.LeftAngle, .DoubleLeftAngle, .LeftParen]
  | .typed => [.LeftAngle, .DoubleLeftAngle, .LeftParen, .Plus, .ThinArrow]

def Kin.ending : Kin → Ending
  | .mac => .mac
  | _ => .plain

/-- What can be written. -/
inductive Cat
  /-- something or nothing -/
  | opt (c : Cat)
  /-- any number, separated by `k`, which is allowed after the last one -/
  | sep (k : TK) (c : Cat)
  /-- any number, each followed by `k` -/
  | each (k : TK) (c : Cat)
  /-- at least one, separated by `k`, which is allowed after the last one -/
  | some (k : TK) (c : Cat)
  /-- the same; where there might be none as well -/
  | list (k : TK) (c : Cat)
  /-- at least one, the last one a `d`, separated by `k` -/
  | sep1 (k : TK) (c d : Cat)
  /-- the same; where there might be none as well -/
  | tail (k : TK) (c d : Cat)
  /-- nothing, or `k` and then at least one, separated by `k` -/
  | more (k : TK) (c d : Cat)
  /-- one after another -/
  | many (c : Cat)
  /-- does not begin with this -/
  | but (k : TK) (c : Cat)
  -- names
  | kw (k : TK) | name | word | seg | lifetime | str | vis
  /-- `o` and the symbols after it, up to the matching `c` -/
  | nest (o c : TK)
  -- paths
  | pcomp | turbo | pathed
  -- patterns
  | pattern | patKind | patName | patEnd | patTuple | tupleMember | sliceMember | patField
  -- types
  | typ | typ1 | also | alsoF | kind | kindB | named | namedF | comp | compF | angle | member | ret | as | argName | fnTypeArg | lifes | quals
  | typ1F
  | bounds | bound | boundF | hasBounds | hasDefault | outlives
  | generics | genLife | genType | genConst
  | wheres | whereItem
  -- items
  | selfArg (comma : Bool) | fnArg | args | traitArg | traitArgs | traitHead | traitItem | externArg | externItem
  | fnHead | implItem | constValue | discriminant
  | attr | item | attrItem | rename | useStep | useTail | usePath | field | tupleField | variant | body
  -- expressions
  /-- without operators -/
  | atom (q : Kin)
  /-- the same, but they go on as far as possible -/
  | opn
  /-- with prefix operators; after a range if `u` -/
  | operand (u : Bool) (q : Kin)
  | openOperand (u : Bool)
  /-- `..` with prefix operators -/
  | dots
  /-- with operators; at the beginning of a statement if `s` -/
  | left (s : Bool) (f : Ending)
  /-- any -/
  | expr (s : Bool)
  | litField | tupleItems | closureArg | argType | label | ifE | guard | arm (b : Bool) | arms | letType
  /-- an expression as the last statement of a block -/
  | last
  /-- an expression as a statement that ends with a brace -/
  | brc
  /-- statements; the last one is followed by `;` if `b` -/
  | stmts (b : Option Bool)
  | block
deriving DecidableEq, Repr

/-- A struct of the tree. -/
abbrev N (k : K) (vs : List V) : V := .node k ⟨0, 0⟩ [] vs
/-- A variant of an enum. -/
abbrev E (t : Tag) (vs : List V) : V := .enm t vs
/-- A list or an optional value. -/
abbrev L (vs : List V) : V := .list vs
/-- An extent. -/
abbrev X : V := .ext ⟨0, 0⟩
/-- A name. -/
abbrev I : V := N .Ident []
/-- A path of one name. -/
abbrev pathOf (v : V) : V := N .Path [L [v]]
/-- `pub` with a restriction. -/
abbrev pub (qualifier : List V) : V := E .Visibility_Public [N .VisibilityPublic [L qualifier]]

/-- The arguments of a macro call, by the bracket they begin with. -/
abbrev macroArgs : TK → V
  | .LeftParen => E .MacroCallArgs_Paren [X]
  | .LeftSquare => E .MacroCallArgs_Square [X]
  | _ => E .MacroCallArgs_Curly [X]

/-- An expression with its attributes. -/
abbrev A (as : List V) (v : V) : V := N .AttributedExpression [L as, v]

/-- `..`, `..=` and `...`. -/
inductive RangeOp | excl | incl | old
deriving DecidableEq, Repr

abbrev RangeOp.symbol : RangeOp → TK
  | .excl => .DoublePeriod
  | .incl => .DoublePeriodEquals
  | .old => .TriplePeriod

/-- A range. -/
abbrev RangeOp.tree (a b : List V) : RangeOp → V
  | .excl => E .Expression_Range [N .Range [L a, L b]]
  | .incl => E .Expression_RangeInclusive [N .RangeInclusive [L a, E .RangeInclusiveOperator_Recommended [X], L b]]
  | .old => E .Expression_RangeInclusive [N .RangeInclusive [L a, E .RangeInclusiveOperator_Legacy [X], L b]]

/-- The operators before an expression. -/
inductive Pre | box | deref | not | neg | ref | refMut | range (o : RangeOp)
deriving DecidableEq, Repr

abbrev Pre.symbols : Pre → List Lexeme
  | .box => [.t .Box]
  | .deref => [.t .Asterisk]
  | .not => [.t .Bang]
  | .neg => [.t .Minus]
  | .ref => [.j .Ampersand]
  | .refMut => [.j .Ampersand, .t .Mut]
  | .range o => [.t o.symbol]

abbrev Pre.tree (v : V) : Pre → V
  | .box => E .Expression_Box [N .ExpressionBox [v]]
  | .deref => E .Expression_Dereference [N .Dereference [v]]
  | .not => E .Expression_Unary [N .Unary [E .UnaryOp_Not [], v]]
  | .neg => E .Expression_Unary [N .Unary [E .UnaryOp_Negate [], v]]
  | .ref => E .Expression_Reference [N .Reference [L [], v]]
  | .refMut => E .Expression_Reference [N .Reference [L [X], v]]
  | .range o => o.tree [] [v]

/-- The operators between two expressions. -/
def binOp : TK → Option Tag
  | .ShiftLeftEquals => some .BinaryOp_ShiftLeftAssign
  | .ShiftRightEquals => some .BinaryOp_ShiftRightAssign
  | .AmpersandEquals => some .BinaryOp_BitwiseAndAssign
  | .CaretEquals => some .BinaryOp_BitwiseXorAssign
  | .DivideEquals => some .BinaryOp_DivAssign
  | .DoubleAmpersand => some .BinaryOp_BooleanAnd
  | .DoubleEquals => some .BinaryOp_Equal
  | .DoubleLeftAngle => some .BinaryOp_ShiftLeft
  | .DoublePipe => some .BinaryOp_BooleanOr
  | .DoubleRightAngle => some .BinaryOp_ShiftRight
  | .GreaterThanOrEquals => some .BinaryOp_GreaterThanOrEqual
  | .LessThanOrEquals => some .BinaryOp_LessThanOrEqual
  | .MinusEquals => some .BinaryOp_SubAssign
  | .NotEqual => some .BinaryOp_NotEqual
  | .PercentEquals => some .BinaryOp_ModAssign
  | .PipeEquals => some .BinaryOp_BitwiseOrAssign
  | .PlusEquals => some .BinaryOp_AddAssign
  | .TimesEquals => some .BinaryOp_MulAssign
  | .Ampersand => some .BinaryOp_BitwiseAnd
  | .Asterisk => some .BinaryOp_Mul
  | .Caret => some .BinaryOp_BitwiseXor
  | .Equals => some .BinaryOp_Assign
  | .LeftAngle => some .BinaryOp_LessThan
  | .Minus => some .BinaryOp_Sub
  | .Percent => some .BinaryOp_Mod
  | .Pipe => some .BinaryOp_BitwiseOr
  | .Plus => some .BinaryOp_Add
  | .RightAngle => some .BinaryOp_GreaterThan
  | .Slash => some .BinaryOp_Div
  | _ => none

open Cat Lexeme TK

/-- The symbols of a comma that is there or not. -/
abbrev commaIf (b : Bool) : List Lexeme := if b then [t Comma] else []

/-- The grammar. -/
inductive Writes : Place → Cat → List Lexeme → V → Prop
  -- lists
  | optNone {w c} : Writes w (opt c) [] (L [])
  | optSome {w c xs v} : Writes w c xs v → Writes w (opt c) xs (L [v])
  | sepNil {w k c} : Writes w (sep k c) [] (L [])
  | sepOne {w k c xs v} : Writes w c xs v → Writes w (sep k c) xs (L [v])
  | sepCons {w k c xs v ys vs} : Writes w c xs v → Writes w (sep k c) ys (L vs) →
      Writes w (sep k c) (xs ++ t k :: ys) (L (v :: vs))
  | eachNil {w k c} : Writes w (each k c) [] (L [])
  | eachCons {w k c xs v ys vs} : Writes w c xs v → Writes w (each k c) ys (L vs) →
      Writes w (each k c) (xs ++ t k :: ys) (L (v :: vs))
  | some {w k c xs v vs} : Writes w (sep k c) xs (L (v :: vs)) → Writes w (some k c) xs (L (v :: vs))
  | list {w k c xs v vs} : Writes w (sep k c) xs (L (v :: vs)) → Writes w (list k c) xs (L (v :: vs))
  | sep1One {w k c d xs v} : Writes w d xs v → Writes w (sep1 k c d) xs (L [v])
  | sep1Cons {w k c d xs v ys vs} : Writes w c xs v → Writes w (sep1 k c d) ys (L vs) →
      Writes w (sep1 k c d) (xs ++ t k :: ys) (L (v :: vs))
  | tail {w k c d xs v} : Writes w (sep1 k c d) xs v → Writes w (tail k c d) xs v
  | noMore {w k c d} : Writes w (more k c d) [] (L [])
  | more {w k c d xs v} : Writes w (sep1 k c d) xs v → Writes w (more k c d) (t k :: xs) v
  | manyNil {w c} : Writes w (many c) [] (L [])
  | manyCons {w c xs v ys vs} : Writes w c xs v → Writes w (many c) ys (L vs) → Writes w (many c) (xs ++ ys) (L (v :: vs))
  | but {w k c xs v} : Writes w c xs v → (∀ x ∈ xs.head?, x.kind ≠ Option.some k) → Writes w (but k c) xs v
  -- names
  | kw {w k} : Writes w (kw k) [t k] X
  | name {w} : Writes w name [t Ident] I
  -- `default` and `union` are names as well
  | word {w} : Writes w word [t Ident] I
  | wordDefault {w} : Writes w word [t Default] I
  | wordUnion {w} : Writes w word [t Union] I
  | seg {w} : Writes w seg [t Ident] I
  | segDefault {w} : Writes w seg [t Default] I
  | segUnion {w} : Writes w seg [t Union] I
  | segSelf {w} : Writes w seg [t SelfIdent] I
  | segCrate {w} : Writes w seg [t Crate] I
  | lifetime {w} : Writes w lifetime [t Lifetime] (N .Lifetime [I])
  | str {w} : Writes w str [t String] (N .String [X])
  | strRaw {w} : Writes w str [t StringRaw] (N .String [X])
  | vis {w} : Writes w vis [t Pub] (pub [])
  | visCrate {w} : Writes w vis [t Pub, t LeftParen, t Crate, t RightParen] (pub [E .VisibilityPublicQualifier_Crate []])
  | visSelf {w} : Writes w vis [t Pub, t LeftParen, t SelfIdent, t RightParen] (pub [E .VisibilityPublicQualifier_SelfIdent []])
  | visPath {w xs v} : Writes w (sep1 DoubleColon name name) xs v → Writes w vis (t Pub :: t LeftParen :: xs ++ [t RightParen])
      (pub [E .VisibilityPublicQualifier_Path [N .Path [v]]])
  | nest {w o c xs} : inside o c 0 xs = true → Writes w (nest o c) (t o :: xs) X
  -- paths
  | pcomp {w xs v ys g} : Writes w seg xs v → Writes w (opt turbo) ys g → Writes w pcomp (xs ++ ys) (N .PathComponent [v, g])
  | turboLife {w xs a} : Writes w (sep Comma lifetime) xs a →
      Writes w turbo (t DoubleColon :: j LeftAngle :: xs ++ [j RightAngle]) (N .Turbofish [a, L []])
  | turbo {w xs a ys b} : Writes w (each Comma lifetime) xs a → Writes w (sep Comma typ) ys b →
      Writes w turbo (t DoubleColon :: j LeftAngle :: xs ++ ys ++ [j RightAngle]) (N .Turbofish [a, b])
  | pathed {w xs v} : Writes w (sep1 DoubleColon pcomp pcomp) xs v → Writes w pathed xs (N .PathedIdent [v])
  | pathedRoot {w xs v} : Writes w (sep1 DoubleColon pcomp pcomp) xs v → Writes w pathed (t DoubleColon :: xs) (N .PathedIdent [v])
  -- patterns; they do not begin with `self`, which would be taken for the first argument of a method
  | pattern {w xs v} : Writes w patKind xs v → Writes w pattern xs (N .Pattern [L [], v])
  | patternName {w xs n ys v} : Writes w patName xs n → Writes w patKind ys v → Writes w pattern (xs ++ ys) (N .Pattern [L [n], v])
  | patName {w xs a ys b} : Writes w (opt (kw Ref)) xs a → Writes w (opt (kw Mut)) ys b →
      Writes w patName (xs ++ ys ++ [t Ident, t At]) (N .PatternName [a, b, I])
  | patIdent {w xs a ys b zs p us c} : Writes w (opt (kw Ref)) xs a → Writes w (opt (kw Mut)) ys b →
      Writes w (Cat.but SelfIdent pathed) zs p → Writes w (opt patTuple) us c →
      Writes w patKind (xs ++ ys ++ zs ++ us) (E .PatternKind_Ident [N .PatternIdent [a, b, p, c]])
  | patTuple {w xs v} : Writes w (sep Comma tupleMember) xs v → Writes w patTuple (t LeftParen :: xs ++ [t RightParen]) (N .PatternTuple [v])
  | tupleMember {w xs v} : Writes w pattern xs v → Writes w tupleMember xs (E .PatternTupleMember_Pattern [v])
  | tupleRest {w} : Writes w tupleMember [t DoublePeriod] (E .PatternTupleMember_Wildcard [X])
  | patTupleKind {w xs v} : Writes w patTuple xs v → Writes w patKind xs (E .PatternKind_Tuple [v])
  | patSlice {w xs v} : Writes w (sep Comma sliceMember) xs v →
      Writes w patKind (t LeftSquare :: xs ++ [t RightSquare]) (E .PatternKind_Slice [N .PatternSlice [v]])
  | sliceMember {w xs v} : Writes w pattern xs v → Writes w sliceMember xs (E .PatternSliceMember_Pattern [v])
  | sliceRest {w} : Writes w sliceMember [t DoublePeriod] (E .PatternSliceMember_Wildcard [X])
  | sliceSub {w xs a ys b} : Writes w (opt (kw Ref)) xs a → Writes w (opt (kw Mut)) ys b →
      Writes w sliceMember (xs ++ ys ++ [t Ident, t At, t DoublePeriod]) (E .PatternSliceMember_Subslice [N .PatternSliceSubslice [a, b, I]])
  | patStruct {w xs p ys v} : Writes w (Cat.but SelfIdent pathed) xs p → Writes w (sep Comma patField) ys v →
      Writes w patKind (xs ++ t LeftCurly :: ys ++ [t RightCurly]) (E .PatternKind_Struct [N .PatternStruct [p, v, .bool false]])
  | patStructRest {w xs p ys v} : Writes w (Cat.but SelfIdent pathed) xs p → Writes w (each Comma patField) ys v →
      Writes w patKind (xs ++ t LeftCurly :: ys ++ [t DoublePeriod, t RightCurly])
        (E .PatternKind_Struct [N .PatternStruct [p, v, .bool true]])
  | patField {w ns n xs v} : Writes w word ns n → Writes w pattern xs v →
      Writes w patField (ns ++ t Colon :: xs) (E .PatternStructField_Long [N .PatternStructFieldLong [n, v]])
  | patShort {w xs a ys b ns n} : Writes w (opt (kw Ref)) xs a → Writes w (opt (kw Mut)) ys b → Writes w word ns n →
      Writes w patField (xs ++ ys ++ ns) (E .PatternStructField_Short [N .PatternStructFieldShort [N .PatternIdent [a, b,
        N .PathedIdent [L [N .PathComponent [n, L []]]], L []]]])
  | patChar {w} : Writes w patKind [t Character] (E .PatternKind_Character [N .PatternCharacter [N .Character [X]]])
  | patByte {w} : Writes w patKind [t Byte] (E .PatternKind_Byte [N .PatternByte [N .Byte [N .Character [X]]]])
  | patBytes {w} : Writes w patKind [t ByteString] (E .PatternKind_ByteString [N .PatternByteString [N .ByteString [N .String [X]]]])
  | patBytesRaw {w} : Writes w patKind [t ByteStringRaw] (E .PatternKind_ByteString [N .PatternByteString [N .ByteString [N .String [X]]]])
  | patStr {w} : Writes w patKind [t String] (E .PatternKind_String [N .PatternString [N .String [X]]])
  | patStrRaw {w} : Writes w patKind [t StringRaw] (E .PatternKind_String [N .PatternString [N .String [X]]])
  | patNum {w n} : Writes w patKind [num n] (E .PatternKind_Number [N .PatternNumber [L [], numberTree n]])
  | patNeg {w n} : Writes w patKind [t Minus, num n] (E .PatternKind_Number [N .PatternNumber [L [X], numberTree n]])
  | patRef {w xs v} : Writes w (Cat.but Mut pattern) xs v →
      Writes w patKind (j Ampersand :: xs) (E .PatternKind_Reference [N .PatternReference [L [], v]])
  | patRefMut {w xs v} : Writes w pattern xs v →
      Writes w patKind (j Ampersand :: t Mut :: xs) (E .PatternKind_Reference [N .PatternReference [L [X], v]])
  | patBox {w xs v} : Writes w pattern xs v → Writes w patKind (t Box :: xs) (E .PatternKind_Box [N .PatternBox [v]])
  | patMacro {w o c xs p ys n zs} : (o, c) ∈ [(LeftParen, RightParen), (LeftSquare, RightSquare), (LeftCurly, RightCurly)] →
      Writes w (Cat.but SelfIdent pathed) xs p → Writes w (opt name) ys n → Writes w (nest o c) zs X →
      Writes w patKind (xs ++ t Bang :: ys ++ zs ++ [t c])
        (E .PatternKind_MacroCall [N .PatternMacroCall [N .MacroCall [p, n, macroArgs o]]])
  | patRange {w xs a ys b} : Writes w patEnd xs a → Writes w patEnd ys b →
      Writes w patKind (xs ++ t DoublePeriod :: ys) (E .PatternKind_RangeExclusive [N .PatternRangeExclusive [a, b]])
  | patRangeTo {w xs a ys b} : Writes w patEnd xs a → Writes w patEnd ys b →
      Writes w patKind (xs ++ t DoublePeriodEquals :: ys)
        (E .PatternKind_RangeInclusive [N .PatternRangeInclusive [a, E .RangeInclusiveOperator_Recommended [X], b]])
  | patRangeOld {w xs a ys b} : Writes w patEnd xs a → Writes w patEnd ys b →
      Writes w patKind (xs ++ t TriplePeriod :: ys)
        (E .PatternKind_RangeInclusive [N .PatternRangeInclusive [a, E .RangeInclusiveOperator_Legacy [X], b]])
  | endPath {w xs v} : Writes w (Cat.but SelfIdent pathed) xs v → Writes w patEnd xs (E .PatternRangeComponent_Ident [v])
  | endChar {w} : Writes w patEnd [t Character] (E .PatternRangeComponent_Character [N .Character [X]])
  | endByte {w} : Writes w patEnd [t Byte] (E .PatternRangeComponent_Byte [N .Byte [N .Character [X]]])
  | endNum {w n} : Writes w patEnd [num n] (E .PatternRangeComponent_Number [N .PatternNumber [L [], numberTree n]])
  | endNeg {w n} : Writes w patEnd [t Minus, num n] (E .PatternRangeComponent_Number [N .PatternNumber [L [X], numberTree n]])
  -- types; `A + B` may follow a path, `impl` or `dyn`
  | typ {w xs v} : Writes w kind xs v → Writes w typ xs (N .Type [v, L []])
  | typSum {w xs v ys u} : Writes w kindB xs v → Writes w (Cat.more Plus also alsoF) ys u →
      Writes w typ (xs ++ ys) (N .Type [v, u])
  | also {w xs v} : Writes w named xs v → Writes w also xs (E .TypeAdditional_Named [v])
  | alsoLife {w xs v} : Writes w lifetime xs v → Writes w also xs (E .TypeAdditional_Lifetime [v])
  | alsoF {w xs v} : Writes w also xs v → Writes w alsoF xs v
  | alsoFn {w xs v} : Writes w namedF xs v → Writes w alsoF xs (E .TypeAdditional_Named [v])
  | typ1 {w xs v} : Writes w kindB xs v → Writes w typ1 xs (N .Type [v, L []])
  | typ1F {w xs v} : Writes w kind xs v → Writes w typ1F xs (N .Type [v, L []])
  | kindB {w xs v} : Writes w named xs v → Writes w kindB xs (E .TypeKind_Named [v])
  | dyn {w xs v} : Writes w named xs v → Writes w kindB (t Dyn :: xs) (E .TypeKind_DynTrait [N .TypeDynTrait [v]])
  | impl {w xs v} : Writes w named xs v → Writes w kindB (t Impl :: xs) (E .TypeKind_ImplTrait [N .TypeImplTrait [v]])
  | kind {w xs v} : Writes w namedF xs v → Writes w kind xs (E .TypeKind_Named [v])
  | dynF {w xs v} : Writes w namedF xs v → Writes w kind (t Dyn :: xs) (E .TypeKind_DynTrait [N .TypeDynTrait [v]])
  | implF {w xs v} : Writes w namedF xs v → Writes w kind (t Impl :: xs) (E .TypeKind_ImplTrait [N .TypeImplTrait [v]])
  | never {w} : Writes w kind [t Bang] (E .TypeKind_Uninhabited [X])
  | slice {w xs v} : Writes w typ xs v → Writes w kind (t LeftSquare :: xs ++ [t RightSquare]) (E .TypeKind_Slice [N .TypeSlice [v]])
  | arrayType {w xs v ys n} : Writes w typ xs v → Writes w (expr false) ys n →
      Writes w kind (t LeftSquare :: xs ++ t Semicolon :: ys ++ [t RightSquare]) (E .TypeKind_Array [N .TypeArray [v, n]])
  | tuple {w xs v} : Writes w (sep Comma typ) xs v →
      Writes w kind (t LeftParen :: xs ++ [t RightParen]) (E .TypeKind_Tuple [N .TypeTuple [v]])
  | pointerConst {w xs v} : Writes w typ xs v → Writes w kind (t Asterisk :: t Const :: xs)
      (E .TypeKind_Pointer [N .TypePointer [E .TypePointerKind_Const [], v]])
  | pointerMut {w xs v} : Writes w typ xs v → Writes w kind (t Asterisk :: t Mut :: xs)
      (E .TypeKind_Pointer [N .TypePointer [E .TypePointerKind_Mutable [], v]])
  | reference {w xs a ys m zs v} : Writes w (opt lifetime) xs a → Writes w (opt (kw Mut)) ys m → Writes w typ zs v →
      Writes w kind (j Ampersand :: xs ++ ys ++ zs) (E .TypeKind_Reference [N .TypeReference [N .TypeReferenceKind [a, m], v]])
  | fnType {w xs q ys a zs r} : Writes w quals xs q → Writes w (sep Comma fnTypeArg) ys (L a) → Writes w (opt ret) zs r →
      Writes w kind (xs ++ t Fn :: t LeftParen :: ys ++ t RightParen :: zs) (E .TypeKind_Function [N .TypeFunction [q, L a, r]])
  | fnTypeDots {w xs q ys a zs r} : Writes w quals xs q → Writes w (each Comma fnTypeArg) ys (L a) → Writes w (opt ret) zs r →
      Writes w kind (xs ++ t Fn :: t LeftParen :: ys ++ t TriplePeriod :: t RightParen :: zs)
        (E .TypeKind_Function [N .TypeFunction [q, L (a ++ [E .TypeFunctionArgument_Variadic [X]]), r]])
  | forNamed {w xs l ys v} : Writes w lifes xs l → Writes w namedF ys v →
      Writes w kind (xs ++ ys) (E .TypeKind_HigherRankedTraitBounds [N .TypeHigherRankedTraitBounds [l,
        E .TypeHigherRankedTraitBoundsChild_Named [v]]])
  | forFn {w ls l xs q ys a zs r} : Writes w lifes ls l → Writes w (Cat.but Default quals) xs q → Writes w (sep Comma fnTypeArg) ys (L a) →
      Writes w (opt ret) zs r → Writes w kind (ls ++ xs ++ t Fn :: t LeftParen :: ys ++ t RightParen :: zs)
        (E .TypeKind_HigherRankedTraitBounds [N .TypeHigherRankedTraitBounds [l,
          E .TypeHigherRankedTraitBoundsChild_Function [N .TypeFunction [q, L a, r]]]])
  | forReference {w ls l xs a ys m zs v} : Writes w lifes ls l → Writes w (opt lifetime) xs a → Writes w (opt (kw Mut)) ys m →
      Writes w typ zs v → Writes w kind (ls ++ j Ampersand :: xs ++ ys ++ zs)
        (E .TypeKind_HigherRankedTraitBounds [N .TypeHigherRankedTraitBounds [l,
          E .TypeHigherRankedTraitBoundsChild_Reference [N .TypeReference [N .TypeReferenceKind [a, m], v]]]])
  | qself {w xs v ys a zs p} : Writes w typ xs v → Writes w (opt Cat.as) ys a → Writes w (Cat.more DoubleColon comp compF) zs p →
      Writes w kind (j LeftAngle :: xs ++ ys ++ j RightAngle :: zs) (E .TypeKind_Disambiguation [N .TypeDisambiguation [v, a, p]])
  | as {w xs v} : Writes w named xs v → Writes w Cat.as (t As :: xs) v
  | lifes {w xs v} : Writes w (sep Comma lifetime) xs v → Writes w lifes (t For :: j LeftAngle :: xs ++ [j RightAngle]) v
  | named {w xs v} : Writes w (sep1 DoubleColon comp comp) xs v → Writes w named xs (N .TypeNamed [v])
  | namedRoot {w xs v} : Writes w (sep1 DoubleColon comp comp) xs v → Writes w named (t DoubleColon :: xs) (N .TypeNamed [v])
  | namedF {w xs v} : Writes w (sep1 DoubleColon comp compF) xs v → Writes w namedF xs (N .TypeNamed [v])
  | namedFRoot {w xs v} : Writes w (sep1 DoubleColon comp compF) xs v → Writes w namedF (t DoubleColon :: xs) (N .TypeNamed [v])
  | comp {w xs v ys g} : Writes w seg xs v → Writes w (opt angle) ys g → Writes w comp (xs ++ ys) (N .TypeNamedComponent [v, g])
  | compF {w xs v} : Writes w comp xs v → Writes w compF xs v
  | compFn {w xs v ys a zs r} : Writes w seg xs v → Writes w (sep Comma typ) ys a → Writes w (opt ret) zs r →
      Writes w compF (xs ++ t LeftParen :: ys ++ t RightParen :: zs)
        (N .TypeNamedComponent [v, L [E .TypeGenerics_Function [N .TypeGenericsFunction [a, r]]]])
  | angle {w xs v} : Writes w (sep Comma member) xs v →
      Writes w angle (j LeftAngle :: xs ++ [j RightAngle]) (E .TypeGenerics_Angle [N .TypeGenericsAngle [v]])
  | memberLife {w xs v} : Writes w lifetime xs v → Writes w member xs (E .TypeGenericsAngleMember_Lifetime [v])
  | memberType {w xs v} : Writes w typ xs v → Writes w member xs (E .TypeGenericsAngleMember_Type [v])
  | memberEqual {w xs v} : Writes w typ xs v → Writes w member (t Ident :: t Equals :: xs)
      (E .TypeGenericsAngleMember_AssociatedType [N .AssociatedType [I, E .AssociatedTypeValue_Equal [N .AssociatedTypeValueEqual [v]]]])
  | memberBound {w xs v} : Writes w bounds xs v → Writes w member (t Ident :: t Colon :: xs)
      (E .TypeGenericsAngleMember_AssociatedType [N .AssociatedType [I, E .AssociatedTypeValue_Bound [N .AssociatedTypeValueBound [v]]]])
  | ret {w xs v} : Writes w typ xs v → Writes w ret (t ThinArrow :: xs) v
  | argName {w xs n} : Writes w word xs n → Writes w argName (xs ++ [t Colon]) n
  | fnTypeArg {w xs n ys v} : Writes w (opt argName) xs n → Writes w typ ys v →
      Writes w fnTypeArg (xs ++ ys) (E .TypeFunctionArgument_Named [N .TypeFunctionArgumentNamed [n, v]])
  -- `default const unsafe async extern "C"`
  | quals {w ds d xs c ys u zs a} : Writes w (opt (kw Default)) ds d → Writes w (opt (kw Const)) xs c → Writes w (opt (kw Unsafe)) ys u →
      Writes w (opt (kw Async)) zs a → Writes w quals (ds ++ xs ++ ys ++ zs) (N .FunctionQualifiers [d, c, u, a, L [], L []])
  | qualsExtern {w ds d xs c ys u zs a us s} : Writes w (opt (kw Default)) ds d → Writes w (opt (kw Const)) xs c →
      Writes w (opt (kw Unsafe)) ys u → Writes w (opt (kw Async)) zs a → Writes w (opt str) us s →
      Writes w quals (ds ++ xs ++ ys ++ zs ++ t Extern :: us) (N .FunctionQualifiers [d, c, u, a, L [X], s])
  -- bounds
  | bounds {w xs v} : Writes w (Cat.tail Plus bound boundF) xs v → Writes w bounds xs (N .TraitBounds [v])
  | boundLife {w xs v} : Writes w lifetime xs v → Writes w bound xs (E .TraitBound_Lifetime [N .TraitBoundLifetime [v]])
  | bound {w xs v} : Writes w named xs v → Writes w bound xs (E .TraitBound_Normal [N .TraitBoundNormal [E .TraitBoundType_Named [v]]])
  | boundMaybe {w xs v} : Writes w named xs v → Writes w bound (t QuestionMark :: xs)
      (E .TraitBound_Relaxed [N .TraitBoundRelaxed [E .TraitBoundType_Named [v]]])
  | boundF {w xs v} : Writes w bound xs v → Writes w boundF xs v
  | boundFn {w xs v} : Writes w namedF xs v → Writes w boundF xs (E .TraitBound_Normal [N .TraitBoundNormal [E .TraitBoundType_Named [v]]])
  | boundFor {w xs l ys v} : Writes w lifes xs l → Writes w namedF ys v → Writes w boundF (xs ++ ys)
      (E .TraitBound_Normal [N .TraitBoundNormal [E .TraitBoundType_HigherRankedTraitBounds [N .TypeHigherRankedTraitBounds [l,
        E .TypeHigherRankedTraitBoundsChild_Named [v]]]]])
  | hasBounds {w xs v} : Writes w bounds xs v → Writes w hasBounds (t Colon :: xs) v
  | hasDefault {w xs v} : Writes w typ xs v → Writes w hasDefault (t Equals :: xs) v
  | outlives {w xs v} : Writes w (Cat.tail Plus lifetime lifetime) xs v → Writes w outlives (t Colon :: xs) v
  -- `<'a: 'b, T: A = B, const N: u8>`
  | generics {w xs a} : Writes w (sep Comma genLife) xs a →
      Writes w generics (j LeftAngle :: xs ++ [j RightAngle]) (N .GenericDeclarations [a, L [], L []])
  | genericsType {w xs a ys b} : Writes w (each Comma genLife) xs a → Writes w (sep Comma genType) ys b →
      Writes w generics (j LeftAngle :: xs ++ ys ++ [j RightAngle]) (N .GenericDeclarations [a, b, L []])
  | genericsConst {w xs a ys b zs c} : Writes w (each Comma genLife) xs a → Writes w (each Comma genType) ys b →
      Writes w (sep Comma genConst) zs c →
      Writes w generics (j LeftAngle :: xs ++ ys ++ zs ++ [j RightAngle]) (N .GenericDeclarations [a, b, c])
  | genLife {w xs v} : Writes w lifetime xs v →
      Writes w genLife xs (N .AttributedGenericDeclarationLifetime [L [], N .GenericDeclarationLifetime [v, L []]])
  | genLifeOutlives {w xs v ys vs} : Writes w lifetime xs v → Writes w outlives ys (L vs) →
      Writes w genLife (xs ++ ys) (N .AttributedGenericDeclarationLifetime [L [], N .GenericDeclarationLifetime [v, L vs]])
  | genType {w xs v ys b zs d} : Writes w name xs v → Writes w (opt hasBounds) ys b → Writes w (opt hasDefault) zs d →
      Writes w genType (xs ++ ys ++ zs) (N .AttributedGenericDeclarationType [L [], N .GenericDeclarationType [v, b, d]])
  | genConst {w xs v ys b} : Writes w name xs v → Writes w typ ys b →
      Writes w genConst (t Const :: xs ++ t Colon :: ys) (N .AttributedGenericDeclarationConst [L [], N .GenericDeclarationConst [v, b]])
  | noWheres {w} : Writes w wheres [] (L [])
  | wheres {w xs vs} : Writes w (Cat.some Comma whereItem) xs (L vs) → Writes w wheres (t Where :: xs) (L vs)
  | whereLife {w xs v ys b} : Writes w lifetime xs v → Writes w outlives ys b →
      Writes w whereItem (xs ++ ys) (N .Where [L [], E .WhereKind_Lifetime [N .WhereLifetime [v, b]]])
  | whereType {w xs v ys b} : Writes w (Cat.but For typ) xs v → Writes w hasBounds ys b →
      Writes w whereItem (xs ++ ys) (N .Where [L [], E .WhereKind_Type [N .WhereType [v, b]]])
  | whereFor {w xs l ys v zs b} : Writes w lifes xs (L l) → Writes w (Cat.but For typ) ys v → Writes w hasBounds zs b →
      Writes w whereItem (xs ++ ys ++ zs) (N .Where [L l, E .WhereKind_Type [N .WhereType [v, b]]])
  -- items
  | attrItem {w xs a ys v} : Writes w (many attr) xs a → Writes w item ys v → Writes w attrItem (xs ++ ys) (N .AttributedItem [a, v])
  | externCrate {w xs v ys n zs r} : Writes w (opt vis) xs v → Writes w name ys n → Writes w (opt rename) zs r →
      Writes w item (xs ++ t Extern :: t Crate :: ys ++ zs ++ [t Semicolon]) (E .Item_ExternCrate [N .Crate [v, n, r]])
  | rename {w xs v} : Writes w name xs v → Writes w rename (t As :: xs) v
  | use {w xs v ys p} : Writes w (opt vis) xs v → Writes w usePath ys p →
      Writes w item (xs ++ t Use :: ys ++ [t Semicolon]) (E .Item_Use [N .Use [v, p]])
  | useRoot {w xs v ys p} : Writes w (opt vis) xs v → Writes w usePath ys p →
      Writes w item (xs ++ t Use :: t DoubleColon :: ys ++ [t Semicolon]) (E .Item_Use [N .Use [v, p]])
  | usePath {w xs v ys p} : Writes w (many useStep) xs v → Writes w useTail ys p → Writes w usePath (xs ++ ys) (N .UsePath [v, p])
  | useStep {w xs v} : Writes w seg xs v → Writes w useStep (xs ++ [t DoubleColon]) v
  | useName {w ns n xs r} : Writes w word ns n → Writes w (opt rename) xs r →
      Writes w useTail (ns ++ xs) (E .UseTail_Ident [N .UseTailIdent [n, r]])
  | useSelf {w xs r} : Writes w (opt rename) xs r → Writes w useTail (t SelfIdent :: xs) (E .UseTail_Ident [N .UseTailIdent [I, r]])
  | useGlob {w} : Writes w useTail [t Asterisk] (E .UseTail_Glob [N .UseTailGlob []])
  | useMulti {w xs v} : Writes w (sep Comma usePath) xs v →
      Writes w useTail (t LeftCurly :: xs ++ [t RightCurly]) (E .UseTail_Multi [N .UseTailMulti [v]])
  | typeAlias {w xs v ys n zs g us wh vs d} : Writes w (opt vis) xs v → Writes w name ys n → Writes w (opt generics) zs g →
      Writes w wheres us wh → Writes w typ vs d →
      Writes w item (xs ++ t TK.Type :: ys ++ zs ++ us ++ t Equals :: vs ++ [t Semicolon]) (E .Item_TypeAlias [N .TypeAlias [v, n, g, wh, d]])
  | module {w xs v ys n} : Writes w (opt vis) xs v → Writes w word ys n →
      Writes w item (xs ++ t Mod :: ys ++ [t Semicolon]) (E .Item_Module [N .Module [v, n, L []]])
  | moduleBody {w xs v ys n zs b} : Writes w (opt vis) xs v → Writes w word ys n → Writes w (many attrItem) zs b →
      Writes w item (xs ++ t Mod :: ys ++ t LeftCurly :: zs ++ [t RightCurly]) (E .Item_Module [N .Module [v, n, L [b]]])
  | attrDoc {w} : Writes w attr [t DocCommentOuterLine] (E .Attribute_DocCommentLine [X])
  | attrDocBlock {w} : Writes w attr [t DocCommentOuterBlock] (E .Attribute_DocCommentBlock [X])
  | attr {w xs} : Writes w (nest LeftSquare RightSquare) xs X → Writes w attr (t Hash :: xs ++ [t RightSquare])
      (E .Attribute_Literal [N .AttributeLiteral [X]])
  | innerDoc {w} : Writes w attrItem [t DocCommentInnerLine]
      (N .AttributedItem [L [], E .Item_AttributeContaining [E .AttributeContaining_DocCommentLine [X]]])
  | innerDocBlock {w} : Writes w attrItem [t DocCommentInnerBlock]
      (N .AttributedItem [L [], E .Item_AttributeContaining [E .AttributeContaining_DocCommentBlock [X]]])
  | inner {w xs} : Writes w (nest LeftSquare RightSquare) xs X → Writes w attrItem (t Hash :: t Bang :: xs ++ [t RightSquare])
      (N .AttributedItem [L [], E .Item_AttributeContaining [E .AttributeContaining_Literal [N .AttributeContainingLiteral [X]]]])
  | itemMacro {w xs p ys n zs} : Writes w pathed xs p → Writes w (opt name) ys n → Writes w (nest LeftCurly RightCurly) zs X →
      Writes w item (xs ++ t Bang :: ys ++ zs ++ [t RightCurly]) (E .Item_MacroCall [N .MacroCall [p, n, macroArgs LeftCurly]])
  | itemMacroEnd {w o c xs p ys n zs} : (o, c) ∈ [(LeftParen, RightParen), (LeftSquare, RightSquare)] →
      Writes w pathed xs p → Writes w (opt name) ys n → Writes w (nest o c) zs X →
      Writes w item (xs ++ t Bang :: ys ++ zs ++ [t c, t Semicolon]) (E .Item_MacroCall [N .MacroCall [p, n, macroArgs o]])
  -- functions
  | selfShort {w b} : Writes w (selfArg b) (t SelfIdent :: commaIf b) (E .SelfArgument_Shorthand [N .SelfArgumentShorthand [L [], I]])
  | selfMut {w b} : Writes w (selfArg b) (t Mut :: t SelfIdent :: commaIf b)
      (E .SelfArgument_Shorthand [N .SelfArgumentShorthand [L [E .SelfArgumentShorthandQualifier_Mut [X]], I]])
  | selfRef {w b xs a ys m} : Writes w (opt lifetime) xs a → Writes w (opt (kw Mut)) ys m →
      Writes w (selfArg b) (j Ampersand :: xs ++ ys ++ t SelfIdent :: commaIf b)
        (E .SelfArgument_Shorthand [N .SelfArgumentShorthand [L [E .SelfArgumentShorthandQualifier_Reference [N .TypeReferenceKind [a, m]]], I]])
  | selfLong {w b xs m ys v} : Writes w (opt (kw Mut)) xs m → Writes w typ ys v →
      Writes w (selfArg b) (xs ++ t SelfIdent :: t Colon :: ys ++ commaIf b) (E .SelfArgument_Longhand [N .SelfArgumentLonghand [m, I, v]])
  | fnArg {w xs p ys v} : Writes w pattern xs p → Writes w typ ys v →
      Writes w fnArg (xs ++ t Colon :: ys) (E .Argument_Named [N .NamedArgument [p, v]])
  | noArgs {w} : Writes w args [t LeftParen, t RightParen] (L [])
  | args {w xs vs} : Writes w (list Comma fnArg) xs (L vs) → Writes w args (t LeftParen :: xs ++ [t RightParen]) (L vs)
  | argsSelf {w b xs v} : Writes w (selfArg b) xs v → Writes w args (t LeftParen :: xs ++ [t RightParen]) (L [E .Argument_SelfArgument [v]])
  | argsMethod {w xs v ys vs} : Writes w (selfArg true) xs v → Writes w (list Comma fnArg) ys (L vs) →
      Writes w args (t LeftParen :: xs ++ ys ++ [t RightParen]) (L (E .Argument_SelfArgument [v] :: vs))
  | traitArg {w xs p ys v} : Writes w pattern xs p → Writes w typ ys v →
      Writes w traitArg (xs ++ t Colon :: ys) (E .TraitImplArgument_Named [N .TraitImplArgumentNamed [L [p], v]])
  | noTraitArgs {w} : Writes w traitArgs [t LeftParen, t RightParen] (L [])
  | traitArgs {w xs vs} : Writes w (list Comma traitArg) xs (L vs) → Writes w traitArgs (t LeftParen :: xs ++ [t RightParen]) (L vs)
  | traitArgsSelf {w b xs v} : Writes w (selfArg b) xs v →
      Writes w traitArgs (t LeftParen :: xs ++ [t RightParen]) (L [E .TraitImplArgument_SelfArgument [v]])
  | traitArgsMethod {w xs v ys vs} : Writes w (selfArg true) xs v → Writes w (list Comma traitArg) ys (L vs) →
      Writes w traitArgs (t LeftParen :: xs ++ ys ++ [t RightParen]) (L (E .TraitImplArgument_SelfArgument [v] :: vs))
  | traitHead {w xs v qs q ys n zs g as a rs r us wh} : Writes w (opt vis) xs v → Writes w quals qs q → Writes w word ys n →
      Writes w (opt generics) zs g → Writes w traitArgs as a → Writes w (opt ret) rs r → Writes w wheres us wh →
      Writes w traitHead (xs ++ qs ++ t Fn :: ys ++ zs ++ as ++ rs ++ us) (N .TraitImplFunctionHeader [v, q, n, g, a, r, wh])
  | fnHead {w xs v qs q ys n zs g as a rs r us wh} : Writes w (opt vis) xs v → Writes w quals qs q → Writes w word ys n →
      Writes w (opt generics) zs g → Writes w args as a → Writes w (opt ret) rs r → Writes w wheres us wh →
      Writes w fnHead (xs ++ qs ++ t Fn :: ys ++ zs ++ as ++ rs ++ us) (N .FunctionHeader [v, q, n, g, a, r, wh])
  | function {w xs h ys b} : Writes w fnHead xs h → Writes w block ys b → Writes w item (xs ++ ys) (E .Item_Function [N .Function [h, b]])
  -- constants
  | const {w xs v ys n zs ty es e} : Writes w (opt vis) xs v → Writes w name ys n → Writes w typ zs ty → Writes w (expr false) es e →
      Writes w item (xs ++ t Const :: ys ++ t Colon :: zs ++ t Equals :: es ++ [t Semicolon]) (E .Item_Const [N .Const [v, n, ty, e]])
  | static {w xs v ms m ys n zs ty es e} : Writes w (opt vis) xs v → Writes w (opt (kw Mut)) ms m → Writes w name ys n →
      Writes w typ zs ty → Writes w (expr false) es e →
      Writes w item (xs ++ t Static :: ms ++ ys ++ t Colon :: zs ++ t Equals :: es ++ [t Semicolon])
        (E .Item_Static [N .Static [v, m, n, ty, e]])
  -- impls
  | impl_ {w us u gs g xs v ws wh ms m} : Writes w (opt (kw Unsafe)) us u → Writes w (opt generics) gs g →
      Writes w (Cat.but LeftAngle (Cat.but Bang typ)) xs v → Writes w wheres ws wh → Writes w (many implItem) ms m →
      Writes w item (us ++ t Impl :: gs ++ xs ++ ws ++ t LeftCurly :: ms ++ [t RightCurly])
        (E .Item_Impl [N .Impl [u, g, E .ImplKind_Inherent [N .ImplOfInherent [v]], wh, m]])
  | implTrait {w us u gs g xs v ys f ws wh ms m} : Writes w (opt (kw Unsafe)) us u → Writes w (opt generics) gs g →
      Writes w (Cat.but LeftAngle (Cat.but Bang typ)) xs v → Writes w typ ys f → Writes w wheres ws wh → Writes w (many implItem) ms m →
      Writes w item (us ++ t Impl :: gs ++ xs ++ t For :: ys ++ ws ++ t LeftCurly :: ms ++ [t RightCurly])
        (E .Item_Impl [N .Impl [u, g, E .ImplKind_Trait [N .ImplOfTrait [L [], v, E .ImplOfTraitType_Type [f]]], wh, m]])
  | implNot {w us u gs g xs v ys f ws wh ms m} : Writes w (opt (kw Unsafe)) us u → Writes w (opt generics) gs g →
      Writes w typ xs v → Writes w typ ys f → Writes w wheres ws wh → Writes w (many implItem) ms m →
      Writes w item (us ++ t Impl :: gs ++ t Bang :: xs ++ t For :: ys ++ ws ++ t LeftCurly :: ms ++ [t RightCurly])
        (E .Item_Impl [N .Impl [u, g, E .ImplKind_Trait [N .ImplOfTrait [L [X], v, E .ImplOfTraitType_Type [f]]], wh, m]])
  | implAll {w us u gs g xs v ws wh ms m} : Writes w (opt (kw Unsafe)) us u → Writes w (opt generics) gs g →
      Writes w (Cat.but LeftAngle (Cat.but Bang typ)) xs v → Writes w wheres ws wh → Writes w (many implItem) ms m →
      Writes w item (us ++ t Impl :: gs ++ xs ++ t For :: t DoublePeriod :: ws ++ t LeftCurly :: ms ++ [t RightCurly])
        (E .Item_Impl [N .Impl [u, g, E .ImplKind_Trait [N .ImplOfTrait [L [], v, E .ImplOfTraitType_Wildcard [X]]], wh, m]])
  | implMacro {w as a xs p ys n zs} : Writes w (many attr) as a → Writes w pathed xs p → Writes w (opt name) ys n →
      Writes w (nest LeftCurly RightCurly) zs X → Writes w implItem (as ++ xs ++ t Bang :: ys ++ zs ++ [t RightCurly])
        (N .AttributedImplMember [a, E .ImplMember_MacroCall [N .MacroCall [p, n, macroArgs LeftCurly]]])
  | implMacroEnd {w o c as a xs p ys n zs} : (o, c) ∈ [(LeftParen, RightParen), (LeftSquare, RightSquare)] →
      Writes w (many attr) as a → Writes w pathed xs p → Writes w (opt name) ys n → Writes w (nest o c) zs X →
      Writes w implItem (as ++ xs ++ t Bang :: ys ++ zs ++ [t c, t Semicolon])
        (N .AttributedImplMember [a, E .ImplMember_MacroCall [N .MacroCall [p, n, macroArgs o]]])
  | implConst {w as a xs v ys n zs ty es e} : Writes w (many attr) as a → Writes w (opt vis) xs v → Writes w name ys n →
      Writes w typ zs ty → Writes w (expr false) es e →
      Writes w implItem (as ++ xs ++ t Const :: ys ++ t Colon :: zs ++ t Equals :: es ++ [t Semicolon])
        (N .AttributedImplMember [a, E .ImplMember_Const [N .ImplConst [v, n, ty, e]]])
  | implFn {w as a xs h ys b} : Writes w (many attr) as a → Writes w fnHead xs h → Writes w block ys b →
      Writes w implItem (as ++ xs ++ ys) (N .AttributedImplMember [a, E .ImplMember_Function [N .ImplFunction [h, b]]])
  | implType {w as a ys n zs ty} : Writes w (many attr) as a → Writes w name ys n → Writes w typ zs ty →
      Writes w implItem (as ++ t TK.Type :: ys ++ t Equals :: zs ++ [t Semicolon])
        (N .AttributedImplMember [a, E .ImplMember_Type [N .ImplType [n, ty]]])
  -- traits
  | traitBody {w as a xs h ys b} : Writes w (many attr) as a → Writes w traitHead xs h → Writes w block ys b →
      Writes w traitItem (as ++ xs ++ ys) (N .AttributedTraitMember [a, E .TraitMember_Function [N .TraitMemberFunction [h, L [b]]]])
  | traitFn {w as a xs h} : Writes w (many attr) as a → Writes w traitHead xs h → Writes w traitItem (as ++ xs ++ [t Semicolon])
      (N .AttributedTraitMember [a, E .TraitMember_Function [N .TraitMemberFunction [h, L []]]])
  | traitType {w as a ys n zs b us d} : Writes w (many attr) as a → Writes w name ys n → Writes w (opt hasBounds) zs b →
      Writes w (opt hasDefault) us d → Writes w traitItem (as ++ t TK.Type :: ys ++ zs ++ us ++ [t Semicolon])
        (N .AttributedTraitMember [a, E .TraitMember_Type [N .TraitMemberType [n, b, d]]])
  | traitConst {w as a ys n zs v us d} : Writes w (many attr) as a → Writes w name ys n → Writes w typ zs v →
      Writes w (opt constValue) us d → Writes w traitItem (as ++ t Const :: ys ++ t Colon :: zs ++ us ++ [t Semicolon])
        (N .AttributedTraitMember [a, E .TraitMember_Const [N .TraitMemberConst [n, v, d]]])
  | traitMacro {w as a xs p ys n zs} : Writes w (many attr) as a → Writes w pathed xs p → Writes w (opt name) ys n →
      Writes w (nest LeftCurly RightCurly) zs X → Writes w traitItem (as ++ xs ++ t Bang :: ys ++ zs ++ [t RightCurly])
        (N .AttributedTraitMember [a, E .TraitMember_MacroCall [N .MacroCall [p, n, macroArgs LeftCurly]]])
  | traitMacroEnd {w o c as a xs p ys n zs} : (o, c) ∈ [(LeftParen, RightParen), (LeftSquare, RightSquare)] →
      Writes w (many attr) as a → Writes w pathed xs p → Writes w (opt name) ys n → Writes w (nest o c) zs X →
      Writes w traitItem (as ++ xs ++ t Bang :: ys ++ zs ++ [t c, t Semicolon])
        (N .AttributedTraitMember [a, E .TraitMember_MacroCall [N .MacroCall [p, n, macroArgs o]]])
  | constValue {w xs v} : Writes w (expr false) xs v → Writes w constValue (t Equals :: xs) v
  | trait {w xs v ss u ts a ys n zs g bs b us wh ms m} : Writes w (opt vis) xs v → Writes w (opt (kw Unsafe)) ss u →
      Writes w (opt (kw Auto)) ts a → Writes w name ys n → Writes w (opt generics) zs g → Writes w (opt hasBounds) bs b →
      Writes w wheres us wh → Writes w (many traitItem) ms m →
      Writes w item (xs ++ ss ++ ts ++ t Trait :: ys ++ zs ++ bs ++ us ++ t LeftCurly :: ms ++ [t RightCurly])
        (E .Item_Trait [N .Trait [v, u, a, n, g, b, wh, m]])
  -- `extern "C" { … }`
  | externBlock {w xs s ys m} : Writes w (opt str) xs s → Writes w (many externItem) ys m →
      Writes w item (t Extern :: xs ++ t LeftCurly :: ys ++ [t RightCurly]) (E .Item_ExternBlock [N .ExternBlock [s, m]])
  | externStatic {w as a xs v ms m ys n zs ty} : Writes w (many attr) as a → Writes w (opt vis) xs v → Writes w (opt (kw Mut)) ms m →
      Writes w name ys n → Writes w typ zs ty →
      Writes w externItem (as ++ xs ++ t Static :: ms ++ ys ++ t Colon :: zs ++ [t Semicolon])
        (N .AttributedExternBlockMember [a, E .ExternBlockMember_Static [N .ExternBlockMemberStatic [v, m, n, ty]]])
  | externType {w as a xs v ys n} : Writes w (many attr) as a → Writes w (opt vis) xs v → Writes w name ys n →
      Writes w externItem (as ++ xs ++ t TK.Type :: ys ++ [t Semicolon])
        (N .AttributedExternBlockMember [a, E .ExternBlockMember_Type [N .ExternBlockMemberType [v, n]]])
  | externFn {w as a xs v ys n zs g ps p rs r us wh} : Writes w (many attr) as a → Writes w (opt vis) xs v → Writes w word ys n →
      Writes w (opt generics) zs g → Writes w (sep Comma externArg) ps p → Writes w (opt ret) rs r → Writes w wheres us wh →
      Writes w externItem (as ++ xs ++ t Fn :: ys ++ zs ++ t LeftParen :: ps ++ t RightParen :: rs ++ us ++ [t Semicolon])
        (N .AttributedExternBlockMember [a, E .ExternBlockMember_Function [N .ExternBlockMemberFunction [v, n, g, p, r, wh]]])
  | externArg {w xs p ys v} : Writes w pattern xs p → Writes w typ ys v →
      Writes w externArg (xs ++ t Colon :: ys)
        (E .ExternBlockMemberFunctionArgument_Named [N .ExternBlockMemberFunctionArgumentNamed [p, v]])
  | externDots {w} : Writes w externArg [t TriplePeriod]
      (E .ExternBlockMemberFunctionArgument_Variadic [N .ExternBlockMemberFunctionArgumentVariadic []])
  -- structs and enums
  | struct {w xs v ys n zs g us wh ts b} : Writes w (opt vis) xs v → Writes w name ys n → Writes w (opt generics) zs g →
      Writes w wheres us wh → Writes w body ts b →
      Writes w item (xs ++ t Struct :: ys ++ zs ++ us ++ ts) (E .Item_Struct [N .Struct [v, n, g, wh, E .StructDefinitionBody_Brace [b]]])
  | structTuple {w xs v ys n zs g ts b us wh} : Writes w (opt vis) xs v → Writes w name ys n → Writes w (opt generics) zs g →
      Writes w (sep Comma tupleField) ts b → Writes w wheres us wh →
      Writes w item (xs ++ t Struct :: ys ++ zs ++ t LeftParen :: ts ++ t RightParen :: us ++ [t Semicolon])
        (E .Item_Struct [N .Struct [v, n, g, wh, E .StructDefinitionBody_Tuple [N .StructDefinitionBodyTuple [b]]]])
  | structUnit {w xs v ys n zs g} : Writes w (opt vis) xs v → Writes w name ys n → Writes w (opt generics) zs g →
      Writes w item (xs ++ t Struct :: ys ++ zs ++ [t Semicolon])
        (E .Item_Struct [N .Struct [v, n, g, L [], E .StructDefinitionBody_Empty [X]]])
  | body {w xs v} : Writes w (sep Comma field) xs v →
      Writes w body (t LeftCurly :: xs ++ [t RightCurly]) (N .StructDefinitionBodyBrace [v])
  | field {w as a xs v ys n zs ty} : Writes w (many attr) as a → Writes w (opt vis) xs v → Writes w word ys n → Writes w typ zs ty →
      Writes w field (as ++ xs ++ ys ++ t Colon :: zs)
        (N .AttributedStructDefinitionFieldNamed [a, N .StructDefinitionFieldNamed [v, n, ty]])
  -- `crate` would be taken for the visibility
  | tupleField {w as a xs ty} : Writes w (many attr) as a → Writes w (Cat.but Crate typ) xs ty →
      Writes w tupleField (as ++ xs) (N .AttributedStructDefinitionFieldUnnamed [a, N .StructDefinitionFieldUnnamed [L [], ty]])
  | tupleFieldVis {w as a xs v ys ty} : Writes w (many attr) as a → Writes w vis xs v → Writes w (Cat.but LeftParen typ) ys ty →
      Writes w tupleField (as ++ xs ++ ys)
        (N .AttributedStructDefinitionFieldUnnamed [a, N .StructDefinitionFieldUnnamed [L [v], ty]])
  | union {w xs v ys n zs g us wh ts b} : Writes w (opt vis) xs v → Writes w name ys n → Writes w (opt generics) zs g →
      Writes w wheres us wh → Writes w (sep Comma field) ts b →
      Writes w item (xs ++ t Union :: ys ++ zs ++ us ++ t LeftCurly :: ts ++ [t RightCurly]) (E .Item_Union [N .Union [v, n, g, wh, b]])
  | enum {w xs v ys n zs g us wh ts b} : Writes w (opt vis) xs v → Writes w name ys n → Writes w (opt generics) zs g →
      Writes w wheres us wh → Writes w (sep Comma variant) ts b →
      Writes w item (xs ++ t Enum :: ys ++ zs ++ us ++ t LeftCurly :: ts ++ [t RightCurly]) (E .Item_Enum [N .Enum [v, n, g, wh, b]])
  | variantUnit {w as a xs n ys d} : Writes w (many attr) as a → Writes w name xs n → Writes w (opt discriminant) ys d →
      Writes w variant (as ++ xs ++ ys) (N .AttributedEnumVariant [a, N .EnumVariant [n, E .EnumVariantBody_Unit [d]]])
  | discriminant {w xs v} : Writes w (expr false) xs v → Writes w discriminant (t Equals :: xs) v
  | variantTuple {w as a xs n ys b} : Writes w (many attr) as a → Writes w name xs n → Writes w (sep Comma tupleField) ys b →
      Writes w variant (as ++ xs ++ t LeftParen :: ys ++ [t RightParen])
        (N .AttributedEnumVariant [a, N .EnumVariant [n, E .EnumVariantBody_Tuple [b]]])
  | variantStruct {w as a xs n ys b} : Writes w (many attr) as a → Writes w name xs n → Writes w body ys b →
      Writes w variant (as ++ xs ++ ys) (N .AttributedEnumVariant [a, N .EnumVariant [n, E .EnumVariantBody_Struct [b]]])
  -- expressions without operators
  | atomChar {w} : Writes w (atom .plain) [t Character] (E .Expression_Character [N .Character [X]])
  | atomStr {w xs v} : Writes w str xs v → Writes w (atom .plain) xs (E .Expression_String [v])
  | atomByte {w} : Writes w (atom .plain) [t Byte] (E .Expression_Byte [N .Byte [N .Character [X]]])
  | atomBytes {w} : Writes w (atom .plain) [t ByteString] (E .Expression_ByteString [N .ByteString [N .String [X]]])
  | atomBytesRaw {w} : Writes w (atom .plain) [t ByteStringRaw] (E .Expression_ByteString [N .ByteString [N .String [X]]])
  | atomNum {w n} : Writes w (atom .plain) [num n] (E .Expression_Number [numberTree n])
  | value {w xs p} : Writes w pathed xs p → Writes w (atom .plain) xs (E .Expression_Value [N .Value [p, L []]])
  -- in the head of an `if` these are not allowed
  | structLit {xs p ys f} : Writes .free pathed xs p → Writes .free (sep Comma litField) ys f →
      Writes .free (atom .plain) (xs ++ t LeftCurly :: ys ++ [t RightCurly]) (E .Expression_Value [N .Value [p, L [N .StructLiteral [f, L []]]]])
  | structLitRest {xs p ys f zs e} : Writes .free pathed xs p → Writes .free (each Comma litField) ys f → Writes .free (expr false) zs e →
      Writes .free (atom .plain) (xs ++ t LeftCurly :: ys ++ t DoublePeriod :: zs ++ [t RightCurly])
        (E .Expression_Value [N .Value [p, L [N .StructLiteral [f, L [e]]]]])
  | litField {ns n xs v} : Writes .free word ns n → Writes .free (expr false) xs v →
      Writes .free litField (ns ++ t Colon :: xs) (N .StructLiteralField [n, v])
  | litShort {k} : k ∈ [Ident, Default, Union] → Writes .free litField [t k]
      (N .StructLiteralField [I, A [] (E .Expression_Value [N .Value [N .PathedIdent [L [N .PathComponent [I, L []]]], L []]])])
  | macroCall {w o c xs p ys n zs} : (o, c) ∈ [(LeftParen, RightParen), (LeftSquare, RightSquare)] →
      Writes w pathed xs p → Writes w (opt name) ys n → Writes w (nest o c) zs X →
      Writes w (atom .mac) (xs ++ t Bang :: ys ++ zs ++ [t c]) (E .Expression_MacroCall [N .MacroCall [p, n, macroArgs o]])
  | macroBlock {w xs p ys n zs} : Writes w pathed xs p → Writes w (opt name) ys n → Writes w (nest LeftCurly RightCurly) zs X →
      Writes w (atom .curly) (xs ++ t Bang :: ys ++ zs ++ [t RightCurly]) (E .Expression_MacroCall [N .MacroCall [p, n, macroArgs LeftCurly]])
  | qpath {w xs v ys a zs p} : Writes w typ xs v → Writes w (opt Cat.as) ys a → Writes w (Cat.more DoubleColon pcomp pcomp) zs p →
      Writes w (atom .plain) (j LeftAngle :: xs ++ ys ++ j RightAngle :: zs) (E .Expression_Disambiguation [N .Disambiguation [v, a, p]])
  | paren {w xs v} : Writes .free (expr false) xs v →
      Writes w (atom .plain) (t LeftParen :: xs ++ [t RightParen]) (E .Expression_Parenthetical [N .Parenthetical [v]])
  | unit {w} : Writes w (atom .plain) [t LeftParen, t RightParen] (E .Expression_Tuple [N .Tuple [L []]])
  | tupleE {w xs v} : Writes .free tupleItems xs (E .Expression_Tuple [v]) →
      Writes w (atom .plain) (t LeftParen :: xs ++ [t RightParen]) (E .Expression_Tuple [N .Tuple [v]])
  | tupleItems {xs v ys vs} : Writes .free (expr false) xs v → Writes .free (sep Comma (expr false)) ys (L vs) →
      Writes .free tupleItems (xs ++ t Comma :: ys) (E .Expression_Tuple [L (v :: vs)])
  | array {w xs v} : Writes .free (sep Comma (expr false)) xs v →
      Writes w (atom .plain) (t LeftSquare :: xs ++ [t RightSquare]) (E .Expression_Array [E .Array_Explicit [N .ArrayExplicit [v]]])
  | arrayRepeat {w xs v ys n} : Writes .free (expr false) xs v → Writes w (expr false) ys n →
      Writes w (atom .plain) (t LeftSquare :: xs ++ t Semicolon :: ys ++ [t RightSquare])
        (E .Expression_Array [E .Array_Repeated [N .ArrayRepeated [v, n]]])
  | «continue» {w xs l} : Writes w (opt lifetime) xs l → Writes w (atom .plain) (t Continue :: xs) (E .Expression_Continue [N .Continue [l]])
  | asyncBlock {w ms m xs b} : Writes w (opt (kw Move)) ms m → Writes w block xs b →
      Writes w (atom .plain) (t Async :: ms ++ xs) (E .Expression_AsyncBlock [N .AsyncBlock [b, m]])
  | closureTyped {w ss a ms m as ps rs r xs b e} : w ≠ .bound → Writes w (opt (kw Async)) ss a → Writes w (opt (kw Move)) ms m →
      Writes w (sep Comma closureArg) as ps → Writes w typ rs r → Writes w block xs (N .Block [b, e]) →
      Writes w (atom .plain) (ss ++ ms ++ j Pipe :: as ++ j Pipe :: t ThinArrow :: rs ++ xs)
        (E .Expression_Closure [N .Closure [a, m, ps, L [r], A [] (E .Expression_Block [N .Block [b, e]])]])
  | closureArg {w xs p ys ty} : Writes w pattern xs p → Writes w (opt argType) ys ty → Writes w closureArg (xs ++ ys) (N .ClosureArg [p, ty])
  | argType {w xs v} : Writes w typ xs v → Writes w argType (t Colon :: xs) v
  | letType {w xs v} : Writes w typ xs v → Writes w letType (t Colon :: xs) v
  | if_ {w xs v} : Writes w ifE xs v → Writes w (atom .brace) xs (E .Expression_If [v])
  | ifOnly {w xs c ys b} : Writes .head (expr false) xs c → Writes w block ys b → Writes w ifE (t If :: xs ++ ys) (N .If [c, b, L [], L []])
  | ifElse {w xs c ys b zs e} : Writes .head (expr false) xs c → Writes w block ys b → Writes w block zs e →
      Writes w ifE (t If :: xs ++ ys ++ t Else :: zs) (N .If [c, b, L [], L [e]])
  | ifElseIf {w xs c ys b zs e} : Writes .head (expr false) xs c → Writes w block ys b → Writes w ifE zs e →
      Writes w ifE (t If :: xs ++ ys ++ t Else :: zs) (N .If [c, b, L [e], L []])
  | label {w} : Writes w label [t Lifetime, t Colon] (N .Lifetime [I])
  | forLoop {w ls l xs p ys e zs b} : Writes w (opt label) ls l → Writes w pattern xs p → Writes .head (expr false) ys e → Writes w block zs b →
      Writes w (atom .brace) (ls ++ t For :: xs ++ t In :: ys ++ zs) (E .Expression_ForLoop [N .ForLoop [l, p, e, b]])
  | loop {w ls l xs b} : Writes w (opt label) ls l → Writes w block xs b →
      Writes w (atom .brace) (ls ++ t Loop :: xs) (E .Expression_Loop [N .Loop [l, b]])
  | whileLoop {w ls l xs e ys b} : Writes w (opt label) ls l → Writes .head (expr false) xs e → Writes w block ys b →
      Writes w (atom .brace) (ls ++ t While :: xs ++ ys) (E .Expression_While [N .While [l, e, b]])
  | match_ {w xs e ys a} : Writes .head (expr false) xs e → Writes w arms ys a →
      Writes w (atom .brace) (t Match :: xs ++ t LeftCurly :: ys ++ [t RightCurly]) (E .Expression_Match [N .Match [e, a]])
  | armsNil {w} : Writes w arms [] (L [])
  | armsOne {w b xs v} : Writes w (arm b) xs v → Writes w arms xs (L [v])
  | armsComma {w b xs v ys vs} : Writes w (arm b) xs v → Writes w arms ys (L vs) → Writes w arms (xs ++ t Comma :: ys) (L (v :: vs))
  | armsBrace {w xs v ys vs} : Writes w (arm true) xs v → Writes w arms ys (L vs) → Writes w arms (xs ++ ys) (L (v :: vs))
  | guard {w xs v} : Writes .free (expr false) xs v → Writes w guard (t If :: xs) v
  | armBlock {w as a ps p gs g xs b e} : Writes w (many attr) as a → Writes w (sep1 Pipe pattern pattern) ps p → Writes w (opt guard) gs g →
      Writes .free block xs (N .Block [b, e]) → Writes w (arm true) (as ++ ps ++ gs ++ t ThickArrow :: xs)
        (N .MatchArm [a, p, g, E .MatchHand_Brace [A [] (E .Expression_Block [N .Block [b, e]])]])
  | armExpr {w as a ps p gs g xs e} : Writes w (many attr) as a → Writes w (sep1 Pipe pattern pattern) ps p → Writes w (opt guard) gs g →
      Writes .free (Cat.but LeftCurly (expr false)) xs e → Writes w (arm false) (as ++ ps ++ gs ++ t ThickArrow :: xs)
        (N .MatchArm [a, p, g, E .MatchHand_Expression [e]])
  | unsafeBlock {w xs b} : Writes w block xs b → Writes w (atom .brace) (t Unsafe :: xs) (E .Expression_UnsafeBlock [N .UnsafeBlock [b]])
  | blockE {w xs b} : w ≠ .bound → Writes w block xs b → Writes w (atom .brace) xs (E .Expression_Block [b])
  -- expressions that go on as far as possible
  | closure {w ss a ms m as ps xs e} : Writes w (opt (kw Async)) ss a → Writes w (opt (kw Move)) ms m →
      Writes w (sep Comma closureArg) as ps → Writes w (expr false) xs e →
      Writes w opn (ss ++ ms ++ j Pipe :: as ++ j Pipe :: xs) (E .Expression_Closure [N .Closure [a, m, ps, L [], e]])
  | return_ {w xs v} : Writes w (expr false) xs v → Writes w opn (t Return :: xs) (E .Expression_Return [N .Return [L [v]]])
  | returnNone : Writes .free opn [t Return] (E .Expression_Return [N .Return [L []]])
  | break_ {w xs v} : Writes w (Cat.but Lifetime (expr false)) xs v → Writes w opn (t Break :: xs) (E .Expression_Break [N .Break [L [], L [v]]])
  | breakLabel {w xs l ys v} : Writes w lifetime xs l → Writes w (expr false) ys v →
      Writes w opn (t Break :: xs ++ ys) (E .Expression_Break [N .Break [L [l], L [v]]])
  | breakNone {xs l} : Writes .free (opt lifetime) xs l → Writes .free opn (t Break :: xs) (E .Expression_Break [N .Break [l, L []]])
  | let_ {w ps p ts ty xs v} : Writes w pattern ps p → Writes w (opt letType) ts ty → Writes w (expr false) xs v →
      Writes w opn (t Let :: ps ++ ts ++ t Equals :: xs) (E .Expression_Let [N .Let [p, ty, L [v]]])
  | letNone {ps p ts ty} : Writes .free pattern ps p → Writes .free (opt letType) ts ty →
      Writes .free opn (t Let :: ps ++ ts) (E .Expression_Let [N .Let [p, ty, L []]])
  -- operators; all of them bind alike
  | operandAtom {w u q as a xs v} : Writes (w.first u) (many attr) as (L a) → Writes (w.first u) (atom q) xs v →
      Writes w (operand u q) (as ++ xs) (A a v)
  | operandPre {w u q as a xs v} (p : Pre) : Writes (w.first u) (many attr) as (L a) → Writes w (operand false q) xs v →
      Writes w (operand u .plain) (as ++ (p.symbols ++ xs)) (A a (p.tree v))
  | openAtom {w u as a xs v} : Writes (w.first u) (many attr) as (L a) → Writes (w.first u) opn xs v →
      Writes w (openOperand u) (as ++ xs) (A a v)
  | openPre {w u as a xs v} (p : Pre) : Writes (w.first u) (many attr) as (L a) → Writes w (openOperand false) xs v →
      Writes w (openOperand u) (as ++ (p.symbols ++ xs)) (A a (p.tree v))
  | dots {as a} (o : RangeOp) : Writes .free (many attr) as (L a) → Writes .free dots (as ++ [t o.symbol]) (A a (o.tree [] []))
  | dotsPre {as a xs v} (p : Pre) : Writes .free (many attr) as (L a) → Writes .free dots xs v →
      Writes .free dots (as ++ (p.symbols ++ xs)) (A a (p.tree v))
  | left {w s q xs v} : Writes w (operand false q) xs v → (s && q.ends) = false → Writes w (left s q.ending) xs v
  | binary {w s f q k tag xs a ys b} : Writes w (left s f) xs a → binOp k = Option.some tag → k ∉ f.bars → Writes w (operand false q) ys b →
      Writes w (left s .plain) (xs ++ t k :: ys) (A [] (E .Expression_Binary [N .Binary [E tag [], a, b]]))
  | range {w s f q xs a ys b} (o : RangeOp) : Writes w (left s f) xs a → Writes w (operand true q) ys b →
      Writes w (left s .plain) (xs ++ t o.symbol :: ys) (A [] (o.tree [a] [b]))
  | access {w s f xs a ys b} : Writes w (left s f) xs a → Writes w pcomp ys b →
      Writes w (left s .plain) (xs ++ t Period :: ys) (A [] (E .Expression_FieldAccess [N .FieldAccess [a, E .FieldName_Path [b]]]))
  | index {w s f xs a n} : Writes w (left s f) xs a → n.intoSimple.isSome = true →
      Writes w (left s .plain) (xs ++ [t Period, num n]) (A [] (E .Expression_FieldAccess [N .FieldAccess [a, E .FieldName_Number [X]]]))
  | call {w s f xs a ys b} : Writes w (left s f) xs a → LeftParen ∉ f.bars → Writes .free (sep Comma (expr false)) ys b →
      Writes w (left s .plain) (xs ++ t LeftParen :: ys ++ [t RightParen]) (A [] (E .Expression_Call [N .Call [a, b]]))
  | subscript {w s f xs a ys b} : Writes w (left s f) xs a → Writes .free (expr false) ys b →
      Writes w (left s .plain) (xs ++ t LeftSquare :: ys ++ [t RightSquare]) (A [] (E .Expression_Slice [N .Slice [a, b]]))
  | try_ {w s f xs a} : Writes w (left s f) xs a →
      Writes w (left s .plain) (xs ++ [t QuestionMark]) (A [] (E .Expression_TryOperator [N .TryOperator [a]]))
  | cast {w s f xs a ys b} : Writes w (left s f) xs a → Writes w typ1 ys b →
      Writes w (left s .cast) (xs ++ t As :: ys) (A [] (E .Expression_AsType [N .AsType [a, b]]))
  | castF {w s f xs a ys b} : Writes w (left s f) xs a → Writes w typ1F ys b →
      Writes w (left s .typed) (xs ++ t As :: ys) (A [] (E .Expression_AsType [N .AsType [a, b]]))
  | ascription {w s f xs a ys b} : Writes w (left s f) xs a → Writes w typ ys b →
      Writes w (left s .typed) (xs ++ t Colon :: ys) (A [] (E .Expression_Ascription [N .Ascription [a, b]]))
  -- at the beginning of a statement, only these continue an expression that ends with a brace
  | braceField {w as a xs v ys b} : Writes w (many attr) as (L a) → Writes w (atom .brace) xs v → Writes w pcomp ys b →
      Writes w (left true .plain) (as ++ xs ++ t Period :: ys) (A [] (E .Expression_FieldAccess [N .FieldAccess [A a v, E .FieldName_Path [b]]]))
  | braceTry {w as a xs v} : Writes w (many attr) as (L a) → Writes w (atom .brace) xs v →
      Writes w (left true .plain) (as ++ xs ++ [t QuestionMark]) (A [] (E .Expression_TryOperator [N .TryOperator [A a v]]))
  | expr {w s f xs v} : Writes w (left s f) xs v → (s = true → f ≠ .mac) → Writes w (expr s) xs v
  | exprOpen {w s xs v} : Writes w (openOperand false) xs v → Writes w (expr s) xs v
  | exprBinary {w s f k tag xs a ys b} : Writes w (left s f) xs a → binOp k = Option.some tag → k ∉ f.bars → Writes w (openOperand false) ys b →
      Writes w (expr s) (xs ++ t k :: ys) (A [] (E .Expression_Binary [N .Binary [E tag [], a, b]]))
  | exprRange {w s f xs a ys b} (o : RangeOp) : Writes w (left s f) xs a → Writes w (openOperand true) ys b →
      Writes w (expr s) (xs ++ t o.symbol :: ys) (A [] (o.tree [a] [b]))
  | exprFrom {w s f xs a} (o : RangeOp) : Writes w (left s f) xs a → Writes w (expr s) (xs ++ [t o.symbol]) (A [] (o.tree [a] []))
  | exprDots {s xs v} : Writes .free dots xs v → Writes .free (expr s) xs v
  -- statements
  | last {w xs v} : Writes w (expr true) xs v → Writes w last xs v
  | lastMacro {w xs v} : Writes w (left true .mac) xs v → Writes w last xs v
  | brc {w as a xs v} : Writes w (many attr) as (L a) → Writes w (atom .brace) xs v → Writes w brc (as ++ xs) (A a v)
  | stmtsNil {w} : Writes w (stmts Option.none) [] (L [])
  | stmtsExpr {w b xs v ys vs} : Writes w (expr true) xs v → Writes w (stmts b) ys (L vs) →
      Writes w (stmts (b.or (Option.some true))) (xs ++ t Semicolon :: ys) (L (E .Statement_Expression [v] :: vs))
  | stmtsBrace {w b xs v ys vs} : Writes w brc xs v → Writes w (Cat.but Semicolon (stmts b)) ys (L vs) →
      Writes w (stmts (b.or (Option.some false))) (xs ++ ys) (L (E .Statement_Expression [v] :: vs))
  | stmtsBraceEnd {w b xs v ys vs} : Writes w brc xs v → Writes w (stmts b) ys (L vs) →
      Writes w (stmts (b.or (Option.some true))) (xs ++ t Semicolon :: ys) (L (E .Statement_Expression [v] :: vs))
  | stmtsItem {w b xs v ys vs} : Writes w attrItem xs v → Writes w (Cat.but Semicolon (stmts b)) ys (L vs) →
      Writes w (stmts (b.or (Option.some false))) (xs ++ ys) (L (E .Statement_Item [v] :: vs))
  | stmtsItemEnd {w b xs v ys vs} : Writes w attrItem xs v → Writes w (stmts b) ys (L vs) →
      Writes w (stmts (b.or (Option.some true))) (xs ++ t Semicolon :: ys) (L (E .Statement_Item [v] :: vs))
  | stmtsEmpty {w b ys vs} : Writes w (stmts b) ys (L vs) →
      Writes w (stmts (b.or (Option.some true))) (t Semicolon :: ys) (L (E .Statement_Empty [X] :: vs))
  | block {w b xs vs} : Writes w (stmts b) xs (L vs) → b ≠ Option.some false →
      Writes w block (t LeftCurly :: xs ++ [t RightCurly]) (N .Block [L vs, L []])
  | blockItem {w b xs vs ys v} : Writes w (stmts b) xs (L vs) → Writes w attrItem ys v →
      Writes w block (t LeftCurly :: xs ++ ys ++ [t RightCurly]) (N .Block [L (vs ++ [E .Statement_Item [v]]), L []])
  -- the last expression is the value of the block, but not if the statement before it ended with `;`
  | blockBrace {w b xs vs ys v} : Writes w (stmts b) xs (L vs) → Writes w brc ys v →
      Writes w block (t LeftCurly :: xs ++ ys ++ [t RightCurly]) (N .Block [L vs, L [v]])
  | blockValue {w b xs vs ys v} : Writes w (stmts b) xs (L vs) → b ≠ Option.some true → Writes w last ys v →
      Writes w block (t LeftCurly :: xs ++ ys ++ [t RightCurly]) (N .Block [L vs, L [v]])
  | blockLast {w xs vs ys v} : Writes w (stmts (Option.some true)) xs (L vs) → Writes w last ys v →
      Writes w block (t LeftCurly :: xs ++ ys ++ [t RightCurly]) (N .Block [L (vs ++ [E .Statement_Expression [v]]), L []])

end Verif.Spec.Core
