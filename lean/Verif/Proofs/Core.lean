import Verif.Spec.Core
import Verif.Proofs.Nested
import Verif.Proofs.Yard
/-!
# What is written by the grammar is read by the parser
-/

namespace Verif
open Spec Spec.Core

/-- The level of ambiguity of the parser. -/
def _root_.Verif.Spec.Core.Place.amb : Place → Amb
  | .free => .Unambiguous
  | .head => .OnlyStructLiterals
  | .bound => .Maximum

/-- All kinds of tokens. -/
def TK.all : List TK :=
  [.LeftAngle, .LeftCurly, .LeftParen, .LeftSquare, .RightAngle, .RightCurly, .RightParen, .RightSquare, .Ampersand,
   .AmpersandEquals, .Asterisk, .At, .Backslash, .Bang, .Caret, .CaretEquals, .Colon, .Comma, .DivideEquals, .Dollar,
   .DoubleAmpersand, .DoubleColon, .DoubleEquals, .DoubleLeftAngle, .DoublePeriod, .DoublePeriodEquals, .DoublePipe,
   .DoubleRightAngle, .Equals, .GreaterThanOrEquals, .Hash, .LessThanOrEquals, .Minus, .MinusEquals, .NotEqual, .Percent,
   .PercentEquals, .Period, .Pipe, .PipeEquals, .Plus, .PlusEquals, .QuestionMark, .Semicolon, .ShiftLeftEquals,
   .ShiftRightEquals, .Slash, .ThickArrow, .ThinArrow, .Tilde, .TimesEquals, .TriplePeriod, .As, .Async, .Auto, .Box,
   .Break, .Const, .Continue, .Crate, .Default, .Dyn, .Else, .Enum, .Extern, .Fn, .For, .If, .Impl, .In, .Let, .Loop,
   .Match, .Mod, .Move, .Mut, .Pub, .Ref, .Return, .SelfIdent, .Static, .Struct, .Trait, .Type, .Union, .Unsafe, .Use,
   .Where, .While, .Character, .String, .StringRaw, .Byte, .ByteString, .ByteStringRaw, .Ident, .Whitespace, .CommentLine,
   .CommentBlock, .DocCommentOuterLine, .DocCommentInnerLine, .DocCommentOuterBlock, .DocCommentInnerBlock, .Lifetime,
   .EndOfFile]

theorem TK.mem_all (k : TK) : k ∈ TK.all := by cases k <;> decide +kernel

namespace CoreP
open Cat TK

/-- Anything but these. -/
def allBut (ks : List (Option TK)) : List (Option TK) := (Option.none :: TK.all.map Option.some).filter fun k => !ks.contains k

/-- The parser. -/
def gOf : Cat → G
  | .opt c => .opt (gOf c)
  | .sep k c => .tailedValues (.tok k) (gOf c)
  | .each k c => .tailedValues (.tok k) (gOf c)
  | .some k c => .tailed1Values (.tok k) (gOf c)
  | .list k c => .tailedValues (.tok k) (gOf c)
  | .sep1 k _ d => .tailed1Values (.tok k) (gOf d)
  | .tail k _ d => .tailedValues (.tok k) (gOf d)
  | .more k _ d => .resume (.tok k) (gOf d)
  | .many c => .many (gOf c)
  | .but _ c => gOf c
  | .kw k => .ext (.tok k)
  | .name | .word => .r .ident
  | .seg => .r .path_member
  | .lifetime => .r .lifetime
  | .str => .r .string_literal
  | .vis => .r .visibility
  | .nest o c => .nested o c
  | .pcomp => .r .path_component
  | .turbo => .r .turbofish
  | .pathed => .r .pathed_ident
  | .pattern => .r .pattern
  | .patKind => .r .pattern_kind
  | .patName => .r .pattern_name
  | .patEnd => .r .pattern_range_component
  | .patTuple => .r .pattern_tuple
  | .tupleMember => .r .pattern_tuple_member
  | .sliceMember => .r .pattern_slice_member
  | .patField => .r .pattern_struct_field
  | .selfArg _ => .r .self_argument
  | .fnArg => .r .function_argument
  | .args => .r .function_arglist
  | .traitArg => .r .trait_impl_function_argument
  | .traitArgs => .r .trait_impl_function_arglist
  | .traitHead => .r .trait_impl_function_header
  | .traitItem => .attributed .AttributedTraitMember (.r .trait_impl_member)
  | .externArg => .r .extern_block_function_argument
  | .externItem => .attributed .AttributedExternBlockMember (.r .extern_block_member)
  | .typ => .r .typ
  | .typ1 => .r .typ_single
  | .also | .alsoF => .r .typ_additional
  | .kind | .kindB => .r .typ_kind
  | .named | .namedF => .r .typ_named
  | .comp | .compF => .r .typ_named_component
  | .angle => .r .typ_generics
  | .member => .r .typ_generics_angle_member
  | .ret => .r .function_return_type
  | .as => .r .disambiguation_core_to_type
  | .argName => .r .typ_function_argument_name
  | .fnTypeArg => .r .typ_function_argument
  | .lifes => .r .higher_ranked_trait_bounds
  | .quals => .r .function_qualifiers
  | .bounds => .r .trait_bounds
  | .bound | .boundF => .r .trait_bound
  | .hasBounds => .r .generic_declaration_type_bounds
  | .hasDefault => .r .generic_declaration_type_default
  | .outlives => .r .generic_declaration_lifetime_bounds
  | .generics => .r .generic_declarations
  | .genLife => .attributed .AttributedGenericDeclarationLifetime (.r .generic_declaration_lifetime)
  | .genType => .attributed .AttributedGenericDeclarationType (.r .generic_declaration_type)
  | .genConst => .attributed .AttributedGenericDeclarationConst (.r .generic_declaration_const)
  | .wheres => .wheres
  | .whereItem => .r .where_clause_item
  | .attr => .r .attribute
  | .item => .r .item
  | .attrItem => .attributed .AttributedItem (.r .item)
  | .rename => .r .use_tail_ident_rename
  | .useStep => .r .use_path_component
  | .useTail => .r .use_tail
  | .usePath => .r .use_path
  | .field => .attributed .AttributedStructDefinitionFieldNamed (.r .struct_defn_field)
  | .tupleField => .attributed .AttributedStructDefinitionFieldUnnamed (.r .tuple_defn_field)
  | .variant => .attributed .AttributedEnumVariant (.r .enum_variant)
  | .body => .r .struct_defn_body_brace_only
  | .typ1F => .r .typ_single
  | .fnHead => .r .function_header
  | .implItem => .attributed .AttributedImplMember (.r .impl_member)
  | .constValue => .r .trait_member_const_value
  | .discriminant => .r .enum_discriminant
  | .atom _ | .opn => .r .expression_atom
  | .expr s => .r (exprRule s)
  | .litField => .r .expr_value_struct_literal_field
  | .tupleItems => .tailed .paren .comma (.r .expression)
  | .closureArg => .r .expr_closure_arg
  | .argType => .r .expr_closure_arg_type
  | .label => .r .loop_label
  | .ifE => .r .expr_if
  | .guard => .r .match_arm_guard
  | .arm _ => .r .match_arm
  | .arms => .implTailed .values .matchArm .comma (.r .match_arm)
  | .letType => .r .expr_let_type
  | .last | .brc => .r .statement_expression
  | .block => .r .block
  | .operand .. | .openOperand _ | .dots | .left .. | .stmts _ => .eps

/-- What a pattern can begin with. -/
def patFirst : List (Option TK) :=
  none :: [Character, Byte, ByteString, ByteStringRaw, String, StringRaw, Minus, Ident, Default, Union, Crate, DoubleColon, Ref, Mut, Ampersand, LeftParen, LeftSquare, Box].map Option.some

def pathFirst : List (Option TK) := [Ident, Default, Union, SelfIdent, Crate, DoubleColon].map Option.some

/-- What an expression without operators can begin with. -/
def atomFirst : Kin → List (Option TK)
  | .plain => none :: ([LeftParen, LeftSquare, Character, String, StringRaw, Byte, ByteString, ByteStringRaw, LeftAngle, Continue, Async,
      Pipe, Move].map Option.some ++ pathFirst)
  | .brace => [If, For, While, Loop, Match, Unsafe, LeftCurly, Lifetime].map Option.some
  | .mac | .curly => pathFirst

def opnFirst : List (Option TK) := [Async, Pipe, Move, Return, Break, Let].map Option.some

/-- What an expression can begin with. -/
def exprFirst : List (Option TK) :=
  atomFirst .plain ++ atomFirst .brace ++ opnFirst ++ NT.first .attribute ++
    [Box, Asterisk, Bang, Minus, Ampersand, DoublePeriod, DoublePeriodEquals, TriplePeriod].map Option.some

/-- What a statement can begin with. -/
def stmtFirst : List (Option TK) := exprFirst ++ NT.first .attribute ++ Option.some Semicolon ::
  (NT.first .item).filter fun k => !((NT.first .attribute).contains k)

/-- What it can begin with. -/
def firstOf : Cat → List (Option TK)
  | .opt c | .sep _ c | .each _ c | .some _ c | .list _ c | .many c => firstOf c
  | .pcomp => [Ident, Default, Union, SelfIdent, Crate].map Option.some
  | .pathed => [Ident, Default, Union, SelfIdent, Crate, DoubleColon].map Option.some
  | .patName => [Ref, Mut, Ident].map Option.some
  | .patEnd => none :: [Character, Byte, Minus, Ident, Default, Union, Crate, DoubleColon].map Option.some
  | .pattern | .patKind | .fnArg | .traitArg => patFirst
  | .tupleMember | .sliceMember => Option.some DoublePeriod :: patFirst
  | .externArg => Option.some TriplePeriod :: patFirst
  | .patField => [Ref, Mut, Ident, Default, Union].map Option.some
  | .sep1 _ c d | .tail _ c d => firstOf c ++ firstOf d
  | .more k _ _ => [Option.some k]
  | .but k c => (firstOf c).filter (· != Option.some k)
  | .vis => [Option.some Pub]
  | .name => [Option.some Ident]
  | .word => [Ident, Default, Union].map Option.some
  | .seg => [Ident, Default, Union, SelfIdent, Crate].map Option.some
  | .comp | .compF => [Ident, Default, Union, SelfIdent, Crate].map Option.some
  | .named | .namedF => [Ident, Default, Union, SelfIdent, Crate, DoubleColon].map Option.some
  | .kindB => [Ident, Default, Union, SelfIdent, Crate, DoubleColon, Dyn, TK.Impl].map Option.some
  | .quals => [Default, Const, Unsafe, Async, Extern].map Option.some
  | .genLife => [Option.some Lifetime]
  | .genType => [Option.some Ident]
  | .genConst => [Option.some Const]
  | .item => (NT.first .item).filter fun k => !((NT.first .attribute).contains k)
  | .fnHead => [Pub, Default, Const, Unsafe, Async, Extern, TK.Fn].map Option.some
  | .atom q => atomFirst q
  | .opn => opnFirst
  | .expr _ | .tupleItems | .last | .operand .. | .openOperand _ | .dots | .left .. => exprFirst
  | .litField => [Ident, Default, Union].map Option.some
  | .closureArg => patFirst
  | .arm _ | .arms => NT.first .attribute ++ patFirst
  | .brc => NT.first .attribute ++ atomFirst .brace
  | .stmts _ => stmtFirst
  | c => (gOf c).first NT.first

/-- Whether it may be nothing. -/
def nullOf : Cat → Bool
  | .opt _ | .sep .. | .each .. | .many _ | .more .. | .wheres | .quals | .arms | .stmts _ => true
  | .but _ c => nullOf c
  | _ => false

/-- What comes after `default`. -/
def fnWords : List (Option TK) := [Const, Unsafe, Async, Extern, TK.Fn].map Option.some
/-- What continues a type. -/
def afterNamed : List (Option TK) := [LeftAngle, LeftParen, DoubleColon].map Option.some ++ fnWords
/-- What continues a pattern. -/
def afterPat : List (Option TK) := [DoubleColon, DoublePeriod, TriplePeriod, DoublePeriodEquals, LeftCurly, Bang, LeftParen, TK.At].map Option.some
def afterTyp : List (Option TK) := [LeftAngle, LeftParen, ThinArrow, Plus, DoubleColon].map Option.some ++ fnWords

/-- What begins items, after their visibility. -/
def itemWords : List (Option TK) :=
  [Const, Extern, Default, Unsafe, Async, TK.Fn, Mod, Enum, Static, Struct, Auto, Trait, Union, Use, TK.Type].map Option.some

/-- What comes after an expression. -/
def closers : Place → List (Option TK)
  | .free => [RightParen, RightSquare, RightCurly, Comma, Semicolon, ThickArrow].map Option.some
  | _ => [RightParen, RightSquare, RightCurly, Comma, Semicolon, ThickArrow, LeftCurly].map Option.some

def exprBad (w : Place) : List (Option TK) := allBut (closers w)

/-- What continues an expression without operators. -/
def plainBad (w : Place) : List (Option TK) :=
  (if w = .free then [Option.some LeftCurly] else []) ++ [DoubleColon, Bang, Else, Lifetime, Ident, SelfIdent, Dyn].map Option.some ++ itemWords

/-- What would be taken for a part of it. -/
def badOf (w : Place) : Cat → List (Option TK)
  | .opt c | .many c | .but _ c => badOf w c
  | .each _ c => (gOf c).first NT.first
  | .sep k c | .some k c | .list k c => badOf w c ++ Option.some k :: (gOf c).first NT.first
  | .sep1 k _ d | .tail k _ d | .more k _ d => Option.some k :: badOf w d
  | .vis => [Option.some LeftParen]
  | .nest _ c => allBut [Option.some c]
  | .pathed | .patEnd => [DoubleColon].map Option.some
  | .pattern | .patKind | .tupleMember | .sliceMember => afterPat
  | .patField => Option.some Colon :: afterPat
  | .selfArg false => [Comma, Colon].map Option.some ++ afterTyp
  | .traitHead => [ThinArrow, Where, Comma].map Option.some ++ (afterTyp ++ NT.first .where_clause_item)
  | .comp => [LeftAngle, LeftParen].map Option.some ++ fnWords
  | .named | .kindB | .typ1 | .also | .as | .bound => afterNamed
  | .compF | .namedF | .kind | .typ | .alsoF | .ret | .bounds | .boundF | .hasBounds | .hasDefault | .genConst | .whereItem
  | .field | .tupleField | .fnArg | .traitArg | .externArg => afterTyp
  | .member | .genType => afterTyp ++ [Colon, Equals].map Option.some
  | .fnTypeArg => afterTyp ++ [Colon].map Option.some
  | .quals => [Default, Const, Unsafe, Async, Extern, String, StringRaw].map Option.some
  | .outlives => [Plus].map Option.some
  | .genLife => [Colon, Plus].map Option.some
  | .wheres => Option.some Where :: Option.some Comma :: (afterTyp ++ NT.first .where_clause_item)
  | .useTail | .usePath => [As, DoubleColon].map Option.some
  | .typ1F | .letType | .argType => afterTyp
  | .fnHead => [ThinArrow, Where, Comma].map Option.some ++ (afterTyp ++ NT.first .where_clause_item)
  | .constValue | .discriminant | .opn | .expr _ => exprBad w
  | .variant | .litField | .guard | .arm false => exprBad .free
  | .atom .plain => plainBad w
  | .atom .brace | .ifE => [Option.some Else]
  | .tupleItems => allBut [Option.some RightParen]
  | .closureArg => Option.some Colon :: (afterPat ++ afterTyp)
  | .arms | .last => allBut [Option.some RightCurly]
  | .brc => [Period, QuestionMark, Else].map Option.some
  | _ => []

/-- What has to be rejected after it. -/
def needsOf : Cat → List G
  | .opt c | .many c => gOf c :: needsOf c
  | .sep _ c | .each _ c | .some _ c | .list _ c | .but _ c => needsOf c
  | .pcomp => [.r .turbofish]
  | .sep1 _ _ d | .tail _ _ d | .more _ _ d => needsOf d
  | _ => []

/-- What rejects paths. -/
def pathNots : List (G × List (Option TK)) :=
  [(G.seq (.r .ident) (.d TK.At), [Option.some TK.At]), (G.seq (.r .ident) (.seq (.d TK.At) (.d DoublePeriod)), [Option.some TK.At])] ++
  [NT.p_const, .extern_crate, .function, .module, .p_enum, .p_static, .p_struct, .p_trait, .p_union, .p_use, .type_alias,
    .trait_member_function, .impl_const, .impl_function].map fun n => (G.r n, itemWords ++ NT.first .ident)

/-- The parser of items in a block. -/
abbrev itemG : G := .attributed .AttributedItem (.r .item)

/-- The rule without its first part. -/
def tailOf (nt : NT) : G :=
  match rules nt with
  | .g (.build _ (.seq _ g)) => g
  | _ => .eps

/-- The rule without its node. -/
def innerOf (nt : NT) : G :=
  match rules nt with
  | .g (.build _ g) => g
  | _ => .eps

/-- What rejects it. -/
def notsOf : Cat → List (G × List (Option TK))
  | .but _ c => notsOf c
  | .sep1 k c _ => (notsOf c).filter fun x => !x.2.contains (Option.some k)
  | .typ | .kind | .kindB =>
    [(.r .associated_type, [Colon, Equals].map Option.some), (.r .typ_function_argument_name, [Colon].map Option.some)]
  | .named | .namedF | .comp | .compF => (.r .typ_function, fnWords) ::
    [(.r .associated_type, [Colon, Equals].map Option.some), (.r .typ_function_argument_name, [Colon].map Option.some)]
  | .list k c => (notsOf c).filter fun x => !x.2.contains (Option.some k)
  | .pcomp | .pathed => pathNots
  | .patEnd => pathNots.take 2
  | .patName => [(.r .pattern_slice_subslice, [DoublePeriod].map Option.some), (.r .self_argument, [])]
  | .patKind => [(.r .pattern_name, []), (.r .pattern_slice_subslice, []), (.r .self_argument, [])]
  | .pattern => [(.r .pattern_slice_subslice, []), (.r .self_argument, [])]
  | .fnArg | .traitArg => [(.r .self_argument, [])]
  | .useTail => [(.r .use_path_component, [DoubleColon].map Option.some)]
  | .quals => [(tailOf .p_const, NT.first .ident), (tailOf .extern_crate, [Option.some Crate]), (innerOf .extern_block, [Option.some LeftCurly]),
      (.r .associated_type, NT.first .ident ++ [Colon, Equals].map Option.some),
      (.r .typ_function_argument_name, NT.first .ident ++ [Colon].map Option.some)]
  | .fnHead => [(.r .p_const, []), (.r .extern_crate, []), (.r .extern_block, []), (.r .impl_const, [])]
  | .atom .plain | .atom .brace | .opn => [(.r .item, [])]
  | .atom .mac => [(.r .item, [Option.some Semicolon])]
  | .expr true | .last | .brc => [(itemG, [])]
  | _ => []

/-- What is known of it. -/
def chunk (w : Place) (c : Cat) (v : V) : Chunk :=
  ⟨some (gOf c), w.amb, v, firstOf c, nullOf c, badOf w c, needsOf c, notsOf c⟩

/-- What begins like this does not look like one of these. -/
def clear (first ks : List (Option TK)) : Bool := ks.all fun k => !(first.flatMap shows).contains k

/-- Some symbols of which only the first is known. -/
def blank (first : List (Option TK)) : Chunk := ⟨none, .Unambiguous, X, first, false, [], [], []⟩

/-- Whether what has to be rejected after `c` is rejected at `k`, when something that begins with `first` comes next. -/
def endOk (w : Place) (c : Cat) (k : TK) (first : List (Option TK)) : Bool :=
  (needsOf c).all fun g => (explore [] [] w.amb steps w.amb g [.s (.t k), .c (blank first)]).isRej

/-- Whether what is known of lists is right. -/
def valid (w : Place) : Cat → Bool
  | .opt c | .but _ c => valid w c
  | .many c => valid w c && !nullOf c && (needsOf c).isEmpty && clear (firstOf c) (badOf w c)
  | .sep k c | .each k c | .some k c => valid w c && !nullOf c && (needsOf c).isEmpty && !(gOf c).null && clear [Option.some k] (badOf w c)
  | .sep1 k c d | .tail k c d | .more k c d => valid w c && valid w d && decide (gOf c = gOf d) && !nullOf c && !nullOf d &&
      endOk w c k (firstOf c ++ firstOf d) && clear [Option.some k] (badOf w c) && decide (notsOf c = notsOf d) && (headsOf k).isEmpty
  | .list k c => valid w c && !nullOf c && (needsOf c).isEmpty && !(gOf c).null && clear [Option.some k] (badOf w c) &&
      (headsOf k).isEmpty
  | .nest o c => decide (o ≠ c)
  | .operand .. | .openOperand _ | .dots | .left .. | .stmts _ => false
  | _ => true

/-! ## Lists -/

inductive SepR (R : List Lexeme → V → Prop) (k : TK) : List Lexeme → List V → Prop
  | nil : SepR R k [] []
  | one {xs v} : R xs v → SepR R k xs [v]
  | cons {xs v ys vs} : R xs v → SepR R k ys vs → SepR R k (xs ++ .t k :: ys) (v :: vs)

inductive EachR (R : List Lexeme → V → Prop) (k : TK) : List Lexeme → List V → Prop
  | nil : EachR R k [] []
  | cons {xs v ys vs} : R xs v → EachR R k ys vs → EachR R k (xs ++ .t k :: ys) (v :: vs)

inductive Sep1R (R S : List Lexeme → V → Prop) (k : TK) : List Lexeme → List V → Prop
  | one {xs v} : S xs v → Sep1R R S k xs [v]
  | cons {xs v ys vs} : R xs v → Sep1R R S k ys vs → Sep1R R S k (xs ++ .t k :: ys) (v :: vs)

inductive ManyR (R : List Lexeme → V → Prop) : List Lexeme → List V → Prop
  | nil : ManyR R [] []
  | cons {xs v ys vs} : R xs v → ManyR R ys vs → ManyR R (xs ++ ys) (v :: vs)

/-! ## Parts of expressions and blocks -/

/-- What may not follow if it is not to be an item. -/
def semi : Kin → List (Option TK)
  | .mac => [Option.some Semicolon]
  | .curly => allBut []
  | _ => []

/-- What may not come next. -/
def endBad : Ending → List (Option TK)
  | .cast => afterNamed
  | .typed => afterTyp
  | _ => []

def endSemi : Ending → List (Option TK)
  | .mac => [Option.some Semicolon]
  | _ => []

section
variable (toks : List Token) (w : Place)

/-- An operand, if nothing of `b` comes next.  It is no item, if nothing of `s` comes next. -/
structure Opd (u : Bool) (b s : List (Option TK)) (ends : Bool) (xs : List Lexeme) (v : V) : Prop where
  heads : Heads exprFirst false xs
  may : mayTerminateAttributed v = ends
  nots : u = false → ∀ rest, ahead (fun k => !(b ++ s).contains k) rest = true → Rejects toks itemG w.amb (xs ++ rest)
  reads : ∀ rest, ahead (fun k => !b.contains k) rest = true → ReadsOperand toks (w.first u).amb w.amb (xs ++ rest) rest v

/-- The left part of an expression. -/
structure Lft (st : Bool) (b s : List (Option TK)) (xs : List Lexeme) (v : V) : Prop where
  heads : Heads exprFirst false xs
  may : st = true → mayTerminateAttributed v = false
  nots : st = true → ∀ rest, ahead (fun k => !(b ++ s).contains k) rest = true → Rejects toks itemG w.amb (xs ++ rest)
  reads : ∀ rest, ahead (fun k => !b.contains k) rest = true → ReadsLeft toks st w.amb (xs ++ rest) rest v

/-- `..` without an operand, after prefix operators. -/
structure Dts (xs : List Lexeme) (v : V) : Prop where
  heads : Heads exprFirst false xs
  may : mayTerminateAttributed v = false
  nots : ∀ rest, Rejects toks itemG w.amb (xs ++ rest)
  reads : ∀ rest, ReadsDots toks w.amb (xs ++ rest) rest v

/-- Match arms up to the brace. -/
structure Arms (xs : List Lexeme) (vs : List V) : Prop where
  heads : Heads (firstOf .arms) true xs
  reads : ∀ rest, ahead (fun k => !(badOf w .arms).contains k) rest = true →
    ∃ n b, ParsesImpl toks .matchArm .comma (.r .match_arm) w.amb (xs ++ rest) rest (vs.map fun v => [v]) n b

/-- What may not come after statements. -/
def afterStmts : List (Option TK) := [Semicolon, Period, QuestionMark, Else].map Option.some

/-- Statements before others. -/
structure Stmts (b : Option Bool) (xs : List Lexeme) (vs : List V) : Prop where
  heads : Heads stmtFirst true xs
  nil : b = none → vs = []
  reads : ∀ rest o vss c b', ahead (fun k => !afterStmts.contains k) rest = true →
    ParsesImpl toks .statement (.tok .Semicolon) (.r .statement) w.amb rest o vss c b' → ∃ c',
    ParsesImpl toks .statement (.tok .Semicolon) (.r .statement) w.amb (xs ++ rest) o ((vs.map fun v => [v]) ++ vss) c' (b'.or b)

/-- What is proved of what is written. -/
def Sem : Cat → List Lexeme → V → Prop
  | .opt c => fun xs v => (xs = [] ∧ v = L []) ∨ ∃ u, v = L [u] ∧ Sem c xs u
  | .sep k c => fun xs v => ∃ vs, v = L vs ∧ SepR (Sem c) k xs vs
  | .each k c => fun xs v => ∃ vs, v = L vs ∧ EachR (Sem c) k xs vs
  | .some k c => fun xs v => ∃ vs, v = L vs ∧ vs ≠ [] ∧ SepR (Sem c) k xs vs
  | .list k c => fun xs v => ∃ vs, v = L vs ∧ vs ≠ [] ∧ SepR (Sem c) k xs vs
  | .sep1 k c d | .tail k c d => fun xs v => ∃ vs, v = L vs ∧ Sep1R (Sem c) (Sem d) k xs vs
  | .more k c d => fun xs v => (xs = [] ∧ v = L []) ∨ ∃ ys vs, xs = .t k :: ys ∧ v = L vs ∧ Sep1R (Sem c) (Sem d) k ys vs
  | .many c => fun xs v => ∃ vs, v = L vs ∧ ManyR (Sem c) xs vs
  | .but k c => fun xs v => Sem c xs v ∧ ∀ x ∈ xs.head?, x.kind ≠ Option.some k
  | .kw k => fun xs v => xs = [.t k] ∧ v = X
  | .seg => fun xs v => (xs = [.t Ident] ∨ xs = [.t Default] ∨ xs = [.t Union] ∨ xs = [.t SelfIdent] ∨ xs = [.t Crate]) ∧ v = I
  | .name => fun xs v => xs = [.t Ident] ∧ v = I
  | .nest o c => fun xs v => (∃ ys, xs = .t o :: ys ∧ inside o c 0 ys = true) ∧ v = X
  | .rename => fun xs v => xs = [.t As, .t Ident] ∧ v = I
  | .atom q => fun xs v => (chunk w (.atom q) v).Sem toks xs ∧ mayTerminate v = q.ends
  | .opn => fun xs v => (chunk w .opn v).Sem toks xs ∧ mayTerminate v = false
  | .operand u q => Opd toks w u (plainBad w) (semi q) q.ends
  | .openOperand u => Opd toks w u (exprBad w) [] false
  | .dots => Dts toks w
  | .left s f => Lft toks w s (plainBad w ++ endBad f) (endSemi f)
  | .expr s => fun xs v => (chunk w (.expr s) v).Sem toks xs ∧ (s = true → mayTerminateAttributed v = false)
  | .last => fun xs v => (chunk w .last v).Sem toks xs ∧ mayTerminateAttributed v = false
  | .brc => fun xs v => (chunk w .brc v).Sem toks xs ∧ mayTerminateAttributed v = true
  | .arm b => fun xs v => (chunk w (.arm b) v).Sem toks xs ∧ Impl.app .matchArm [v] = b
  | .arms => fun xs v => ∃ vs, v = L vs ∧ Arms toks w xs vs
  | .stmts b => fun xs v => ∃ vs, v = L vs ∧ Stmts toks w b xs vs
  | c => fun xs v => (chunk w c v).Sem toks xs

end

section
variable {toks : List Token} {w : Place} {c d : Cat} {k : TK} {xs rest : List Lexeme} {v : V} {vs : List V}

theorem clear_ahead {first ks : List (Option TK)} (h : clear first ks = true) {x : Lexeme} (hx : x.kind ∈ first) :
    ahead (fun k => !ks.contains k) (x :: rest) = true := by
  simp only [ahead, List.all_eq_true]
  intro k hk
  simp only [clear, List.all_eq_true, Bool.not_eq_true', List.contains_eq_mem, decide_eq_false_iff_not] at h
  simp only [Bool.not_eq_true', List.contains_eq_mem, decide_eq_false_iff_not]
  exact fun hm => h k hm (List.mem_flatMap.mpr ⟨_, hx, looks_shows x k hk⟩)

theorem clear_sep {ks : List (Option TK)} (h : clear [Option.some k] ks = true) :
    ahead (fun k => !ks.contains k) (.t k :: rest) = true := clear_ahead h (by simp [Lexeme.kind])

theorem ahead_sub {a a' : List (Option TK)} {i : List Lexeme} (h : ahead (fun k => !a.contains k) i = true)
    (hs : ∀ k ∈ a', k ∈ a) : ahead (fun k => !a'.contains k) i = true :=
  ahead_mono h fun k hk => by
    simp only [Bool.not_eq_true', List.contains_eq_mem, decide_eq_false_iff_not] at hk ⊢
    exact fun h => hk (hs k h)

theorem stops_tok {a : List (Option TK)} {am : Amb} (h : ahead (fun k => !a.contains k) rest = true) (hk : Option.some k ∈ a) :
    Stops toks (.tok k) am rest :=
  stops_of_dead h (by simp [dead, G.null, G.first, hk])

theorem SepR.heads (h : SepR (Sem toks w c) k xs vs) (hc : ∀ xs v, Sem toks w c xs v → Heads (firstOf c) false xs) :
    Heads (firstOf c) true xs := by
  cases h with
  | nil => rfl
  | one h => have := hc _ _ h; cases xs <;> simp_all [Heads]
  | @cons xs v ys vs h _ => have := hc _ _ h; cases xs <;> simp_all [Heads]

theorem heads_mono {f f' : List (Option TK)} {n n' : Bool} (h : Heads f n xs) (hf : ∀ k ∈ f, k ∈ f') (hn : n = true → n' = true) :
    Heads f' n' xs := by
  cases xs with
  | nil => exact hn h
  | cons x xs => exact hf _ h

theorem flatten_one (vs : List V) : (vs.map fun v => [v]).flatten = vs := by
  induction vs <;> simp_all

theorem SepR.parses (h : SepR (Sem toks w c) k xs vs) (hc : ∀ xs v, Sem toks w c xs v → (chunk w c v).Sem toks xs)
    (hn : needsOf c = []) (h0 : (gOf c).null = false) (hk : clear [Option.some k] (badOf w c) = true)
    (hr : ahead (fun x => !(badOf w c ++ Option.some k :: (gOf c).first NT.first).contains x) rest = true) :
    ∃ n b, ParsesTail toks (.tok k) (gOf c) w.amb (xs ++ rest) rest (vs.map fun v => [v]) n b := by
  induction h with
  | nil => exact ⟨_, _, .nil (stops_of_dead hr (by simp [dead, h0]; intro x hx; simp [hx]))⟩
  | one h =>
    refine ⟨_, _, .one ((hc _ _ h).parses _ rfl _ (ahead_sub hr fun x hx => List.mem_append_left _ hx) ?_) (stops_tok hr (by simp))⟩
    simp [chunk, hn]
  | @cons xs v ys vs h _ ih =>
    obtain ⟨n, b, ih⟩ := ih
    refine ⟨_, _, ParsesTail.more (m := .t k :: (ys ++ rest)) ?_ (.tok rfl) ih⟩
    rw [List.append_assoc, List.cons_append]
    exact (hc _ _ h).parses _ rfl _ (clear_sep hk) (by simp [chunk, hn])

theorem EachR.heads (h : EachR (Sem toks w c) k xs vs) (hc : ∀ xs v, Sem toks w c xs v → Heads (firstOf c) false xs) :
    Heads (firstOf c) true xs := by
  cases h with
  | nil => rfl
  | @cons xs v ys vs h _ => have := hc _ _ h; cases xs <;> simp_all [Heads]

theorem EachR.parses (h : EachR (Sem toks w c) k xs vs) (hc : ∀ xs v, Sem toks w c xs v → (chunk w c v).Sem toks xs)
    (hn : needsOf c = []) (h0 : (gOf c).null = false) (hk : clear [Option.some k] (badOf w c) = true)
    (hr : ahead (fun x => !((gOf c).first NT.first).contains x) rest = true) :
    ∃ n b, ParsesTail toks (.tok k) (gOf c) w.amb (xs ++ rest) rest (vs.map fun v => [v]) n b := by
  induction h with
  | nil => exact ⟨_, _, .nil (stops_of_dead hr (by simp [dead, h0]))⟩
  | @cons xs v ys vs h _ ih =>
    obtain ⟨n, b, ih⟩ := ih
    refine ⟨_, _, ParsesTail.more (m := .t k :: (ys ++ rest)) ?_ (.tok rfl) ih⟩
    rw [List.append_assoc, List.cons_append]
    exact (hc _ _ h).parses _ rfl _ (clear_sep hk) (by simp [chunk, hn])

theorem Sep1R.heads (h : Sep1R (Sem toks w c) (Sem toks w d) k xs vs)
    (hc : ∀ xs v, Sem toks w c xs v → Heads (firstOf c) false xs) (hd : ∀ xs v, Sem toks w d xs v → Heads (firstOf d) false xs) :
    Heads (firstOf c ++ firstOf d) false xs := by
  cases h with
  | one h => exact heads_mono (hd _ _ h) (fun k hk => by simp [hk]) id
  | @cons xs v ys vs h _ => have := hc _ _ h; cases xs <;> simp_all [Heads]

theorem blank_sem {first : List (Option TK)} {xs : List Lexeme} (h : Heads first false xs) : (blank first).Sem toks xs :=
  ⟨h, by simp [blank], by simp [blank]⟩

theorem Sep1R.ends (h : Sep1R (Sem toks w c) (Sem toks w d) k xs vs)
    (hc : ∀ xs v, Sem toks w c xs v → (chunk w c v).Sem toks xs)
    (hd : ∀ xs v, Sem toks w d xs v → (chunk w d v).Sem toks xs) (h0 : nullOf c = false) (h0' : nullOf d = false)
    (hn : endOk w c k (firstOf c ++ firstOf d) = true) : ∀ g ∈ needsOf c, Rejects toks g w.amb (.t k :: (xs ++ rest)) := by
  intro g hg
  have h1 := h.heads (fun xs v h => by have := (hc _ _ h).heads; rwa [show (chunk w c v).null = false from h0] at this)
      fun xs v h => by have := (hd _ _ h).heads; rwa [show (chunk w d v).null = false from h0'] at this
  have h2 := explore_sound (toks := toks) (b := []) (nd := []) (am0 := w.amb) (rest := rest) (by cases rest <;> simp [ahead]) (by simp)
    steps w.amb g _ _ (.s (x := .t k) (Denotes.last (blank_sem h1)))
  have h3 := List.all_eq_true.mp hn g hg
  generalize explore [] [] w.amb steps w.amb g [.s (.t k), .c (blank (firstOf c ++ firstOf d))] = r at h2 h3
  cases r <;> simp [Found.isRej] at h3
  exact h2

theorem Sep1R.tail (h : Sep1R (Sem toks w c) (Sem toks w d) k xs vs)
    (hc : ∀ xs v, Sem toks w c xs v → (chunk w c v).Sem toks xs)
    (hd : ∀ xs v, Sem toks w d xs v → (chunk w d v).Sem toks xs) (hg : gOf c = gOf d) (h0 : nullOf c = false) (h0' : nullOf d = false)
    (hn : endOk w c k (firstOf c ++ firstOf d) = true) (hk : clear [Option.some k] (badOf w c) = true)
    (hr : ahead (fun x => !(Option.some k :: badOf w d).contains x) rest = true)
    (hrn : ∀ g ∈ needsOf d, Rejects toks g w.amb rest) :
    ∃ n b, ParsesTail toks (.tok k) (gOf d) w.amb (xs ++ rest) rest (vs.map fun v => [v]) n b := by
  induction h with
  | one h =>
    exact ⟨_, _, .one ((hd _ _ h).parses _ rfl _ (ahead_sub hr fun x hx => List.mem_cons_of_mem _ hx) hrn) (stops_tok hr (by simp))⟩
  | @cons xs v ys vs h h' ih =>
    obtain ⟨n, b, ih⟩ := ih
    refine ⟨_, _, ParsesTail.more (m := .t k :: (ys ++ rest)) ?_ (.tok rfl) ih⟩
    rw [List.append_assoc, List.cons_append, ← hg]
    exact (hc _ _ h).parses _ rfl _ (clear_sep hk) (h'.ends hc hd h0 h0' hn)

theorem Sep1R.one' (h : Sep1R (Sem toks w c) (Sem toks w d) k xs vs)
    (hc : ∀ xs v, Sem toks w c xs v → (chunk w c v).Sem toks xs)
    (hd : ∀ xs v, Sem toks w d xs v → (chunk w d v).Sem toks xs) (hg : gOf c = gOf d) (h0 : nullOf c = false) (h0' : nullOf d = false)
    (hn : endOk w c k (firstOf c ++ firstOf d) = true) (hk : clear [Option.some k] (badOf w c) = true)
    (hr : ahead (fun x => !(Option.some k :: badOf w d).contains x) rest = true)
    (hrn : ∀ g ∈ needsOf d, Rejects toks g w.amb rest) :
    ParsesOne toks (.tok k) (gOf d) w.amb (xs ++ rest) rest (vs.map fun v => [v]) := by
  cases h with
  | one h =>
    exact .one ((hd _ _ h).parses _ rfl _ (ahead_sub hr fun x hx => List.mem_cons_of_mem _ hx) hrn) (stops_tok hr (by simp))
  | @cons xs v ys vs h h' =>
    obtain ⟨n, b, ih⟩ := h'.tail hc hd hg h0 h0' hn hk hr hrn
    refine ParsesOne.more (m := .t k :: (ys ++ rest)) ?_ (.tok rfl) ih
    rw [List.append_assoc, List.cons_append, ← hg]
    exact (hc _ _ h).parses _ rfl _ (clear_sep hk) (h'.ends hc hd h0 h0' hn)

theorem Sep1R.nots (h : Sep1R (Sem toks w c) (Sem toks w d) k xs vs)
    (hc : ∀ xs v, Sem toks w c xs v → (chunk w c v).Sem toks xs)
    (hd : ∀ xs v, Sem toks w d xs v → (chunk w d v).Sem toks xs) (h0 : nullOf c = false) (h0' : nullOf d = false)
    (hn : endOk w c k (firstOf c ++ firstOf d) = true) (hk : clear [Option.some k] (badOf w c) = true) (hh : headsOf k = [])
    (hr : ahead (fun x => !(Option.some k :: badOf w d).contains x) rest = true)
    (hrn : ∀ g ∈ needsOf d, Rejects toks g w.amb rest) (hx : notsOf c = notsOf d) (x : G × List (Option TK)) (hx' : x ∈ notsOf c)
    (hxk : x.2.contains (Option.some k) = false) (ha : ahead (fun k => !x.2.contains k) rest = true) :
    Rejects toks x.1 w.amb (xs ++ rest) := by
  cases h with
  | one h => exact (hd _ _ h).nots x (show x ∈ notsOf d from hx ▸ hx') _ (ahead_sub hr fun x hx => List.mem_cons_of_mem _ hx) hrn ha
  | @cons xs v ys vs h h' =>
    rw [List.append_assoc, List.cons_append]
    refine (hc _ _ h).nots x hx' _ (clear_sep hk) (h'.ends hc hd h0 h0' hn) ?_
    simp [ahead, Lexeme.looks, hh]
    simpa using hxk

theorem ManyR.heads (h : ManyR (Sem toks w c) xs vs) (hc : ∀ xs v, Sem toks w c xs v → Heads (firstOf c) false xs) :
    Heads (firstOf c) true xs := by
  cases h with
  | nil => rfl
  | @cons xs v ys vs h _ => have := hc _ _ h; cases xs <;> simp_all [Heads]

theorem ManyR.parses (h : ManyR (Sem toks w c) xs vs) (hc : ∀ xs v, Sem toks w c xs v → (chunk w c v).Sem toks xs)
    (h0 : nullOf c = false) (hn : needsOf c = []) (hk : clear (firstOf c) (badOf w c) = true)
    (hr : ahead (fun x => !(badOf w c).contains x) rest = true)
    (hrn : Rejects toks (gOf c) w.amb rest) :
    ParsesMany toks (gOf c) w.amb (xs ++ rest) rest vs := by
  induction h with
  | nil => exact .nil hrn
  | @cons xs v ys vs h h' ih =>
    rw [List.append_assoc]
    refine ParsesMany.cons (vs := [v]) ((hc _ _ h).parses _ rfl _ ?_ (by simp [chunk, hn])) ih
    have := h'.heads fun xs v h => by have := (hc _ _ h).heads; rwa [show (chunk w c v).null = false from h0] at this
    cases ys with
    | nil => exact hr
    | cons y ys => exact clear_ahead hk this

theorem Sem.chunk : ∀ c, valid w c = true → ∀ {xs v}, Sem toks w c xs v → (chunk w c v).Sem toks xs
  | .opt c, hv, xs, v, h => by
    have hv' : valid w c = true := hv
    rcases h with ⟨rfl, rfl⟩ | ⟨u, rfl, h⟩
    · exact .of rfl rfl (fun rest hr hn => .opt_none (hn _ (List.mem_cons_self ..))) (by simp [CoreP.chunk, notsOf])
    · have h := Sem.chunk c hv' h
      exact .of rfl (heads_mono h.heads (fun _ => id) fun _ => rfl)
        (fun rest hr hn => .opt_some (h.parses _ rfl rest hr fun g hg => hn g (List.mem_cons_of_mem _ hg))) (by simp [CoreP.chunk, notsOf])
  | .but k c, hv, xs, v, h => by
    have hv' : valid w c = true := hv
    obtain ⟨h, hk⟩ := h
    have h := Sem.chunk c hv' h
    refine ⟨?_, h.parses, h.nots⟩
    have := h.heads
    cases xs with
    | nil => exact this
    | cons x xs =>
      have h2 : x.kind ∈ firstOf c := this
      have h3 := hk x rfl
      simp [Heads, CoreP.chunk, firstOf, h2, h3]
  | .many c, hv, xs, v, h => by
    have hv' : (valid w c && !nullOf c && (needsOf c).isEmpty && clear (firstOf c) (badOf w c)) = true := hv
    simp only [Bool.and_eq_true, Bool.not_eq_true', List.isEmpty_iff] at hv'
    obtain ⟨⟨⟨h1, h2⟩, h3⟩, h4⟩ := hv'
    obtain ⟨vs, rfl, h⟩ := h
    have hc : ∀ xs v, Sem toks w c xs v → (CoreP.chunk w c v).Sem toks xs := fun xs v h => Sem.chunk c h1 h
    exact .of rfl (h.heads fun xs v h => by have := (hc _ _ h).heads; rwa [show (CoreP.chunk w c v).null = false from h2] at this)
      (fun rest hr hn => (h.parses hc h2 h3 h4 hr (hn _ (List.mem_cons_self ..))).many) (by simp [CoreP.chunk, notsOf])
  | .sep k c, hv, xs, v, h => by
    have hv' : (valid w c && !nullOf c && (needsOf c).isEmpty && !(gOf c).null && clear [Option.some k] (badOf w c)) = true := hv
    simp only [Bool.and_eq_true, Bool.not_eq_true', List.isEmpty_iff] at hv'
    obtain ⟨⟨⟨⟨h1, h2⟩, h3⟩, h4⟩, h5⟩ := hv'
    obtain ⟨vs, rfl, h⟩ := h
    have hc : ∀ xs v, Sem toks w c xs v → (CoreP.chunk w c v).Sem toks xs := fun xs v h => Sem.chunk c h1 h
    refine .of rfl (h.heads fun xs v h => by have := (hc _ _ h).heads; rwa [show (CoreP.chunk w c v).null = false from h2] at this)
      (fun rest hr hn => ?_) (by simp [CoreP.chunk, notsOf])
    obtain ⟨n, b, h⟩ := h.parses hc h3 h4 h5 hr
    exact h.values.to (by rw [flatten_one]; rfl)
  | .each k c, hv, xs, v, h => by
    have hv' : (valid w c && !nullOf c && (needsOf c).isEmpty && !(gOf c).null && clear [Option.some k] (badOf w c)) = true := hv
    simp only [Bool.and_eq_true, Bool.not_eq_true', List.isEmpty_iff] at hv'
    obtain ⟨⟨⟨⟨h1, h2⟩, h3⟩, h4⟩, h5⟩ := hv'
    obtain ⟨vs, rfl, h⟩ := h
    have hc : ∀ xs v, Sem toks w c xs v → (CoreP.chunk w c v).Sem toks xs := fun xs v h => Sem.chunk c h1 h
    refine .of rfl (h.heads fun xs v h => by have := (hc _ _ h).heads; rwa [show (CoreP.chunk w c v).null = false from h2] at this)
      (fun rest hr hn => ?_) (by simp [CoreP.chunk, notsOf])
    obtain ⟨n, b, h⟩ := h.parses hc h3 h4 h5 hr
    exact h.values.to (by rw [flatten_one]; rfl)
  | .some k c, hv, xs, v, h => by
    have hv' : (valid w c && !nullOf c && (needsOf c).isEmpty && !(gOf c).null && clear [Option.some k] (badOf w c)) = true := hv
    simp only [Bool.and_eq_true, Bool.not_eq_true', List.isEmpty_iff] at hv'
    obtain ⟨⟨⟨⟨h1, h2⟩, h3⟩, h4⟩, h5⟩ := hv'
    obtain ⟨vs, rfl, hne, h⟩ := h
    have hc : ∀ xs v, Sem toks w c xs v → (CoreP.chunk w c v).Sem toks xs := fun xs v h => Sem.chunk c h1 h
    have hh : ∀ xs v, Sem toks w c xs v → Heads (firstOf c) false xs := fun xs v h => by
      have := (hc _ _ h).heads; rwa [show (CoreP.chunk w c v).null = false from h2] at this
    refine .of rfl ?_ (fun rest hr hn => ?_) (by simp [CoreP.chunk, notsOf])
    · cases h with
      | nil => exact absurd rfl hne
      | one h => exact hh _ _ h
      | @cons xs v ys vs h _ => have := hh _ _ h; cases xs <;> simp_all [Heads, CoreP.chunk, firstOf]
    · cases h with
      | nil => exact absurd rfl hne
      | one h =>
        refine (ParsesOne.one (vs := [_]) ((hc _ _ h).parses _ rfl _ (ahead_sub hr fun x hx => ?_) ?_) (stops_tok hr ?_)).values
        · exact List.mem_append_left _ hx
        · simp [CoreP.chunk, h3]
        · simp [CoreP.chunk, badOf]
      | @cons xs v ys vs h h' =>
        obtain ⟨n, b, h'⟩ := h'.parses hc h3 h4 h5 hr
        refine ((ParsesOne.more (m := .t k :: (ys ++ rest)) (vs := [v]) ?_ (.tok rfl) h').values).to (by
          simp [flatten_one, CoreP.chunk])
        rw [List.append_assoc, List.cons_append]
        exact (hc _ _ h).parses _ rfl _ (clear_sep h5) (by simp [CoreP.chunk, h3])
  | .list k c, hv, xs, v, h => by
    have hv' : (valid w c && !nullOf c && (needsOf c).isEmpty && !(gOf c).null && clear [Option.some k] (badOf w c) &&
      (headsOf k).isEmpty) = true := hv
    simp only [Bool.and_eq_true, Bool.not_eq_true', List.isEmpty_iff] at hv'
    obtain ⟨⟨⟨⟨⟨h1, h2⟩, h3⟩, h4⟩, h5⟩, h6⟩ := hv'
    obtain ⟨vs, rfl, hne, h⟩ := h
    have hc : ∀ xs v, Sem toks w c xs v → (CoreP.chunk w c v).Sem toks xs := fun xs v h => Sem.chunk c h1 h
    have hh : ∀ xs v, Sem toks w c xs v → Heads (firstOf c) false xs := fun xs v h => by
      have := (hc _ _ h).heads; rwa [show (CoreP.chunk w c v).null = false from h2] at this
    refine .of rfl ?_ (fun rest hr hn => ?_) (fun x hx rest hr hn ha => ?_)
    · cases h with
      | nil => exact absurd rfl hne
      | one h => exact hh _ _ h
      | @cons xs v ys vs h _ => have := hh _ _ h; cases xs <;> simp_all [Heads, CoreP.chunk, firstOf]
    · obtain ⟨n, b, h⟩ := h.parses hc h3 h4 h5 hr
      exact h.values.to (by rw [flatten_one]; rfl)
    · simp only [CoreP.chunk, notsOf, List.mem_filter, Bool.not_eq_true'] at hx
      cases h with
      | nil => exact absurd rfl hne
      | one h => exact (hc _ _ h).nots x hx.1 _ (ahead_sub hr fun x hx => List.mem_append_left _ hx) (by simp [CoreP.chunk, h3]) ha
      | @cons xs v ys vs h h' =>
        rw [List.append_assoc, List.cons_append]
        refine (hc _ _ h).nots x hx.1 _ (clear_sep h5) (by simp [CoreP.chunk, h3]) ?_
        simp [ahead, Lexeme.looks, h6]
        simpa using hx.2
  | .nest o c, hv, xs, v, h => by
    have hv' : decide (o ≠ c) = true := hv
    obtain ⟨⟨ys, rfl, h⟩, rfl⟩ := h
    refine .of rfl (by simp [Heads, CoreP.chunk, firstOf, gOf, G.first, Lexeme.kind]) (fun rest hr hn => ?_) (by simp [CoreP.chunk, notsOf])
    refine Parses.nested h (by simpa using hv') (ahead_mono hr fun k hk => ?_)
    simp only [CoreP.chunk, badOf, allBut, Bool.not_eq_true', List.contains_eq_mem, decide_eq_false_iff_not, List.mem_filter] at hk
    simp only [decide_eq_true_eq]
    by_cases hkc : k = Option.some c
    · exact hkc
    · exfalso; apply hk
      refine ⟨?_, by simp [hkc]⟩
      cases k with
      | none => simp
      | some k => simp [TK.mem_all]
  | .sep1 k c d, hv, xs, v, h => by
    have hv' : (valid w c && valid w d && decide (gOf c = gOf d) && !nullOf c && !nullOf d &&
      endOk w c k (firstOf c ++ firstOf d) && clear [Option.some k] (badOf w c) && decide (notsOf c = notsOf d) &&
      (headsOf k).isEmpty) = true := hv
    simp only [Bool.and_eq_true, Bool.not_eq_true', List.isEmpty_iff, decide_eq_true_eq] at hv'
    obtain ⟨⟨⟨⟨⟨⟨⟨⟨h1, h2⟩, h3⟩, h4⟩, h5⟩, h6⟩, h7⟩, h8⟩, h9⟩ := hv'
    obtain ⟨vs, rfl, h⟩ := h
    have hc : ∀ xs v, Sem toks w c xs v → (CoreP.chunk w c v).Sem toks xs := fun xs v h => Sem.chunk c h1 h
    have hd : ∀ xs v, Sem toks w d xs v → (CoreP.chunk w d v).Sem toks xs := fun xs v h => Sem.chunk d h2 h
    refine .of rfl (h.heads (fun xs v h => by have := (hc _ _ h).heads; rwa [show (CoreP.chunk w c v).null = false from h4] at this)
      fun xs v h => by have := (hd _ _ h).heads; rwa [show (CoreP.chunk w d v).null = false from h5] at this)
      (fun rest hr hn => ?_) (fun x hx rest hr hn ha => ?_)
    · exact (h.one' hc hd h3 h4 h5 h6 h7 hr hn).values.to (by rw [flatten_one]; rfl)
    · simp only [CoreP.chunk, notsOf, List.mem_filter, Bool.not_eq_true'] at hx
      exact h.nots hc hd h4 h5 h6 h7 h9 hr hn h8 x hx.1 hx.2 ha
  | .tail k c d, hv, xs, v, h => by
    have hv' : (valid w c && valid w d && decide (gOf c = gOf d) && !nullOf c && !nullOf d &&
      endOk w c k (firstOf c ++ firstOf d) && clear [Option.some k] (badOf w c) && decide (notsOf c = notsOf d) &&
      (headsOf k).isEmpty) = true := hv
    simp only [Bool.and_eq_true, Bool.not_eq_true', List.isEmpty_iff, decide_eq_true_eq] at hv'
    obtain ⟨⟨⟨⟨⟨⟨⟨⟨h1, h2⟩, h3⟩, h4⟩, h5⟩, h6⟩, h7⟩, h8⟩, h9⟩ := hv'
    obtain ⟨vs, rfl, h⟩ := h
    have hc : ∀ xs v, Sem toks w c xs v → (CoreP.chunk w c v).Sem toks xs := fun xs v h => Sem.chunk c h1 h
    have hd : ∀ xs v, Sem toks w d xs v → (CoreP.chunk w d v).Sem toks xs := fun xs v h => Sem.chunk d h2 h
    refine .of rfl (h.heads (fun xs v h => by have := (hc _ _ h).heads; rwa [show (CoreP.chunk w c v).null = false from h4] at this)
      fun xs v h => by have := (hd _ _ h).heads; rwa [show (CoreP.chunk w d v).null = false from h5] at this)
      (fun rest hr hn => ?_) (by simp [CoreP.chunk, notsOf])
    obtain ⟨n, b, h⟩ := h.tail hc hd h3 h4 h5 h6 h7 hr hn
    exact h.values.to (by rw [flatten_one]; rfl)
  | .more k c d, hv, xs, v, h => by
    have hv' : (valid w c && valid w d && decide (gOf c = gOf d) && !nullOf c && !nullOf d &&
      endOk w c k (firstOf c ++ firstOf d) && clear [Option.some k] (badOf w c) && decide (notsOf c = notsOf d) &&
      (headsOf k).isEmpty) = true := hv
    simp only [Bool.and_eq_true, Bool.not_eq_true', List.isEmpty_iff, decide_eq_true_eq] at hv'
    obtain ⟨⟨⟨⟨⟨⟨⟨⟨h1, h2⟩, h3⟩, h4⟩, h5⟩, h6⟩, h7⟩, h8⟩, h9⟩ := hv'
    have hc : ∀ xs v, Sem toks w c xs v → (CoreP.chunk w c v).Sem toks xs := fun xs v h => Sem.chunk c h1 h
    have hd : ∀ xs v, Sem toks w d xs v → (CoreP.chunk w d v).Sem toks xs := fun xs v h => Sem.chunk d h2 h
    rcases h with ⟨rfl, rfl⟩ | ⟨ys, vs, rfl, rfl, h⟩
    · exact .of rfl rfl (fun rest hr hn => .resume_none (stops_tok hr (by simp [CoreP.chunk, badOf]))) (by simp [CoreP.chunk, notsOf])
    · refine .of rfl (by simp [Heads, CoreP.chunk, firstOf, Lexeme.kind]) (fun rest hr hn => ?_) (by simp [CoreP.chunk, notsOf])
      exact ((h.one' hc hd h3 h4 h5 h6 h7 hr hn).resume (.tok rfl)).to (by rw [flatten_one]; rfl)
  | .kw k, _, xs, v, h => by
    obtain ⟨rfl, rfl⟩ := h
    exact .of rfl (by simp [Heads, CoreP.chunk, firstOf, gOf, G.first, Lexeme.kind]) (fun rest hr hn => .ext (.tok rfl)) (by simp [CoreP.chunk, notsOf])
  | .name, _, xs, v, h => by
    obtain ⟨rfl, rfl⟩ := h
    cases w <;> exact made (.s .nil) rfl (by krfl) (by krfl) rfl
  | .seg, _, xs, v, h => by
    obtain ⟨rfl | rfl | rfl | rfl | rfl, rfl⟩ := h <;> cases w <;> exact made (.s .nil) rfl (by krfl) (by krfl) rfl
  | .rename, _, xs, v, h => by
    obtain ⟨rfl, rfl⟩ := h
    cases w <;> exact made (.s (.s .nil)) rfl (by krfl) (by krfl) rfl
  | .atom _, _, _, _, h => h.1
  | .opn, _, _, _, h => h.1
  | .expr _, _, _, _, h => h.1
  | .last, _, _, _, h => h.1
  | .brc, _, _, _, h => h.1
  | .arm _, _, _, _, h => h.1
  | .arms, _, xs, v, h => by
    obtain ⟨vs, rfl, h⟩ := h
    refine .of rfl h.heads (fun rest hr hn => ?_) (by simp [CoreP.chunk, notsOf])
    obtain ⟨n, b, h⟩ := h.reads rest hr
    exact h.tailed.to (by simp [TailK.out, flatten_one, CoreP.chunk])
  | .typ1F, _, _, _, h => h
  | .fnHead, _, _, _, h => h
  | .implItem, _, _, _, h => h
  | .constValue, _, _, _, h => h
  | .discriminant, _, _, _, h => h
  | .litField, _, _, _, h => h
  | .tupleItems, _, _, _, h => h
  | .closureArg, _, _, _, h => h
  | .argType, _, _, _, h => h
  | .label, _, _, _, h => h
  | .ifE, _, _, _, h => h
  | .guard, _, _, _, h => h
  | .letType, _, _, _, h => h
  | .block, _, _, _, h => h
  | .word, _, _, _, h => h
  | .lifetime, _, _, _, h => h
  | .str, _, _, _, h => h
  | .vis, _, _, _, h => h
  | .typ, _, _, _, h => h
  | .typ1, _, _, _, h => h
  | .also, _, _, _, h => h
  | .alsoF, _, _, _, h => h
  | .kind, _, _, _, h => h
  | .kindB, _, _, _, h => h
  | .named, _, _, _, h => h
  | .namedF, _, _, _, h => h
  | .comp, _, _, _, h => h
  | .compF, _, _, _, h => h
  | .angle, _, _, _, h => h
  | .member, _, _, _, h => h
  | .ret, _, _, _, h => h
  | .as, _, _, _, h => h
  | .argName, _, _, _, h => h
  | .fnTypeArg, _, _, _, h => h
  | .lifes, _, _, _, h => h
  | .quals, _, _, _, h => h
  | .bounds, _, _, _, h => h
  | .bound, _, _, _, h => h
  | .boundF, _, _, _, h => h
  | .hasBounds, _, _, _, h => h
  | .hasDefault, _, _, _, h => h
  | .outlives, _, _, _, h => h
  | .generics, _, _, _, h => h
  | .genLife, _, _, _, h => h
  | .genType, _, _, _, h => h
  | .genConst, _, _, _, h => h
  | .wheres, _, _, _, h => h
  | .whereItem, _, _, _, h => h
  | .pcomp, _, _, _, h => h
  | .turbo, _, _, _, h => h
  | .pathed, _, _, _, h => h
  | .pattern, _, _, _, h => h
  | .patKind, _, _, _, h => h
  | .patName, _, _, _, h => h
  | .patEnd, _, _, _, h => h
  | .patTuple, _, _, _, h => h
  | .tupleMember, _, _, _, h => h
  | .sliceMember, _, _, _, h => h
  | .patField, _, _, _, h => h
  | .fnArg, _, _, _, h => h
  | .args, _, _, _, h => h
  | .traitArg, _, _, _, h => h
  | .traitArgs, _, _, _, h => h
  | .traitHead, _, _, _, h => h
  | .traitItem, _, _, _, h => h
  | .externArg, _, _, _, h => h
  | .externItem, _, _, _, h => h
  | .selfArg _, _, _, _, h => h
  | .attr, _, _, _, h => h
  | .item, _, _, _, h => h
  | .attrItem, _, _, _, h => h
  | .useStep, _, _, _, h => h
  | .useTail, _, _, _, h => h
  | .usePath, _, _, _, h => h
  | .field, _, _, _, h => h
  | .tupleField, _, _, _, h => h
  | .variant, _, _, _, h => h
  | .body, _, _, _, h => h

end

end CoreP
end Verif
