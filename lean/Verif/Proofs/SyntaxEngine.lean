import Verif.Spec.Syntax
import Verif.Proofs.Head
/-!
# From the grammar to the forms of the syntax

`G.forms` computes from a grammar expression in which forms its values are written.  The tables of `Spec/Syntax.lean` are compared with
the results.
-/

namespace Verif
open Verif.Spec

abbrev Frm := Spec.Form Nat

/-- `ks` are among `ks'`. -/
def TK.le (ks ks' : List TK) : Bool := ks.all (ks'.contains ·)

/-- Whether a variant that is written in the style `s` may be written so in the style `s'`: the same tokens and fields. -/
def Tag.le (s s' : Style) (t : Tag) : Bool := (variantSyntax s t).all ((variantSyntax s' t).contains ·)

/-- `m` is written as `n` may be. -/
def Mode.le (m n : Mode) : Bool :=
  m == n ||
  match m, n with
  | .tok ks, .tok ks' => TK.le ks ks'
  | .val .plain, .val .path => true
  | .none, .opt .. | .none, .many .. => true
  | .variant s t, .val s' => Tag.le s s' t
  | _, _ => false

def Item.le (i j : Item Nat) : Bool :=
  i == j ||
  match i, j with
  | .f a m, .f b n => a == b && Mode.le m n
  | .self ks, .self ks' => TK.le ks ks'
  | _, _ => false

def Form.le : Frm → Frm → Bool
  | [], [] => true
  | i :: x, j :: y => Item.le i j && Form.le x y
  | _, _ => false

/-- All of the forms are among the others. -/
def Form.allLe (xs ys : List Frm) : Bool := xs.all fun x => ys.any fun y => Form.le x y

def Style.all : List Style := [.plain, .item, .single, .path, .self, .quote, .byte]

/-- The first style that allows these forms, of those given by `table`. -/
def fitStyle (styles : List Style) (table : Style → List Frm) (xs : List Frm) : Option Style :=
  styles.find? fun s => Form.allLe xs (table s)

/-- The tokens of a form that has nothing else. -/
def Form.toks : Frm → Option (List TK)
  | [] => some []
  | .t k :: x => (Form.toks x).map (k :: ·)
  | _ => Option.none

/-- A form with one value: the tokens before and after. -/
def Form.around : Frm → Option (List TK × Mode × List TK)
  | .t k :: x => (Form.around x).map fun (a, m, b) => (k :: a, m, b)
  | .f 0 m :: x => (Form.toks x).map fun b => ([], m, b)
  | _ => Option.none

/-- The only form, around one value. -/
def around1 : List Frm → Option (List TK × Mode × List TK)
  | [x] => Form.around x
  | _ => Option.none

def Mode.isList : Mode → Bool
  | .opt .. | .many .. | .sep .. | .sep1 .. => true
  | _ => false

def union (xs ys : List Frm) : List Frm := xs ++ ys.filter (!xs.contains ·)

/-- The form of a value. -/
abbrev one (s : Style) : List Frm := [[.f 0 (.val s)]]

/-- A struct that may have the same extent as its only field. -/
def copiesExtent (k : K) : Bool :=
  !emptyExtent k && k.fields.all fun f => match f.ty with | .node k' => exactExtent k' | _ => false

def Fn.forms (fn : Fn) (xs : List Frm) : Option (List Frm) :=
  match fn with
  | .wrap t =>
    (fitStyle Style.all (variantSyntax · t) xs).map fun s => if t.en = .MacroCallArgs then [[.f 0 (.variant s t)]] else one s
  | .wrapSecond t =>
    xs.mapM fun x => if x.all (fun i => match i with | .f 1 m => Form.allLe [[.f 0 m]] (variantSyntax .plain t) | .f 0 _ | .t _ => true | _ => false)
      then Option.some (x.map fun i => match i with | .f 1 _ => .f 1 (.variant .plain t) | i => i) else Option.none
  | .flat =>
    match xs with
    | [[.f 0 (.opt a m b)]] => if Mode.isList m then Option.some [[.f 0 (.group a m b)]] else Option.none
    | _ => Option.none
  | .some => xs.mapM fun x => (Form.around x).map fun (a, m, b) => a.map .t ++ .f 0 (.some m) :: b.map .t
  | .none =>
    match xs with
    | [[]] => Option.some [[.f 0 .none]]
    | [[.f 0 (.tok [k])]] => Option.some [[.t k, .f 0 .none]]
    | _ => Option.none
  | .swap =>
    xs.mapM fun x => if x.all (fun i => match i with | .f 0 _ | .f 1 _ | .t _ => true | _ => false)
      then Option.some (x.map fun i => match i with | .f 0 m => .f 1 m | .f 1 m => .f 0 m | i => i) else Option.none
  | .isSome =>
    match xs with
    | [[.f 0 (.opt [] (.tok [k]) [])]] => Option.some [[.f 0 (.flag k)]]
    | _ => Option.none
  | .append =>
    match xs with
    | [[.f 0 m, .f 1 n]] => if Mode.isList m && Mode.isList n then Option.some [[.f 0 (.both m n)]] else Option.none
    | _ => Option.none
  | .ident =>
    if xs.all fun x => match x with | [.f 0 (.tok _)] => true | _ => false then
      (fitStyle [.self, .plain, .path] (Spec.forms · .Ident) (xs.map (·.map fun i => match i with | .f 0 (.tok ks) => .self ks | i => i))).map one
    else Option.none
  | .lifetime => if xs = [[.f 0 (.tok [.Lifetime])]] then Option.some (one .plain) else Option.none
  | .character => if xs = [[.f 0 (.tok [.Character])]] then Option.some (one .plain) else Option.none
  | .string => if Form.allLe xs [[.f 0 (.tok [.String, .StringRaw])]] then Option.some (one .plain) else Option.none
  | .byte => if xs = [[.f 0 (.tok [.Byte])]] then Option.some (one .plain) else Option.none
  | .byteString => if Form.allLe xs [[.f 0 (.tok [.ByteString, .ByteStringRaw])]] then Option.some (one .plain) else Option.none
  | .copyExtent k =>
    match xs with
    | [[.f 0 (.val _)]] => if copiesExtent k then (fitStyle Style.all (Spec.forms · k) xs).map one else Option.none
    | _ => Option.none
  | .into => if xs = one .plain then Option.some (one .plain) else Option.none
  | .externAbi | .fieldValue => Option.none

/-- The expressions between parentheses. -/
def parenBody : G :=
  .seq (G.d .LeftParen) (.seq (.amb .Unambiguous (.tailed .paren G.comma (.r .expression))) (G.d .RightParen))

/-- A field of a struct literal. -/
def fieldBody : G := .seq (.build .span (.r .ident)) (.opt (.r .expr_value_struct_literal_field_value))

def shiftItem (n : Nat) : Item Nat → Item Nat := Item.map (· + n)

def G.forms (d : NT → List Frm) : G → Option (List Frm)
  | .eps => some [[]]
  | .tok k => some [[.f 0 (.tok [k])]]
  | .number => some (one .plain)
  | .simpleNumber => some [[.f 0 .simple]]
  | .r n => some (d n)
  | .seq a b => do
    let xs ← a.forms d
    let ys ← b.forms d
    some (xs.flatMap fun x => ys.map fun y => x ++ y.map (shiftItem a.width))
  | .alt a b => do some (union (← a.forms d) (← b.forms d))
  | .ifAmbiguous a b => do some (union (← a.forms d) (← b.forms d))
  | .opt a => do
    let (x, m, y) ← around1 (← a.forms d)
    if a.width = 1 then some [[.f 0 (.opt x m y)]] else Option.none
  | .many a => do
    let (x, m, y) ← around1 (← a.forms d)
    some [[.f 0 (.many x m y)]]
  | .tailed .values (.tok k) a => do
    match ← a.forms d with
    | [[.f 0 m]] => some [[.f 0 (.sep (!a.early) k m)]]
    | _ => Option.none
  | .tailed .. => Option.none
  | .tailed1Values (.tok k) a => do
    match ← a.forms d with
    | [[.f 0 m]] => some [[.f 0 (.sep1 (!a.early) k m)]]
    | _ => Option.none
  | .tailed1Values .. => Option.none
  | .resume (.tok k) a => do
    match ← a.forms d with
    | [[.f 0 m]] => some [[.f 0 (.more (!a.early) k m)]]
    | _ => Option.none
  | .resume .. => Option.none
  | .implTailed .block .statement (.tok .Semicolon) a => do
    if (← a.forms d) = one .plain ∧ a.early then some [[.body 0 1]] else Option.none
  | .implTailed .values .matchArm (.tok .Comma) a => do
    if (← a.forms d) = one .plain then some [[.f 0 .arms]] else Option.none
  | .implTailed .. => Option.none
  | .nested o _ => some [[.t o, .f 0 .text]]
  | .ext (.tok k) => some [[.f 0 (.tok [k])]]
  | .ext (.peek _) => some [[.f 0 .here]]
  | .ext _ => Option.none
  | .drop (.tok k) => some [[.t k]]
  | .drop (.opt (.tok k)) => some [[.maybe k]]
  | .drop _ => Option.none
  | .map .externAbi (.opt (.r n)) =>
    match d n with
    | [[.f 0 m, .f 1 m']] => if Mode.isList m' then some [[.f 0 .none, .f 1 .none], [.f 0 (.some m), .f 1 m']] else Option.none
    | _ => Option.none
  | .map fn a => do fn.forms (← a.forms d)
  | .build (.node k) a => if emptyExtent k then Option.none else do (fitStyle Style.all (Spec.forms · k) (← a.forms d)).map one
  | .build .paren a => if a = parenBody ∧ d .expression = one .plain then some (one .plain) else Option.none
  | .build .tupleBody a => do
    match ← a.forms d with
    | [[.t x, .f 0 m, .t y, .f 1 n, .t z]] =>
      if Form.allLe [[.t x, .f 0 m, .t y]] (Spec.forms .plain .StructDefinitionBodyTuple) then some [[.f 1 (.val .plain), .f 0 n, .t z]]
      else Option.none
    | _ => Option.none
  | .build .span _ => Option.none
  | .nodeEmpty k a =>
    if !emptyExtent k then Option.none else
    if a = .map .fieldValue fieldBody then
      if k = .StructLiteralField ∧ d .ident = one .plain ∧
        d .expr_value_struct_literal_field_value = [[.t .Colon, .f 0 (.val .plain)]] then some (one .plain) else Option.none
    else do (fitStyle Style.all (Spec.forms · k) (← a.forms d)).map one
  | .mapErr _ a => a.forms d
  | .peek _ => Option.none
  | .amb _ a => a.forms d
  | .notMaximum a => a.forms d

/-- The forms of what the parser functions return. -/
def NT.forms : NT → List Frm
  | .function_qualifier_extern => [[.f 0 (.tok [.Extern]), .f 1 (.opt [] (.val .plain) [])]]
  | .generic_declaration_lifetime_bounds => [[.t .Colon, .f 0 (.sep false .Plus (.val .plain))]]
  | .generic_declaration_type_bounds | .operator_postfix_ascription | .expr_let_type | .expr_closure_arg_type
  | .expr_value_struct_literal_field_value => [[.t .Colon, .f 0 (.val .plain)]]
  | .generic_declaration_type_default | .enum_discriminant | .trait_member_const_value | .expr_let_rhs =>
    [[.t .Equals, .f 0 (.val .plain)]]
  | .function_arglist | .trait_impl_function_arglist =>
    [[.t .LeftParen, .f 0 (.both (.opt [] (.val .plain) []) (.sep true .Comma (.val .plain))), .t .RightParen]]
  | .function_return_type => [[.t .ThinArrow, .f 0 (.val .plain)]]
  | .where_clause => [[.t .Where, .f 0 (.sep1 true .Comma (.val .plain))]]
  | .statement_empty => [[.f 0 .here]]
  | .item_macro_call | .item_macro_call_args => one .item
  | .item_macro_call_paren => [[.t .LeftParen, .f 0 .text, .t .RightParen, .t .Semicolon]]
  | .item_macro_call_square => [[.t .LeftSquare, .f 0 .text, .t .RightSquare, .t .Semicolon]]
  | .item_macro_call_curly | .expr_macro_call_curly => [[.t .LeftCurly, .f 0 .text, .t .RightCurly]]
  | .expr_macro_call_paren => [[.t .LeftParen, .f 0 .text, .t .RightParen]]
  | .expr_macro_call_square => [[.t .LeftSquare, .f 0 .text, .t .RightSquare]]
  | .struct_defn_body =>
    [[.f 0 (.group [.Where] (.sep1 true .Comma (.val .plain)) []), .f 1 (.variant .plain .StructDefinitionBody_Brace)],
     [.f 1 (.variant .plain .StructDefinitionBody_Tuple), .f 0 (.group [.Where] (.sep1 true .Comma (.val .plain)) []), .t .Semicolon],
     [.f 0 .none, .f 1 (.variant .plain .StructDefinitionBody_Empty)]]
  | .struct_defn_body_brace => [[.f 0 (.group [.Where] (.sep1 true .Comma (.val .plain)) []), .f 1 (.val .plain)]]
  | .struct_defn_body_tuple => [[.f 1 (.val .plain), .f 0 (.group [.Where] (.sep1 true .Comma (.val .plain)) []), .t .Semicolon]]
  | .struct_defn_body_tuple_only | .operator_postfix_call => [[.t .LeftParen, .f 0 (.sep true .Comma (.val .plain)), .t .RightParen]]
  | .visibility_public_qualifier => [[.t .LeftParen, .f 0 (.val .plain), .t .RightParen]]
  | .trait_impl_function_argument_name | .typ_function_argument_name | .loop_label => [[.f 0 (.val .plain), .t .Colon]]
  | .trait_impl_function_body => [[.f 0 (.some (.val .plain))], [.t .Semicolon, .f 0 .none]]
  | .extern_crate_rename | .use_tail_ident_rename | .disambiguation_core_to_type => [[.t .As, .f 0 (.val .plain)]]
  | .operator_postfix_as_type => [[.t .As, .f 0 (.val .single)]]
  | .typ_single => one .single
  | .extern_block_function_arglist => [[.t .LeftParen, .f 0 (.sep false .Comma (.val .plain)), .t .RightParen]]
  | .use_path_component => [[.f 0 (.val .path), .t .DoubleColon]]
  | .path_member => one .path
  | .module_body_or_not =>
    [[.t .LeftCurly, .f 0 (.some (.many [] (.val .plain) [])), .t .RightCurly], [.t .Semicolon, .f 0 .none]]
  | .module_body => [[.t .LeftCurly, .f 0 (.many [] (.val .plain) []), .t .RightCurly]]
  | .higher_ranked_trait_bounds => [[.t .For, .t .LeftAngle, .f 0 (.sep false .Comma (.val .plain)), .t .RightAngle]]
  | .disambiguation_core => [[.t .LeftAngle, .f 0 (.val .plain), .f 1 (.opt [.As] (.val .plain) []), .t .RightAngle]]
  | .operator_prefix_reference => [[.t .Ampersand, .f 0 (.opt [] (.tok [.Mut]) [])]]
  | .operator_postfix_field_access => [[.t .Period, .f 0 (.val .plain)]]
  | .field_name_number => [[.f 0 .simple]]
  | .operator_postfix_slice => [[.t .LeftSquare, .f 0 (.val .plain), .t .RightSquare]]
  | .expr_if_else_if | .expr_if_else_end => [[.t .Else, .f 0 (.val .plain)]]
  | .expr_followed_by_block => [[.f 0 (.val .plain), .f 1 (.val .plain)]]
  | .match_arm_guard => [[.t .If, .f 0 (.val .plain)]]
  | .expr_closure_return =>
    [[.t .ThinArrow, .f 0 (.some (.val .plain)), .f 1 (.val .plain)], [.f 0 .none, .f 1 (.val .plain)]]
  | .expr_closure_return_explicit => [[.t .ThinArrow, .f 0 (.some (.val .plain)), .f 1 (.val .plain)]]
  | .expr_closure_return_inferred => [[.f 0 .none, .f 1 (.val .plain)]]
  | .expr_value_struct_literal_splat => [[.t .DoublePeriod, .f 0 (.val .plain)]]
  | _ => one .plain

/-- What a rule returns is as the table says. -/
def NT.formsOk (nt : NT) : Bool :=
  match rules nt with
  | .g g => match g.forms NT.forms with | some xs => Form.allLe xs nt.forms | Option.none => false
  | .expr _ => nt.forms = one .plain

end Verif
