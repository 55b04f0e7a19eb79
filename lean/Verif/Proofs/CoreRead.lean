import Verif.Proofs.CoreBlock
/-!
# What is written by the grammar is read by the parser: the cases
-/

namespace Verif
open Spec Spec.Core

namespace CoreP
set_option hygiene false in
open Lean Elab Tactic Meta in
/-- Take what is known of the parts: short parts are put in, the others become chunks. -/
elab "parts" : tactic => do
  let rec go (fuel : Nat) : TacticM Unit := do
    match fuel with
    | 0 => return
    | fuel + 1 =>
      let found ← withMainContext do
        for d in ← getLCtx do
          if d.isImplementationDetail then continue
          let t ← instantiateMVars d.type
          if t.isAppOfArity ``CoreP.Sem 5 then
            return some (d.fvarId, (t.getArg! 2).getAppFn.constName?)
        return none
      match found with
      | none => return
      | some (f, c) =>
        let h := Lean.mkIdent `this
        let g ← (← getMainGoal).rename f `this
        replaceMainGoal [g]
        if c == some ``Cat.kw || c == some ``Cat.name || c == some ``Cat.rename then
          evalTactic (← `(tactic| obtain ⟨rfl, rfl⟩ := $h))
          go fuel
        else if c == some ``Cat.seg then
          evalTactic (← `(tactic| obtain ⟨rfl | rfl | rfl | rfl | rfl, rfl⟩ := $h:ident))
          let gs ← getGoals
          let mut out := []
          for g in gs do
            setGoals [g]
            go fuel
            out := out ++ (← getGoals)
          setGoals out
        else
          evalTactic (← `(tactic| replace $h:ident := Sem.chunk _ (by rfl) $h:ident))
          let m ← getMainGoal
          let g ← m.withContext do m.rename ((← getLCtx).findFromUserName? `this).get!.fvarId `part
          replaceMainGoal [g]
          go fuel
  go 20

open Lean Elab Tactic Meta in
/-- The pieces of some symbols. -/
elab "pieces" : tactic => do
  let g ← getMainGoal
  g.withContext do
    let t ← instantiateMVars (← g.getType)
    let toks := t.getArg! 0
    let known (x : Expr) : MetaM Expr := do
      for d in ← getLCtx do
        let t ← instantiateMVars d.type
        if t.isAppOfArity ``Chunk.Sem 3 && t.getArg! 2 == x then return d.toExpr
      throwError "not known: {x}"
    let rec go (fuel : Nat) (e : Expr) : MetaM Expr := do
      match fuel with
      | 0 => throwError "too long"
      | fuel + 1 =>
        if e.isAppOf ``List.nil then return mkApp (mkConst ``Denotes.nil) toks
        if e.isAppOfArity ``List.cons 3 then
          let h ← go fuel (e.getArg! 2)
          return ← mkAppOptM ``Denotes.s #[toks, some (e.getArg! 1), none, none, some h]
        if e.isAppOfArity ``HAppend.hAppend 6 then
          let h ← known (e.getArg! 4)
          let h' ← go fuel (e.getArg! 5)
          return ← mkAppM ``Denotes.c #[h, h']
        mkAppM ``Denotes.last #[← known e]
    let p ← go 100 (t.getArg! 2)
    unless ← isDefEq (← inferType p) t do throwError "no pieces"
    g.assign p
  replaceMainGoal []

/-- One case. -/
macro "case!" : tactic => `(tactic| (
  try cases ‹Place›
  all_goals parts
  all_goals (
    apply made (c := chunk _ _ _) (hg := rfl) (hv := rfl)
    · try simp only [commaIf, Bool.false_eq_true, ↓reduceIte, List.append_assoc, List.cons_append, List.nil_append, List.append_nil]
      pieces
    · krfl
    · krfl)))

section
variable {toks : List Token}

theorem list_nil (a : List V) : L a = L (a ++ []) := by simp

theorem read {w : Place} {c : Cat} {xs : List Lexeme} {v : V} (h : Writes w c xs v) : Sem toks w c xs v := by
  induction h with
  | optNone => exact .inl ⟨rfl, rfl⟩
  | optSome _ ih => exact .inr ⟨_, rfl, ih⟩
  | sepNil => exact ⟨[], rfl, .nil⟩
  | sepOne _ ih => exact ⟨_, rfl, .one ih⟩
  | sepCons _ _ ih ih' => obtain ⟨vs, h, ih'⟩ := ih'; cases h; exact ⟨_, rfl, .cons ih ih'⟩
  | eachNil => exact ⟨[], rfl, .nil⟩
  | eachCons _ _ ih ih' => obtain ⟨vs, h, ih'⟩ := ih'; cases h; exact ⟨_, rfl, .cons ih ih'⟩
  | some _ ih => obtain ⟨vs, h, ih⟩ := ih; cases h; exact ⟨_, rfl, by simp, ih⟩
  | list _ ih => obtain ⟨vs, h, ih⟩ := ih; cases h; exact ⟨_, rfl, by simp, ih⟩
  | sep1One _ ih => exact ⟨_, rfl, .one ih⟩
  | sep1Cons _ _ ih ih' => obtain ⟨vs, h, ih'⟩ := ih'; cases h; exact ⟨_, rfl, .cons ih ih'⟩
  | tail _ ih => exact ih
  | noMore => exact .inl ⟨rfl, rfl⟩
  | more _ ih => obtain ⟨vs, h, ih⟩ := ih; exact .inr ⟨_, _, rfl, h, ih⟩
  | manyNil => exact ⟨[], rfl, .nil⟩
  | manyCons _ _ ih ih' => obtain ⟨vs, h, ih'⟩ := ih'; cases h; exact ⟨_, rfl, .cons ih ih'⟩
  | but _ hk ih => exact ⟨ih, hk⟩
  | kw | name => exact ⟨rfl, rfl⟩
  | seg => exact ⟨.inl rfl, rfl⟩
  | segDefault => exact ⟨.inr (.inl rfl), rfl⟩
  | segUnion => exact ⟨.inr (.inr (.inl rfl)), rfl⟩
  | segSelf => exact ⟨.inr (.inr (.inr (.inl rfl))), rfl⟩
  | segCrate => exact ⟨.inr (.inr (.inr (.inr rfl))), rfl⟩
  | «word» => case!
  | «wordDefault» => case!
  | «wordUnion» => case!
  | rename _ ih => obtain ⟨rfl, rfl⟩ := ih; exact ⟨rfl, rfl⟩
  | «lifetime» => case!
  | «str» => case!
  | «strRaw» => case!
  | «vis» => case!
  | «visCrate» => case!
  | «visSelf» => case!
  | «visPath» => case!
  | nest h => exact ⟨⟨_, rfl, h⟩, rfl⟩
  | «pcomp» => case!
  | «turboLife» => case!
  | «turbo» => case!
  | «pathed» => case!
  | «pathedRoot» => case!
  | «pattern» => case!
  | «patternName» => case!
  | patName _ _ h1 h2 =>
    rcases h1 with ⟨rfl, rfl⟩ | ⟨_, rfl, h1⟩ <;> rcases h2 with ⟨rfl, rfl⟩ | ⟨_, rfl, h2⟩ <;> case!
  | patIdent _ _ _ _ h1 h2 h3 h4 =>
    rcases h1 with ⟨rfl, rfl⟩ | ⟨_, rfl, h1⟩ <;> rcases h2 with ⟨rfl, rfl⟩ | ⟨_, rfl, h2⟩ <;> case!
  | «patTuple» => case!
  | «tupleMember» => case!
  | «tupleRest» => case!
  | «patTupleKind» => case!
  | «patSlice» => case!
  | «sliceMember» => case!
  | «sliceRest» => case!
  | sliceSub _ _ h1 h2 =>
    rcases h1 with ⟨rfl, rfl⟩ | ⟨_, rfl, h1⟩ <;> rcases h2 with ⟨rfl, rfl⟩ | ⟨_, rfl, h2⟩ <;> case!
  | «patStruct» => case!
  | «patStructRest» => case!
  | «patField» => case!
  | patShort _ _ _ h1 h2 h3 =>
    rcases h1 with ⟨rfl, rfl⟩ | ⟨_, rfl, h1⟩ <;> rcases h2 with ⟨rfl, rfl⟩ | ⟨_, rfl, h2⟩ <;> case!
  | «patChar» => case!
  | «patByte» => case!
  | «patBytes» => case!
  | «patStr» => case!
  | «patStrRaw» => case!
  | «patBytesRaw» => case!
  | «patNum» => case!
  | «patNeg» => case!
  | «patRef» => case!
  | «patRefMut» => case!
  | «patBox» => case!
  | patMacro ho =>
    simp only [List.mem_cons, Prod.mk.injEq, List.not_mem_nil, or_false] at ho
    rcases ho with ⟨rfl, rfl⟩ | ⟨rfl, rfl⟩ | ⟨rfl, rfl⟩ <;> case!
  | «patRange» => case!
  | «patRangeTo» => case!
  | «patRangeOld» => case!
  | «endPath» => case!
  | «endChar» => case!
  | «endByte» => case!
  | «endNum» => case!
  | «endNeg» => case!
  | «typ» => case!
  | «typSum» => case!
  | «also» => case!
  | «alsoLife» => case!
  | «alsoF» => case!
  | «alsoFn» => case!
  | «typ1» => case!
  | «kindB» => case!
  | «dyn» => case!
  | «impl» => case!
  | «kind» => case!
  | «dynF» => case!
  | «implF» => case!
  | «never» => case!
  | «slice» => case!
  | «tuple» => case!
  | «pointerConst» => case!
  | «pointerMut» => case!
  | «reference» => case!
  | fnType =>
    rw [list_nil]
    case!
  | «fnTypeDots» => case!
  | «forNamed» => case!
  | forFn =>
    rw [list_nil]
    case!
  | «forReference» => case!
  | «qself» => case!
  | «as» => case!
  | «lifes» => case!
  | «named» => case!
  | «namedRoot» => case!
  | «namedF» => case!
  | «namedFRoot» => case!
  | «comp» => case!
  | «compF» => case!
  | «compFn» => case!
  | «angle» => case!
  | «memberLife» => case!
  | «memberType» => case!
  | «memberEqual» => case!
  | «memberBound» => case!
  | «ret» => case!
  | «argName» => case!
  | «fnTypeArg» => case!
  | quals _ _ _ _ h0 h1 h2 h3 =>
    rcases h0 with ⟨rfl, rfl⟩ | ⟨_, rfl, h0⟩ <;> rcases h1 with ⟨rfl, rfl⟩ | ⟨_, rfl, h1⟩ <;>
      rcases h2 with ⟨rfl, rfl⟩ | ⟨_, rfl, h2⟩ <;> rcases h3 with ⟨rfl, rfl⟩ | ⟨_, rfl, h3⟩ <;> case!
  | qualsExtern _ _ _ _ _ h0 h1 h2 h3 h4 =>
    rcases h0 with ⟨rfl, rfl⟩ | ⟨_, rfl, h0⟩ <;> rcases h1 with ⟨rfl, rfl⟩ | ⟨_, rfl, h1⟩ <;> rcases h2 with ⟨rfl, rfl⟩ | ⟨_, rfl, h2⟩ <;>
      rcases h3 with ⟨rfl, rfl⟩ | ⟨_, rfl, h3⟩ <;> rcases h4 with ⟨rfl, rfl⟩ | ⟨_, rfl, h4⟩ <;> case!
  | «bounds» => case!
  | «boundLife» => case!
  | «bound» => case!
  | «boundMaybe» => case!
  | «boundF» => case!
  | «boundFn» => case!
  | «boundFor» => case!
  | «hasBounds» => case!
  | «hasDefault» => case!
  | «outlives» => case!
  | «generics» => case!
  | «genericsType» => case!
  | «genericsConst» => case!
  | «genLife» => case!
  | «genLifeOutlives» => case!
  | «genType» => case!
  | «genConst» => case!
  | «noWheres» => case!
  | «wheres» => case!
  | «whereLife» => case!
  | «whereType» => case!
  | «whereFor» => case!
  | «attrItem» => case!
  | externCrate _ _ _ h1 h2 h3 =>
    rcases h3 with ⟨rfl, rfl⟩ | ⟨_, rfl, h3⟩ <;> case!
  | «use» => case!
  | «useRoot» => case!
  | «usePath» => case!
  | «useStep» => case!
  | «useName» => case!
  | «useSelf» => case!
  | «useGlob» => case!
  | «useMulti» => case!
  | «typeAlias» => case!
  | «module» => case!
  | «moduleBody» => case!
  | «attrDoc» => case!
  | «attrDocBlock» => case!
  | «attr» => case!
  | «innerDoc» => case!
  | «innerDocBlock» => case!
  | «inner» => case!
  | «itemMacro» => case!
  | itemMacroEnd ho =>
    simp only [List.mem_cons, Prod.mk.injEq, List.not_mem_nil, or_false] at ho
    rcases ho with ⟨rfl, rfl⟩ | ⟨rfl, rfl⟩ <;> case!
  | selfShort => cases ‹Bool› <;> case!
  | selfMut => cases ‹Bool› <;> case!
  | selfRef => cases ‹Bool› <;> case!
  | selfLong _ _ h1 => cases ‹Bool› <;> rcases h1 with ⟨rfl, rfl⟩ | ⟨_, rfl, h1⟩ <;> case!
  | «fnArg» => case!
  | «noArgs» => case!
  | «args» => case!
  | argsSelf => cases ‹Bool› <;> case!
  | «argsMethod» => case!
  | «traitArg» => case!
  | «noTraitArgs» => case!
  | «traitArgs» => case!
  | traitArgsSelf => cases ‹Bool› <;> case!
  | «traitArgsMethod» => case!
  | «traitHead» => case!
  | «traitFn» => case!
  | «traitType» => case!
  | «traitConst» => case!
  | trait _ _ _ _ _ _ _ _ h1 h2 h3 =>
    rcases h1 with ⟨rfl, rfl⟩ | ⟨_, rfl, h1⟩ <;> rcases h2 with ⟨rfl, rfl⟩ | ⟨_, rfl, h2⟩ <;>
      rcases h3 with ⟨rfl, rfl⟩ | ⟨_, rfl, h3⟩ <;> case!
  | «externBlock» => case!
  | «externStatic» => case!
  | «externType» => case!
  | «externFn» => case!
  | «externArg» => case!
  | «externDots» => case!
  | «struct» => case!
  | «structTuple» => case!
  | «structUnit» => case!
  | «body» => case!
  | «field» => case!
  | «tupleField» => case!
  | «tupleFieldVis» => case!
  | union _ _ _ _ _ h1 =>
    rcases h1 with ⟨rfl, rfl⟩ | ⟨_, rfl, h1⟩ <;> case!
  | «enum» => case!
  | «variantUnit» => case!
  | «variantTuple» => case!
  | «variantStruct» => case!
  | «typ1F» => case!
  | «arrayType» => case!
  | «function» => case!
  | «const» => case!
  | «static» => case!
  | «implConst» => case!
  | «implFn» => case!
  | «implMacro» => case!
  | implMacroEnd ho =>
    simp only [List.mem_cons, Prod.mk.injEq, List.not_mem_nil, or_false] at ho
    rcases ho with ⟨rfl, rfl⟩ | ⟨rfl, rfl⟩ <;> case!
  | «traitMacro» => case!
  | traitMacroEnd ho =>
    simp only [List.mem_cons, Prod.mk.injEq, List.not_mem_nil, or_false] at ho
    rcases ho with ⟨rfl, rfl⟩ | ⟨rfl, rfl⟩ <;> case!
  | implAll _ _ _ _ _ h1 h2 => rcases h1 with ⟨rfl, rfl⟩ | ⟨_, rfl, h1⟩ <;> rcases h2 with ⟨rfl, rfl⟩ | ⟨_, rfl, h2⟩ <;> case!
  | «implType» => case!
  | «traitBody» => case!
  | «constValue» => case!
  | «discriminant» => case!
  | «litField» => case!
  | litShort hk =>
    simp only [List.mem_cons, List.not_mem_nil, or_false] at hk
    rcases hk with rfl | rfl | rfl <;> case!
  | «closureArg» => case!
  | «argType» => case!
  | «letType» => case!
  | «ifOnly» => case!
  | «ifElse» => case!
  | «ifElseIf» => case!
  | «label» => case!
  | «guard» => case!
  | «atomChar» => exact ⟨by case!, rfl⟩
  | «atomStr» => exact ⟨by case!, rfl⟩
  | «atomByte» => exact ⟨by case!, rfl⟩
  | «atomBytes» => exact ⟨by case!, rfl⟩
  | «atomBytesRaw» => exact ⟨by case!, rfl⟩
  | «atomNum» => exact ⟨by case!, rfl⟩
  | «value» => exact ⟨by case!, rfl⟩
  | «structLit» => exact ⟨by case!, rfl⟩
  | «structLitRest» => exact ⟨by case!, rfl⟩
  | «qpath» => exact ⟨by case!, rfl⟩
  | «paren» => exact ⟨by case!, rfl⟩
  | «unit» => exact ⟨by case!, rfl⟩
  | «tupleE» => exact ⟨by case!, rfl⟩
  | «array» => exact ⟨by case!, rfl⟩
  | «arrayRepeat» => exact ⟨by case!, rfl⟩
  | «continue» => exact ⟨by case!, rfl⟩
  | «if_» => exact ⟨by case!, rfl⟩
  | «forLoop» => exact ⟨by case!, rfl⟩
  | «loop» => exact ⟨by case!, rfl⟩
  | «whileLoop» => exact ⟨by case!, rfl⟩
  | «match_» => exact ⟨by case!, rfl⟩
  | «unsafeBlock» => exact ⟨by case!, rfl⟩
  | «macroBlock» => exact ⟨by case!, rfl⟩
  | «return_» => exact ⟨by case!, rfl⟩
  | «returnNone» => exact ⟨by case!, rfl⟩
  | «break_» => exact ⟨by case!, rfl⟩
  | «breakLabel» => exact ⟨by case!, rfl⟩
  | «breakNone» => exact ⟨by case!, rfl⟩
  | «let_» => exact ⟨by case!, rfl⟩
  | «letNone» => exact ⟨by case!, rfl⟩
  | fnHead _ _ _ _ _ _ _ h1 =>
    rcases h1 with ⟨rfl, rfl⟩ | ⟨_, rfl, h1⟩ <;> case!
  | impl_ _ _ _ _ _ h1 h2 => rcases h1 with ⟨rfl, rfl⟩ | ⟨_, rfl, h1⟩ <;> rcases h2 with ⟨rfl, rfl⟩ | ⟨_, rfl, h2⟩ <;> case!
  | implTrait _ _ _ _ _ _ h1 h2 => rcases h1 with ⟨rfl, rfl⟩ | ⟨_, rfl, h1⟩ <;> rcases h2 with ⟨rfl, rfl⟩ | ⟨_, rfl, h2⟩ <;> case!
  | implNot _ _ _ _ _ _ h1 h2 => rcases h1 with ⟨rfl, rfl⟩ | ⟨_, rfl, h1⟩ <;> rcases h2 with ⟨rfl, rfl⟩ | ⟨_, rfl, h2⟩ <;> case!
  | macroCall ho =>
    simp only [List.mem_cons, Prod.mk.injEq, List.not_mem_nil, or_false] at ho
    rcases ho with ⟨rfl, rfl⟩ | ⟨rfl, rfl⟩ <;> exact ⟨by case!, rfl⟩
  | tupleItems _ _ h h' => exact tuple_items h h'
  | asyncBlock _ _ h1 => rcases h1 with ⟨rfl, rfl⟩ | ⟨_, rfl, h1⟩ <;> exact ⟨by case!, rfl⟩
  | closureTyped hw _ _ _ _ _ h1 h2 =>
    rcases h1 with ⟨rfl, rfl⟩ | ⟨_, rfl, h1⟩ <;> rcases h2 with ⟨rfl, rfl⟩ | ⟨_, rfl, h2⟩ <;> exact ⟨by
      cases ‹Place› <;> first | exact absurd rfl hw | case!, rfl⟩
  | closure _ _ _ _ h1 h2 =>
    rcases h1 with ⟨rfl, rfl⟩ | ⟨_, rfl, h1⟩ <;> rcases h2 with ⟨rfl, rfl⟩ | ⟨_, rfl, h2⟩ <;> exact ⟨by case!, rfl⟩
  | blockE hw => exact ⟨by cases ‹Place› <;> first | exact absurd rfl hw | case!, rfl⟩
  | armsNil => exact arms_nil
  | armsOne _ h => exact arms_one h
  | armsComma _ _ h h' => exact arms_comma h h'
  | armsBrace _ _ h h' => exact arms_brace h h'
  | «armBlock» => exact ⟨by case!, rfl⟩
  | «armExpr» => exact ⟨by case!, rfl⟩
  | operandAtom _ _ h h' => exact sem_operand h h'
  | operandPre p _ _ h h' => exact opd_pre p h h'
  | openAtom _ _ h h' => exact sem_open h h'
  | openPre p _ _ h h' => exact opd_pre p h h'
  | dots o _ h => exact dts_one o h
  | dotsPre p _ _ h h' => exact dts_pre p h h'
  | left _ hq h => exact sem_left h hq
  | binary _ hk hf _ h h' => exact lft_bin h hk hf h' fun k hk => List.mem_append_left _ hk
  | range o _ _ h h' => exact lft_range o h h' fun k hk => List.mem_append_left _ hk
  | access _ _ h h' => exact post_access h h'
  | index _ hn h => exact post_index h hn
  | call _ hf _ h h' => exact post_call h hf h'
  | subscript _ _ h h' => exact post_slice h h'
  | try_ _ h => exact post_try h
  | cast _ _ h h' => exact post_cast h h'
  | castF _ _ h h' => exact post_castF h h'
  | ascription _ _ h h' => exact post_ascription h h'
  | braceField _ _ _ h h' h'' => exact brace_access h h' h''
  | braceTry _ _ h h' => exact brace_try h h'
  | expr _ hf h => exact sem_expr_left h hf
  | exprOpen _ h => exact sem_exprOpen h
  | exprBinary _ hk hf _ h h' => exact sem_exprBinary h hk hf h'
  | exprRange o _ _ h h' => exact sem_exprRange o h h'
  | exprFrom o _ h => exact expr_from o h
  | exprDots _ h => exact expr_dts h
  | last _ h => exact last_expr h
  | lastMacro _ h => exact last_mac h
  | brc _ _ h h' => exact sem_brc h h'
  | stmtsNil => exact stmts_nil
  | stmtsExpr _ _ h h' => exact stmts_expr h h'
  | stmtsBrace _ _ h h' => exact stmts_brace h h'
  | stmtsBraceEnd _ _ h h' => exact stmts_braceEnd h h'
  | stmtsItem _ _ h h' => exact stmts_item h h'
  | stmtsItemEnd _ _ h h' => exact stmts_itemEnd h h'
  | stmtsEmpty _ h => exact stmts_empty h
  | block _ hb h => exact block_plain h hb
  | blockItem _ _ h h' => exact block_item h h'
  | blockBrace _ _ h h' => exact block_brace h h'
  | blockValue _ hb _ h h' => exact block_value h hb h'
  | blockLast _ _ h h' => exact block_last h h'

end
end CoreP
end Verif
