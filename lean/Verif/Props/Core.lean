import Verif.Proofs.CoreFile
/-!
# Programs are accepted

C47.
-/

namespace Verif
open Verif.Spec Verif.Spec.Core CoreP

namespace Props

/-- C47: a text whose significant tokens are a program written by the grammar is accepted, and its tree is as the grammar says. -/
theorem C47_accepted (X : Xid) (cl cp : Bool) (code : Text) (ts toks : List Token) (e : Extent) (xs : List Lexeme) (items : List V)
    (h : lex X cl code = .ok ts) (ht : ts.filter (fun t => !isTrivia t) = toks ++ [.plain .EndOfFile e])
    (hw : Written xs toks) (hp : Writes .free (.many .attrItem) xs (L items)) :
    ∃ f, parseRustFile X cl cp code = .ok f ∧ shapes f.items = shapes items := by
  rw [← significant_eq] at ht
  have he : EofLast (toks ++ [.plain .EndOfFile e]) := ht ▸ (Src.of_extract (extract_ok h)).eof
  have hat := written_at hw (e := e) []
  rw [List.nil_append] at hat
  obtain ⟨vs, hv, hr⟩ := CoreP.read (toks := toks ++ [.plain .EndOfFile e]) hp
  cases hv
  rcases parseRustFile_cases X cl cp code (Ψ := fun _ _ _ _ _ _ => True) (fun _ _ => true_inductive) with
    ⟨d, hd, -⟩ | ⟨us, loc, errs, hl, hpt, -⟩ | ⟨f, us, items', q, hr', hpt, hf⟩
  · rw [h] at hd; cases hd
  · rw [h] at hl; cases hl
    rw [ht] at hpt
    obtain ⟨ws, h1, -⟩ := parseItems_complete he cp hr _ .new .zero [] hat rfl (Nat.lt_succ_self _)
    have h2 : parseTokens _ cp = .ok ws := h1
    rw [h2] at hpt; cases hpt
  · have hl := hf.lexed
    rw [h] at hl; cases hl
    rw [ht] at hpt
    obtain ⟨ws, h1, h3⟩ := parseItems_complete he cp hr _ .new .zero [] hat rfl (Nat.lt_succ_self _)
    have h2 : parseTokens _ cp = .ok ws := h1
    rw [h2] at hpt; cases hpt
    refine ⟨f, hr', ?_⟩
    rw [← shapes_bareL, hf.took.bare, shapes_bareL]
    exact h3

/-- C47: the grammar gives a text at most one tree, however its tokens are read as symbols. -/
theorem C47_unambiguous (X : Xid) (cl : Bool) (code : Text) (ts toks toks' : List Token) (e e' : Extent) (xs xs' : List Lexeme)
    (items items' : List V) (h : lex X cl code = .ok ts)
    (ht : ts.filter (fun t => !isTrivia t) = toks ++ [.plain .EndOfFile e]) (hw : Written xs toks)
    (hp : Writes .free (.many .attrItem) xs (L items))
    (ht' : ts.filter (fun t => !isTrivia t) = toks' ++ [.plain .EndOfFile e']) (hw' : Written xs' toks')
    (hp' : Writes .free (.many .attrItem) xs' (L items')) : shapes items = shapes items' := by
  obtain ⟨f, h1, h2⟩ := C47_accepted X cl true code ts toks e xs items h ht hw hp
  obtain ⟨f', h3, h4⟩ := C47_accepted X cl true code ts toks' e' xs' items' h ht' hw' hp'
  rw [h1] at h3
  cases h3
  exact h2.symm.trans h4

/-- For the examples: the tokens appear as these symbols, up to the end of the file. -/
def spelt : List Lexeme → List Token → Bool
  | [], [.plain .EndOfFile _] => true
  | .t k :: xs, .plain k' _ :: ts => k == k' && spelt xs ts
  | .j k :: s :: xs, .plain k' _ :: ts =>
    if k == k' then spelt (s :: xs) ts
    else match s with
      | .t l | .j l => Spec.glue k l == some k' && spelt xs ts
      | .num _ => false
  | .num m :: xs, .number n :: ts => decide (SameKind (.number n) (.number m)) && spelt xs ts
  | _, _ => false

theorem spelt_written (xs : List Lexeme) (ts : List Token) (h : spelt xs ts = true) :
    ∃ toks e, ts = toks ++ [.plain .EndOfFile e] ∧ Written xs toks := by
  induction xs, ts using spelt.induct with
  | case1 e => exact ⟨[], e, rfl, .nil⟩
  | case2 k xs k' e ts ih =>
    simp only [spelt, Bool.and_eq_true, beq_iff_eq] at h
    obtain ⟨rfl, h⟩ := h
    obtain ⟨toks, e', rfl, h'⟩ := ih h
    exact ⟨_, e', rfl, .t h'⟩
  | case3 k s xs k' e ts hk ih =>
    simp only [spelt, hk, if_true] at h
    simp only [beq_iff_eq] at hk
    subst hk
    obtain ⟨toks, e', rfl, h'⟩ := ih h
    exact ⟨_, e', rfl, .j h'⟩
  | case4 k xs k' e ts hk l ih =>
    simp only [spelt, hk, Bool.false_eq_true, if_false, Bool.and_eq_true, beq_iff_eq] at h
    obtain ⟨toks, e', rfl, h'⟩ := ih h.2
    exact ⟨_, e', rfl, .glue rfl h.1 h'⟩
  | case5 k xs k' e ts hk l ih =>
    simp only [spelt, hk, Bool.false_eq_true, if_false, Bool.and_eq_true, beq_iff_eq] at h
    obtain ⟨toks, e', rfl, h'⟩ := ih h.2
    exact ⟨_, e', rfl, .glue rfl h.1 h'⟩
  | case6 k xs k' e ts hk n => simp [spelt, hk] at h
  | case7 m xs n ts ih =>
    simp only [spelt, Bool.and_eq_true, decide_eq_true_eq] at h
    obtain ⟨toks, e', rfl, h'⟩ := ih h.2
    exact ⟨_, e', rfl, .num h.1 h'⟩
  | case8 => simp [spelt] at h

theorem written_of_spelt {X : Xid} {code : Text} {xs : List Lexeme}
    (h : LexResult.okWith (lex X true code) (fun ts => spelt xs (ts.filter fun t => !isTrivia t)) = true) :
    ∃ ts toks e, lex X true code = .ok ts ∧ ts.filter (fun t => !isTrivia t) = toks ++ [.plain .EndOfFile e] ∧ Written xs toks := by
  cases hl : lex X true code with
  | ok ts =>
    rw [hl] at h
    obtain ⟨toks, e, h1, h2⟩ := spelt_written _ _ h
    exact ⟨ts, toks, e, rfl, h1, h2⟩
  | err d => rw [hl] at h; cases h
  | panic => rw [hl] at h; cases h
  | hang => rw [hl] at h; cases h

/-- A program whose angle brackets are written together. -/
example : ∃ ts toks e xs items, lex asciiXid true c!"pub struct S<T>(Vec<Vec<T>>);" = .ok ts ∧
    ts.filter (fun t => !isTrivia t) = toks ++ [.plain .EndOfFile e] ∧ Written xs toks ∧
    Writes .free (.many .attrItem) xs (L items) := by
  have ty : ∀ {xs v}, Writes .free .comp xs v → Writes .free .typ (xs ++ []) _ := fun h => .typSum (.kindB (.named (.sep1One h))) .noMore
  have nm : Writes .free .comp [.t .Ident] _ := .comp .seg .optNone
  have vec : ∀ {xs v}, Writes .free .typ xs v → Writes .free .comp ([.t .Ident] ++ (.j .LeftAngle :: xs ++ [.j .RightAngle])) _ :=
    fun h => .comp .seg (.optSome (.angle (.sepOne (.memberType h))))
  have f := Writes.tupleField .manyNil (.but (k := .Crate) (ty (vec (ty (vec (ty nm))))) (by simp [Lexeme.kind]))
  have g := Writes.genericsType (w := .free) .eachNil (.sepOne (.genType .name .optNone .optNone))
  have s := Writes.manyCons (.attrItem .manyNil (.structTuple (.optSome .vis) .name (.optSome g) (.sepOne f) .noWheres)) .manyNil
  obtain ⟨ts, toks, e, h1, h2, h3⟩ := written_of_spelt (X := asciiXid) (code := c!"pub struct S<T>(Vec<Vec<T>>);")
    (xs := [.t .Pub, .t .Struct, .t .Ident, .j .LeftAngle, .t .Ident, .j .RightAngle, .t .LeftParen, .t .Ident,
      .j .LeftAngle, .t .Ident, .j .LeftAngle, .t .Ident, .j .RightAngle, .j .RightAngle, .t .RightParen, .t .Semicolon])
    (by decide +kernel)
  exact ⟨ts, toks, e, _, _, h1, h2, h3, s⟩

/-- A function with statements and operators. -/
example : ∃ ts toks e xs items, lex asciiXid true c!"fn f(x: u8) -> u8 { let y = x + b.g(1)?; if y < 2 { h(); } &y }" = .ok ts ∧
    ts.filter (fun t => !isTrivia t) = toks ++ [.plain .EndOfFile e] ∧ Written xs toks ∧
    Writes .free (.many .attrItem) xs (L items) := by
  let n : Number := ⟨.Decimal, ⟨0, 1⟩, ⟨0, 1⟩, none, none, none, 0⟩
  have path : ∀ {w}, Writes w .pathed [.t .Ident] _ := fun {w} => .pathed (.sep1One (.pcomp (xs := [.t .Ident]) .seg .optNone))
  have ty : ∀ {w}, Writes w .typ [.t .Ident] _ := fun {w} =>
    .typSum (xs := [.t .Ident]) (.kindB (.named (.sep1One (.comp (xs := [.t .Ident]) .seg .optNone)))) .noMore
  have var : ∀ {w}, Writes w (.operand false .plain) [.t .Ident] _ := fun {w} =>
    .operandAtom (as := []) .manyNil (.value (by cases w <;> exact path))
  have leaf : ∀ {w s}, Writes w (.left s .plain) [.t .Ident] _ := fun {w s} => .left (q := .plain) var (by cases s <;> rfl)
  have pat : ∀ {w}, Writes w .pattern [.t .Ident] _ := fun {w} =>
    .pattern (.patIdent (xs := []) (ys := []) (zs := [.t .Ident]) .optNone .optNone (.but path (by simp [Lexeme.kind])) .optNone)
  have number : ∀ {w}, Writes w (.operand false .plain) [.num n] _ := fun {w} => .operandAtom (as := []) .manyNil .atomNum
  have one : Writes .free (.expr false) [.num n] _ := .expr (.left (s := false) (q := .plain) number rfl) (by simp)
  have plus : Writes .free (.left false .plain) [.t .Ident, .t .Plus, .t .Ident] _ := .binary (k := .Plus) (leaf (s := false)) rfl (by decide) var
  have call := Writes.try_ (.call (.access plus (.pcomp (xs := [.t .Ident]) .seg .optNone)) (by decide) (.sepOne one))
  have let' : Writes .free (.expr true) _ _ :=
    .exprOpen (.openAtom (as := []) (u := false) .manyNil (.let_ pat .optNone (.expr call (by simp))))
  have head : Writes .head (.expr false) [.t .Ident, .t .LeftAngle, .num n] _ :=
    .expr (.binary (k := .LeftAngle) (leaf (s := false)) rfl (by decide) number) (by simp)
  have unit : Writes .free (.expr true) [.t .Ident, .t .LeftParen, .t .RightParen] _ := .expr (.call (leaf (s := true)) (by decide) .sepNil) (by simp)
  have body := Writes.block (.stmtsExpr unit .stmtsNil) (by decide)
  have if' := Writes.brc (as := []) .manyNil (.if_ (.ifOnly head body))
  have stmts := Writes.stmtsExpr let' (.stmtsBrace if' (.but .stmtsNil (by simp)))
  have last : Writes .free .last [.j .Ampersand, .t .Ident] _ :=
    .last (.expr (.left (s := true) (q := .plain) (.operandPre (as := []) .ref .manyNil var) rfl) (by decide))
  have fn := Writes.function (.fnHead .optNone (.quals .optNone .optNone .optNone .optNone) .word .optNone
    (.args (.list (.sepOne (.fnArg pat ty)))) (.optSome (.ret ty)) .noWheres) (.blockValue stmts (by decide) last)
  obtain ⟨ts, toks, e, h1, h2, h3⟩ := written_of_spelt (X := asciiXid)
    (code := c!"fn f(x: u8) -> u8 { let y = x + b.g(1)?; if y < 2 { h(); } &y }")
    (xs := [.t .Fn, .t .Ident, .t .LeftParen, .t .Ident, .t .Colon, .t .Ident, .t .RightParen, .t .ThinArrow, .t .Ident, .t .LeftCurly,
      .t .Let, .t .Ident, .t .Equals, .t .Ident, .t .Plus, .t .Ident, .t .Period, .t .Ident, .t .LeftParen, .num n, .t .RightParen,
      .t .QuestionMark, .t .Semicolon, .t .If, .t .Ident, .t .LeftAngle, .num n, .t .LeftCurly, .t .Ident, .t .LeftParen, .t .RightParen,
      .t .Semicolon, .t .RightCurly, .j .Ampersand, .t .Ident, .t .RightCurly])
    (by decide +kernel)
  exact ⟨ts, toks, e, _, _, h1, h2, h3, .manyCons (.attrItem .manyNil fn) .manyNil⟩

/-- `default` as a name, and the type of a function with a lifetime of its own. -/
example : ∃ ts toks e xs items, lex asciiXid true c!"impl Default for S { fn default() -> F { S::default() } m!(); } type F = for<'a> fn(&'a u8);" = .ok ts ∧
    ts.filter (fun t => !isTrivia t) = toks ++ [.plain .EndOfFile e] ∧ Written xs toks ∧
    Writes .free (.many .attrItem) xs (L items) := by
  have ty : Writes .free .typ [.t .Ident] _ :=
    .typSum (xs := [.t .Ident]) (.kindB (.named (.sep1One (.comp (xs := [.t .Ident]) .seg .optNone)))) .noMore
  have path : Writes .free .pathed [.t .Ident, .t .DoubleColon, .t .Default] _ :=
    .pathed (.sep1Cons (xs := [.t .Ident]) (.pcomp (xs := [.t .Ident]) .seg .optNone)
      (.sep1One (.pcomp (xs := [.t .Default]) .segDefault .optNone)))
  have opd : Writes .free (.operand false .plain) [.t .Ident, .t .DoubleColon, .t .Default] _ :=
    .operandAtom (as := []) .manyNil (.value path)
  have call : Writes .free .last [.t .Ident, .t .DoubleColon, .t .Default, .t .LeftParen, .t .RightParen] _ :=
    .last (.expr (f := .plain) (.call (.left (s := true) (q := .plain) opd rfl) (by decide) .sepNil) (by simp))
  have fn := Writes.implFn (w := .free) .manyNil (.fnHead .optNone (.quals .optNone .optNone .optNone .optNone) .wordDefault .optNone
    .noArgs (.optSome (.ret ty)) .noWheres) (.blockValue .stmtsNil (by decide) call)
  have mac := Writes.implMacroEnd (w := .free) (o := .LeftParen) (c := .RightParen) (by simp) .manyNil
    (.pathed (.sep1One (.pcomp (xs := [.t .Ident]) .seg .optNone))) .optNone (.nest (xs := []) rfl)
  have im := Writes.implTrait (w := .free) .optNone .optNone (.but (.but ty (by simp [Lexeme.kind])) (by simp [Lexeme.kind])) ty .noWheres
    (.manyCons fn (.manyCons mac .manyNil))
  have lf : Writes .free .lifetime [.t .Lifetime] _ := .lifetime
  have ref : Writes .free .typ [.j .Ampersand, .t .Lifetime, .t .Ident] _ := .typ (.reference (.optSome lf) .optNone ty)
  have al := Writes.typeAlias (w := .free) .optNone .name .optNone .noWheres
    (.typ (.forFn (.lifes (.sepOne lf)) (.but (.quals .optNone .optNone .optNone .optNone) (by simp)) (.sepOne (.fnTypeArg .optNone ref)) .optNone))
  obtain ⟨ts, toks, e, h1, h2, h3⟩ := written_of_spelt (X := asciiXid)
    (code := c!"impl Default for S { fn default() -> F { S::default() } m!(); } type F = for<'a> fn(&'a u8);")
    (xs := [.t .Impl, .t .Ident, .t .For, .t .Ident, .t .LeftCurly, .t .Fn, .t .Default, .t .LeftParen, .t .RightParen, .t .ThinArrow,
      .t .Ident, .t .LeftCurly, .t .Ident, .t .DoubleColon, .t .Default, .t .LeftParen, .t .RightParen, .t .RightCurly,
      .t .Ident, .t .Bang, .t .LeftParen, .t .RightParen, .t .Semicolon, .t .RightCurly,
      .t .Type, .t .Ident, .t .Equals, .t .For, .j .LeftAngle, .t .Lifetime, .j .RightAngle, .t .Fn, .t .LeftParen, .j .Ampersand,
      .t .Lifetime, .t .Ident, .t .RightParen, .t .Semicolon])
    (by decide +kernel)
  exact ⟨ts, toks, e, _, _, h1, h2, h3, .manyCons (.attrItem .manyNil im) (.manyCons (.attrItem .manyNil al) .manyNil)⟩

end Props
end Verif
