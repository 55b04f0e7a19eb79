import Verif.Proofs.Expect
/-!
# What is said to be expected: the rules

See `Proofs/Expect.lean`.
-/

namespace Verif

/-! ## The rules -/

/-- The error of every failure, if it is the same one. -/
def G.lastErr : G → Option PErr
  | .tok k => some (.Expected k)
  | .map _ a => a.lastErr
  | .alt _ b => b.lastErr
  | _ => Option.none

theorem token_err {α : Type} {toks : List Token} (conv : Token → Option α) (err : PErr) (a : Amb) (pt : Pt) :
    ∀ q e, (token toks conv err a pt).out = .fail q e → e = err := by
  intro q e
  unfold token
  dsimp only
  split
  · simp; grind
  · split
    · simp
    · split
      · simp
      · split
        · split <;> simp; grind
        · simp; grind

theorem evalG_lastErr {toks : List Token} {rec : NT → P (List V)} {e : PErr} (g : G) (h : g.lastErr = some e) :
    ∀ a pt q e1 a' l, evalG toks rec g a pt = ⟨.fail q e1, a', l⟩ → e1 = e := by
  induction g with
  | tok k =>
    simp [G.lastErr] at h
    subst h
    intro a pt q e1 a' l he
    simp only [evalG, P.map] at he
    have := token_err (toks := toks) (convTK k) (.Expected k) a pt
    generalize token toks _ _ a pt = r at *
    rcases r with ⟨⟨q0, v⟩ | ⟨q0, e⟩ | _ | _, a0, l0⟩ <;> simp at he
    rw [← he.1.2]
    exact this _ _ rfl
  | map f a ih =>
    intro a pt q e1 a' l he
    have := ih h a pt
    simp only [evalG, P.map] at he
    generalize evalG toks rec _ a pt = r at *
    rcases r with ⟨⟨q0, v⟩ | ⟨q0, e⟩ | _ | _, a0, l0⟩ <;> simp at he
    exact this q e1 a0 l0 (by rw [he.1.1, he.1.2])
  | alt x y _ ih =>
    intro a pt q e1 a' l he
    simp only [evalG] at he
    rw [orElse_eq] at he
    generalize evalG toks rec x a pt = r at *
    rcases r with ⟨⟨q0, v⟩ | ⟨q0, e⟩ | _ | _, a0, l0⟩ <;> simp at he
    have := ih h a0 pt
    generalize evalG toks rec y a0 pt = s at *
    exact this q e1 s.amb s.log (by rw [← he.1])
  | _ => simp [G.lastErr] at h

/-- A `;` is peeked at only as said above, and no error is replaced by another one. -/
def G.exact : G → Bool
  | .eps | .tok _ | .number | .simpleNumber | .nested .. => true
  | .r m => m ≠ .statement && m ≠ .statement_empty
  | .peek _ => false
  | .mapErr e a => a.exact && a.lastErr = some e
  | .implTailed _ _ s a => (s = .tok .Semicolon && a = .r .statement) || (s.exact && a.exact)
  | .resume s a => s.exact && a.exact && a.tracked
  | .seq a b | .alt a b | .tailed _ a b | .tailed1Values a b | .ifAmbiguous a b => a.exact && b.exact
  | .opt a | .many a | .ext a | .drop a | .map _ a | .build _ a | .nodeEmpty _ a | .amb _ a | .notMaximum a => a.exact

theorem rules_exact : ∀ nt, (match rules nt with
    | .g x => nt = .statement || nt = .statement_empty || x.exact
    | .expr _ => nt ≠ .statement && nt ≠ .statement_empty) = true := by
  have h : NT.all.all (fun nt => match rules nt with
    | .g x => nt = .statement || nt = .statement_empty || x.exact
    | .expr _ => nt ≠ .statement && nt ≠ .statement_empty) = true := by decide +kernel
  intro nt
  exact List.all_eq_true.mp h nt (NT.mem_all nt)

/-- What is known of the parsers of the nonterminals. -/
structure RecTwo (toks toks' : List Token) (n : Nat) (e0 : PErr) (rec rec' : NT → P (List V)) : Prop where
  two : ∀ nt, nt ≠ .statement → nt ≠ .statement_empty → Two toks toks' n e0 (rec nt) (rec' nt)
  statement : TwoS toks toks' n e0 (rec .statement) (rec' .statement)
  empty : TwoS toks toks' n e0 (rec .statement_empty) (rec' .statement_empty)

section
variable {toks toks' : List Token} {n : Nat} {e0 : PErr} {t u : Token} {Φ Φ' : NT → Rel} {rec rec' : NT → P (List V)}

/-- The assumptions about both lists of tokens. -/
structure Both (toks toks' : List Token) (n : Nat) (e0 : PErr) (t u : Token) (Φ Φ' : NT → Rel) (rec rec' : NT → P (List V)) : Prop where
  hole : Hole toks toks' n e0 t u
  eof : EofLast toks
  eof' : EofLast toks'
  ok : RecOK toks Φ rec
  ok' : RecOK toks' Φ' rec'
  tracked : RecTracked toks rec
  tracked' : RecTracked toks' rec'
  two : RecTwo toks toks' n e0 rec rec'

theorem evalG_two (B : Both toks toks' n e0 t u Φ Φ' rec rec') (g : G) :
    g.wf = true → g.exact = true → Two toks toks' n e0 (evalG toks rec g) (evalG toks' rec' g) := by
  have H := B.hole
  have fwd : ∀ {g : G}, g.wf = true → Fwd toks (evalG toks rec g) := fun h => evalG_fwd B.eof B.ok h
  have fwd' : ∀ {g : G}, g.wf = true → Fwd toks' (evalG toks' rec' g) := fun h => evalG_fwd B.eof' B.ok' h
  induction g with
  | eps => intro _ _; exact .pure
  | tok k => intro _ _; exact .map (.token H _ _ (H.tk k))
  | number => intro _ _; exact .map (.token H _ _ H.num)
  | simpleNumber => intro _ _; exact .fieldNameNumber H
  | nested o c =>
    intro hw _
    have hne : o ≠ .EndOfFile := by rintro rfl; simp [G.wf] at hw
    have nr : ∀ {toks : List Token} {a : Amb} {q : Pt},
        ¬ ((parseNestedUntil toks (isTK o) (isTK c)).map (fun e => [V.ext e]) a q).dead →
          q.off ≤ ((parseNestedUntil toks (isTK o) (isTK c)).map (fun e => [V.ext e]) a q).reach := by
      intro toks a q hd
      revert hd
      unfold P.map parseNestedUntil
      dsimp only
      split <;> (rename_i he; split at he <;> simp at he)
      · obtain ⟨⟨rfl, rfl⟩, rfl, rfl⟩ := he
        simp [Pt.advanceBy]
      · simp
    exact .bind' (.token H _ _ (H.tk o)) (fun a pt hv => (Run.token B.eof (convTK_isEOF hne) hv).mono fun _ _ _ _ _ => trivial)
      (fun a pt hv => (Run.token B.eof' (convTK_isEOF hne) hv).mono fun _ _ _ _ _ => trivial)
      (fun _ _ _ _ => nr) (fun _ _ _ _ => nr) fun _ => .map (.parseNestedUntil H _ _)
  | r m => intro _ h; simp [G.exact] at h; exact B.two.two m h.1 h.2
  | seq a b iha ihb =>
    intro hw h; simp [G.exact] at h; simp [G.wf] at hw
    exact .bind (iha hw.1 h.1) (fwd hw.1) (fwd' hw.1) (fun _ => (fwd hw.2).map) (fun _ => (fwd' hw.2).map) fun _ => .map (ihb hw.2 h.2)
  | alt a b iha ihb =>
    intro hw h; simp [G.exact] at h; simp [G.wf] at hw
    exact .orElse (iha hw.1 h.1) (ihb hw.2 h.2)
  | opt a ih => intro hw h; exact .map (.optional (ih hw h))
  | many a ih =>
    intro hw h; simp [G.wf] at hw
    exact .map (.zeroOrMore (ih (by simp [hw]) h) (fwd (by simp [hw])) (fwd' (by simp [hw])) _ _)
  | tailed k s a ihs iha =>
    intro hw h; simp [G.wf] at hw; simp [G.exact] at h
    have ws : s.wf = true := by simp [hw]
    have wa : a.wf = true := by simp [hw]
    exact .map (.zeroOrMoreTailedAppend (.parseTailed (ihs ws h.1) (fwd ws) (fwd' ws) (iha wa h.2) (fwd wa) (fwd' wa))
      (fwd ws) (fwd' ws) (fwd wa) (fwd' wa) _ _ _)
  | tailed1Values s a ihs iha =>
    intro hw h; simp [G.wf] at hw; simp [G.exact] at h
    have ws : s.wf = true := by simp [hw]
    have wa : a.wf = true := by simp [hw]
    exact .map (.oneOrMoreTailed (ihs ws h.1) (fwd ws) (fwd' ws) (iha wa h.2) (fwd wa) (fwd' wa) _ _)
  | resume s a ihs iha =>
    intro hw h; simp [G.wf] at hw; simp [G.exact] at h
    have ws : s.wf = true := by simp [hw]
    have wa : a.wf = true := by simp [hw]
    exact .map (.resume (ihs ws h.1.1) (fwd ws) (fwd' ws) (iha wa h.1.2) (fwd wa) (fwd' wa)
      (evalG_tracked B.eof B.ok B.tracked a wa h.2) (evalG_tracked B.eof' B.ok' B.tracked' a wa h.2) _ _)
  | implTailed k i s a ihs iha =>
    intro hw h; simp [G.wf] at hw
    have ws : s.wf = true := by simp [hw]
    have wa : a.wf = true := by simp [hw]
    refine .map (.implTailed ?_ (fwd ws) (fwd' ws) (fwd wa) (fwd' wa) _ _ _)
    by_cases hs : s = .tok .Semicolon ∧ a = .r .statement
    · obtain ⟨rfl, rfl⟩ := hs
      exact .parseTailed_semi H B.two.statement (fwd ws) (fwd' ws) (fwd wa) (fwd' wa)
    · have h : s.exact = true ∧ a.exact = true := by
        simp [G.exact] at h
        exact h.resolve_left hs
      exact .parseTailed (ihs ws h.1) (fwd ws) (fwd' ws) (iha wa h.2) (fwd wa) (fwd' wa)
  | ext a ih => intro hw h; exact .map (.spanned H (fwd hw) (ih hw h))
  | drop a ih => intro hw h; exact .map (ih hw h)
  | map f a ih => intro hw h; exact .map (ih hw h)
  | build m a ih => intro hw h; exact .map (.spanned H (fwd hw) (ih hw h))
  | nodeEmpty m a ih =>
    intro hw h
    have hw : a.wf = true := by simpa [G.wf] using hw
    exact .map (.spannedEmpty H (fwd hw) (ih hw h))
  | mapErr e a ih =>
    intro hw h
    simp [G.exact] at h
    exact .mapErr (ih hw h.1) (evalG_lastErr a h.2)
  | peek a ih => intro _ h; simp [G.exact] at h
  | amb l a ih => intro hw h; exact .setAmbiguityLevel (ih hw h)
  | ifAmbiguous a b iha ihb =>
    intro hw h am pt hv hv'
    simp [G.exact] at h; simp [G.wf] at hw
    simp only [evalG]
    split
    · exact iha hw.1 h.1 _ _ hv hv'
    · exact ihb hw.2 h.2 _ _ hv hv'
  | notMaximum a ih =>
    intro hw h am pt hv hv'
    simp only [evalG]
    split
    · exact .same (by simpa using fun _ => Ne.symm H.block)
    · exact ih hw h _ _ hv hv'

end

/-! ## The shunting yard -/

/-- The errors of the yard itself. -/
def SRes.plain {α : Type} (r : SRes α) : Prop := ∀ q e, r = .err q e → e = .ExpectedExpression

section
variable {α β : Type} {toks : List Token}

theorem SRes.plain_ok {v : α} : (SRes.ok v).plain := nofun
theorem SRes.plain_panic : (SRes.panic : SRes α).plain := nofun
theorem SRes.plain_err {q : Pt} : (SRes.err q .ExpectedExpression : SRes α).plain := fun _ _ h => by cases h; rfl

theorem SRes.plain_bind {r : SRes α} {f : α → SRes β} (h : r.plain) (hf : ∀ v, (f v).plain) : (r.bind f).plain := by
  cases r with
  | ok v => exact hf v
  | err q e => intro q' e' he; cases he; exact h _ _ rfl
  | panic => exact SRes.plain_panic

theorem popExpression_plain {rs : List (Car V)} {p : Pt} : (popExpression rs p).plain := by
  cases rs with
  | nil => exact SRes.plain_err
  | cons => exact SRes.plain_ok

theorem exS_plain {p q : Pt} : (exS toks p q).plain := by
  unfold exS
  split
  · exact SRes.plain_ok
  · exact SRes.plain_panic

theorem applyPrefix_plain {spt : Pt} {e attrs op payload} {rs : List (Car V)} : (applyPrefix toks spt e attrs op payload rs).plain := by
  unfold applyPrefix
  refine SRes.plain_bind popExpression_plain ?_
  rintro ⟨c, rs⟩
  dsimp only
  split
  · exact SRes.plain_err
  · exact SRes.plain_bind exS_plain fun _ => SRes.plain_ok

theorem applyInfix_plain {spt ept : Pt} {op payload} {rs : List (Car V)} : (applyInfix toks spt ept op payload rs).plain := by
  unfold applyInfix
  refine SRes.plain_bind popExpression_plain ?_
  rintro ⟨c, rs⟩
  refine SRes.plain_bind popExpression_plain ?_
  rintro ⟨d, rs⟩
  exact SRes.plain_bind exS_plain fun _ => SRes.plain_ok

theorem applyOne_plain {c : Car OpKind} {rs : List (Car V)} : (applyOne toks c rs).plain := by
  unfold applyOne
  split
  · split
    · unfold applyMaybePrefix
      split
      · exact SRes.plain_bind exS_plain fun _ => SRes.plain_ok
      · exact applyPrefix_plain
    · exact applyPrefix_plain
  · split
    · unfold applyMaybeInfix
      split
      · refine SRes.plain_bind popExpression_plain ?_
        rintro ⟨d, rs⟩
        exact SRes.plain_bind exS_plain fun _ => SRes.plain_ok
      · exact applyInfix_plain
    · exact applyInfix_plain
  · unfold applyPostfix
    refine SRes.plain_bind popExpression_plain ?_
    rintro ⟨d, rs⟩
    exact SRes.plain_bind exS_plain fun _ => SRes.plain_ok

theorem applyWhile_plain {cond : OpKind → Bool} : ∀ (cs : List (Car OpKind)) (rs : List (Car V)), (applyWhile toks cond cs rs).plain := by
  intro cs
  induction cs with
  | nil => intro rs; exact SRes.plain_ok
  | cons c cs ih =>
    intro rs
    unfold applyWhile
    split
    · exact SRes.plain_bind applyOne_plain ih
    · exact SRes.plain_ok

theorem finish_plain {y : Yard} {q : Pt} : (y.finish toks q).plain := by
  unfold Yard.finish
  refine SRes.plain_bind (applyWhile_plain _ _) ?_
  intro y
  have := popExpression_plain (rs := y.result) (p := q)
  generalize popExpression y.result q = r at *
  rcases r with ⟨c, rest⟩ | ⟨p, e⟩ | _
  · dsimp only
    split
    · exact SRes.plain_ok
    · exact SRes.plain_panic
  · dsimp only; intro q' e' he; cases he; exact this _ _ rfl
  · exact SRes.plain_panic

end

theorem turn_two {α : Type} {toks toks' : List Token} {n : Nat} {e0 : PErr} (hne : e0 ≠ .ExpectedExpression) {p p' : P α}
    {F F' : Pt → α → Step} {fin fin' : Pt → SRes (Car V)}
    {K K' : Yard → EState → P V} {a : Amb} {pt : Pt} (hv : ValidPt toks pt) (hv' : ValidPt toks' pt) (ht : Tracked toks p)
    (ht' : Tracked toks' p') (hl : Two toks toks' n e0 p p')
    (hF : ∀ q x a' l, p a pt = ⟨.ok q x, a', l⟩ → ∃ y st, F q x = .continue y st ∧
      (¬ (K y st a' q).dead → q.off ≤ (K y st a' q).reach))
    (hF' : ∀ q x a' l, p' a pt = ⟨.ok q x, a', l⟩ → ∃ y st, F' q x = .continue y st ∧
      (¬ (K' y st a' q).dead → q.off ≤ (K' y st a' q).reach))
    (hK : ∀ q x a' l, p a pt = ⟨.ok q x, a', l⟩ → p' a pt = ⟨.ok q x, a', l⟩ → q.off ≤ n → ∃ y st, F q x = .continue y st ∧
      F' q x = .continue y st ∧ Exp n e0 (K y st a' q) (K' y st a' q))
    (hfin : ∀ q e a' l, p a pt = ⟨.fail q e, a', l⟩ → q.off ≤ n → fin' q = fin q) (hpl : ∀ q, (fin q).plain) :
    Exp n e0 (turn p F fin K a pt) (turn p' F' fin' K' a pt) := by
  refine (hl a pt hv hv').step (turn_reach hv ht hF) (turn_reach hv' ht' hF') ?_
  intro he hc hd hle
  unfold turn
  rw [he]
  rw [he] at hK
  rcases hr : p a pt with ⟨⟨q, x⟩ | ⟨q, e⟩ | _ | _, a', l⟩ <;> rw [hr] at hK hle hc
  · simp at hle hc
    obtain ⟨y, st, h2, h3, h4⟩ := hK q x a' l rfl rfl (by omega)
    dsimp only
    rw [h2, h3]
    exact h4.after hc
  · simp at hle hc
    dsimp only
    rw [hfin q e a' l hr (by omega)]
    refine .same ?_
    have := hpl q
    generalize fin q = r at *
    rcases r with ⟨c⟩ | ⟨c, e⟩ | _ <;> simp [SRes.toOut, hc.1]
    have := this c e rfl
    subst this
    exact fun _ => Ne.symm hne
  · dsimp only; exact .same ⟨hc.1, nofun⟩
  · dsimp only; exact .same ⟨hc.1, nofun⟩

/-- The same for the parsers the loop uses. -/
structure PsTwo (toks toks' : List Token) (n : Nat) (e0 : PErr) (ps ps' : ExprParsers) : Prop where
  atom : Two toks toks' n e0 ps.prefixOrAtom ps'.prefixOrAtom
  op : Two toks toks' n e0 ps.infixOrPostfix ps'.infixOrPostfix
  lim : Two toks toks' n e0 ps.limitedPostfix ps'.limitedPostfix
  atomT : Tracked toks ps.prefixOrAtom
  opT : Tracked toks ps.infixOrPostfix
  limT : Tracked toks ps.limitedPostfix
  atomT' : Tracked toks' ps'.prefixOrAtom
  opT' : Tracked toks' ps'.infixOrPostfix
  limT' : Tracked toks' ps'.limitedPostfix

section
variable {toks toks' : List Token} {n : Nat} {e0 : PErr} {t u : Token} {Φ Φ' : NT → Rel} {stmt : Bool} {a : Amb} {ps ps' : ExprParsers}

theorem shuntLoop_reach (hinf : ∀ {p q op payload}, TableR toks Φ infixTable a p q op payload → p.key < q.key)
    (hp : ParsersOK toks Φ ps) (h1 : Tracked toks ps.prefixOrAtom) (h2 : Tracked toks ps.infixOrPostfix)
    (h3 : Tracked toks ps.limitedPostfix) {p0 : Pt} (k : Nat) :
    ∀ y st pt, YInv toks Φ stmt a p0 st y pt → Btw toks p0 pt → y.le pt.off →
      ¬ (shuntLoop toks ps (if stmt then adaptStatement else fun _ s => s) k y st a pt).dead →
        pt.off ≤ (shuntLoop toks ps (if stmt then adaptStatement else fun _ s => s) k y st a pt).reach :=
  fun y st pt h hb hy => (shuntLoop_local (n := 0) (toks' := toks) (ps' := ps) (fun _ _ => rfl) hinf hp
    ⟨.refl, .refl, .refl, h1, h2, h3⟩ k y st pt h hb hy).1

/-- What is shown of the loop. -/
def LoopTwo (toks toks' : List Token) (n : Nat) (e0 : PErr) (ps ps' : ExprParsers) (stmt : Bool) (a : Amb) (k : Nat) (y : Yard)
    (st : EState) (pt : Pt) : Prop :=
  ∀ k', Exp n e0 (shuntLoop toks ps (if stmt then adaptStatement else fun _ s => s) k y st a pt)
    (shuntLoop toks' ps' (if stmt then adaptStatement else fun _ s => s) k' y st a pt)

theorem LoopTwo.turn {α : Type} {p p' : P α} {F F' : Pt → α → Step} {k : Nat} {y : Yard} {st : EState} {p0 pt : Pt}
    (H : Hole toks toks' n e0 t u)
    (hinf : ∀ {p q op payload}, TableR toks Φ infixTable a p q op payload → p.key < q.key)
    (hinf' : ∀ {p q op payload}, TableR toks' Φ' infixTable a p q op payload → p.key < q.key)
    (hp : ParsersOK toks Φ ps) (hp' : ParsersOK toks' Φ' ps') (hps : PsTwo toks toks' n e0 ps ps')
    (hf : Fwd toks p) (hf' : Fwd toks' p') (ht : Tracked toks p) (ht' : Tracked toks' p') (hl : Two toks toks' n e0 p p')
    (ih : ∀ y st pt, YInv toks Φ stmt a p0 st y pt → YInv toks' Φ' stmt a p0 st y pt → Btw toks p0 pt → Btw toks' p0 pt →
      y.le pt.off → LoopTwo toks toks' n e0 ps ps' stmt a k y st pt)
    (h : YInv toks Φ stmt a p0 st y pt) (h' : YInv toks' Φ' stmt a p0 st y pt) (hb : Btw toks p0 pt) (hb' : Btw toks' p0 pt)
    (hy : y.le pt.off)
    (e : shuntStep toks ps y st a pt = stepOf p F (y.finish toks) a pt)
    (e' : shuntStep toks' ps' y st a pt = stepOf p' F' (y.finish toks') a pt)
    (hF : ∀ q x, pt.off ≤ q.off → ∃ y' st', F q x = .continue y' st' ∧ y'.le q.off ∧ (q.off ≤ n → F' q x = .continue y' st'))
    (hF' : ∀ q x, pt.off ≤ q.off → ∃ y' st', F' q x = .continue y' st' ∧ y'.le q.off) :
    LoopTwo toks toks' n e0 ps ps' stmt a (k + 1) y st pt := by
  have hv := hb.right
  have hv' := hb'.right
  have hs := shuntStep_run hinf hp h hb
  have hs' := shuntStep_run hinf' hp' h' hb'
  have hr := hf a pt hv
  have hr' := hf' a pt hv'
  have inv : ∀ q x a' l y' st', p a pt = ⟨.ok q x, a', l⟩ → F q x = .continue y' st' → a' = a ∧ pt.off ≤ q.off ∧
      YInv toks Φ stmt a p0 ((if stmt then adaptStatement else fun _ s => s) y' st') y' q ∧ Btw toks p0 q := by
    intro q x a' l y' st' hpq h1
    rw [hpq] at hr
    refine ⟨hr.1, Pt.off_le hv hr.2.2.1 hr.2.2.2.1, ?_, ⟨hb.left, hr.2.2.1, Nat.le_trans hb.le hr.2.2.2.1⟩⟩
    rw [e] at hs
    unfold stepOf at hs
    rw [hpq] at hs
    dsimp only at hs
    rw [h1] at hs
    exact hs.2.2.2.2 _ rfl
  have inv' : ∀ q x a' l y' st', p' a pt = ⟨.ok q x, a', l⟩ → F' q x = .continue y' st' → a' = a ∧ pt.off ≤ q.off ∧
      YInv toks' Φ' stmt a p0 ((if stmt then adaptStatement else fun _ s => s) y' st') y' q ∧ Btw toks' p0 q := by
    intro q x a' l y' st' hpq h1
    rw [hpq] at hr'
    refine ⟨hr'.1, Pt.off_le hv' hr'.2.2.1 hr'.2.2.2.1, ?_, ⟨hb'.left, hr'.2.2.1, Nat.le_trans hb'.le hr'.2.2.2.1⟩⟩
    rw [e'] at hs'
    unfold stepOf at hs'
    rw [hpq] at hs'
    dsimp only at hs'
    rw [h1] at hs'
    exact hs'.2.2.2.2 _ rfl
  intro k'
  cases k' with
  | zero => exact fun _ h => absurd trivial h
  | succ k' =>
    rw [shuntLoop_turn e, shuntLoop_turn e']
    refine turn_two H.expression hv hv' ht ht' hl ?_ ?_ ?_ ?_ fun _ => finish_plain
    · intro q x a' l hpq
      have hq : pt.off ≤ q.off := by rw [hpq] at hr; exact Pt.off_le hv hr.2.2.1 hr.2.2.2.1
      obtain ⟨y', st', h1, h2, -⟩ := hF q x hq
      obtain ⟨rfl, -, h3, h4⟩ := inv q x a' l y' st' hpq h1
      exact ⟨y', st', h1, shuntLoop_reach hinf hp hps.atomT hps.opT hps.limT k _ _ _ h3 h4 h2⟩
    · intro q x a' l hpq
      have hq : pt.off ≤ q.off := by rw [hpq] at hr'; exact Pt.off_le hv' hr'.2.2.1 hr'.2.2.2.1
      obtain ⟨y', st', h1, h2⟩ := hF' q x hq
      obtain ⟨rfl, -, h3, h4⟩ := inv' q x a' l y' st' hpq h1
      exact ⟨y', st', h1, shuntLoop_reach hinf' hp' hps.atomT' hps.opT' hps.limT' k' _ _ _ h3 h4 h2⟩
    · intro q x a' l hpq hpq' hn
      have hq : pt.off ≤ q.off := by rw [hpq] at hr; exact Pt.off_le hv hr.2.2.1 hr.2.2.2.1
      obtain ⟨y', st', h1, h2, h5⟩ := hF q x hq
      obtain ⟨rfl, -, h3, h4⟩ := inv q x a' l y' st' hpq h1
      obtain ⟨-, -, h3', h4'⟩ := inv' q x _ l y' st' hpq' (h5 hn)
      exact ⟨y', st', h1, h5 hn, ih _ _ _ h3 h3' h4 h4' h2 k'⟩
    · intro q _ _ _ hpq hq
      rw [hpq] at hr
      exact H.sameEx.finish (hy.mono (Nat.le_trans (Pt.off_le hv hr.2.2.1 hr.2.2.2) hq))

theorem shuntLoop_two (H : Hole toks toks' n e0 t u)
    (hinf : ∀ {p q op payload}, TableR toks Φ infixTable a p q op payload → p.key < q.key)
    (hinf' : ∀ {p q op payload}, TableR toks' Φ' infixTable a p q op payload → p.key < q.key)
    (hp : ParsersOK toks Φ ps) (hp' : ParsersOK toks' Φ' ps') (hl : PsTwo toks toks' n e0 ps ps') {p0 : Pt} (k : Nat) :
    ∀ y st pt, YInv toks Φ stmt a p0 st y pt → YInv toks' Φ' stmt a p0 st y pt → Btw toks p0 pt → Btw toks' p0 pt → y.le pt.off →
      LoopTwo toks toks' n e0 ps ps' stmt a k y st pt := by
  induction k with
  | zero => intro y st pt _ _ _ _ _ _ h; exact absurd trivial h
  | succ k ih =>
    intro y st pt h h' hb hb' hy
    have add' : ∀ {toks : List Token} {Φ : NT → Rel} {op : OpKind} {st' : EState} {q : Pt}, YInv toks Φ stmt a p0 st y pt →
        (∀ x, op.shouldPop x = true) → (st = .Postfix ∨ st = .Atom ∨ st = .AtomLimitedPostfix) → pt.off ≤ q.off →
        ∃ y', y.addOperator toks op pt q = .ok y' ∧ Step.ofYard st' (y.addOperator toks op pt q) = .continue y' st' ∧ y'.le q.off := by
      intro toks Φ op st' q h hop hst hq
      obtain ⟨v, -, -, h6⟩ := h.flush hop hst
      have h7 : ∃ y', y.addOperator toks op pt q = .ok y' := by
        unfold Yard.addOperator
        rw [h6]
        exact ⟨_, rfl⟩
      obtain ⟨y', h7⟩ := h7
      exact ⟨y', h7, by rw [h7]; rfl, Yard.addOperator_le (hy.mono hq) hq (Nat.le_refl _) h7⟩
    have add : ∀ {op : OpKind} {st' : EState} {q : Pt}, (∀ x, op.shouldPop x = true) →
        (st = .Postfix ∨ st = .Atom ∨ st = .AtomLimitedPostfix) → pt.off ≤ q.off →
        ∃ y', Step.ofYard st' (y.addOperator toks op pt q) = .continue y' st' ∧ y'.le q.off ∧
          (q.off ≤ n → Step.ofYard st' (y.addOperator toks' op pt q) = .continue y' st') := by
      intro op st' q hop hst hq
      obtain ⟨y', h7, h8, h9⟩ := add' (st' := st') h hop hst hq
      refine ⟨y', h8, h9, fun hn => ?_⟩
      rw [H.sameEx.addOperator (hy.mono (Nat.le_trans hq hn)), h7]
      rfl
    have opcase : (st = .Postfix ∨ st = .Atom) → LoopTwo toks toks' n e0 ps ps' stmt a (k + 1) y st pt := by
      intro hst
      refine .turn H hinf hinf' hp hp' hl (fun a pt hv => (hp.infixOrPostfix a pt hv).mono fun _ _ _ _ _ => trivial)
        (fun a pt hv => (hp'.infixOrPostfix a pt hv).mono fun _ _ _ _ _ => trivial) hl.opT hl.opT' hl.op ih h h' hb hb' hy
        (shuntStep_op toks ps y a pt hst) (shuntStep_op toks' ps' y a pt hst) ?_ ?_
      · rintro q (⟨op, payload⟩ | ⟨op, payload⟩) hq
        · obtain ⟨y', h1, h2, h3⟩ := add (st' := .Infix op.isRange) (shouldPop_inf op payload) (by grind) hq
          exact ⟨y', _, h1, h2, h3⟩
        · obtain ⟨y', h1, h2, h3⟩ := add (st' := .Postfix) (shouldPop_post op payload) (by grind) hq
          exact ⟨y', _, h1, h2, h3⟩
      · rintro q (⟨op, payload⟩ | ⟨op, payload⟩) hq
        · obtain ⟨y', -, h1, h2⟩ := add' (st' := .Infix op.isRange) h' (shouldPop_inf op payload) (by grind) hq
          exact ⟨y', _, h1, h2⟩
        · obtain ⟨y', -, h1, h2⟩ := add' (st' := .Postfix) h' (shouldPop_post op payload) (by grind) hq
          exact ⟨y', _, h1, h2⟩
    have atomcase : (st = .Prefix ∨ ∃ w, st = .Infix w) → LoopTwo toks toks' n e0 ps ps' stmt a (k + 1) y st pt := by
      intro hst
      have f : Fwd toks ps.prefixOrAtom := fun a pt hv => (hp.prefixOrAtom a pt hv).mono fun _ _ _ _ _ => trivial
      have f' : Fwd toks' ps'.prefixOrAtom := fun a pt hv => (hp'.prefixOrAtom a pt hv).mono fun _ _ _ _ _ => trivial
      have h1 : Fwd toks (atomP ps a st) ∧ Fwd toks' (atomP ps' a st) ∧ Tracked toks (atomP ps a st) ∧ Tracked toks' (atomP ps' a st) ∧
          Two toks toks' n e0 (atomP ps a st) (atomP ps' a st) := by
        rcases atomP_cases a st with h | h <;> rw [h, h]
        · exact ⟨f.setAmbiguityLevel, f'.setAmbiguityLevel, hl.atomT.setAmbiguityLevel, hl.atomT'.setAmbiguityLevel,
            hl.atom.setAmbiguityLevel⟩
        · exact ⟨f, f', hl.atomT, hl.atomT', hl.atom⟩
      have key : ∀ (toks toks' : List Token) (q : Pt) (x : PrefixOrAtom), pt.off ≤ q.off → ∃ y' st',
          atomF toks y pt q x = .continue y' st' ∧ y'.le q.off ∧ (q.off ≤ n → atomF toks' y pt q x = .continue y' st') := by
        rintro toks toks' q (⟨e, attrs, op, payload⟩ | v) hq
        · refine ⟨⟨⟨.pre e attrs op payload, pt, q⟩ :: y.operators, y.result⟩, .Prefix,
            by simp only [atomF, addOperator_pre, Step.ofYard], ?_, fun _ => by simp only [atomF, addOperator_pre, Step.ofYard]⟩
          refine ⟨?_, (hy.mono hq).2⟩
          intro c hc
          simp at hc
          rcases hc with rfl | hc
          · exact ⟨hq, Nat.le_refl _⟩
          · exact (hy.mono hq).1 _ hc
        · refine ⟨_, .Atom, rfl, ?_, fun _ => rfl⟩
          refine ⟨(hy.mono hq).1, ?_⟩
          intro c hc
          simp [Yard.addExpression] at hc
          rcases hc with rfl | hc
          · exact ⟨hq, Nat.le_refl _⟩
          · exact (hy.mono hq).2 _ hc
      refine .turn H hinf hinf' hp hp' hl h1.1 h1.2.1 h1.2.2.1 h1.2.2.2.1 h1.2.2.2.2 ih h h' hb hb' hy
        (shuntStep_atom toks ps y a pt hst) (shuntStep_atom toks' ps' y a pt hst) (key toks toks') ?_
      intro q x hq
      obtain ⟨y', st', h1, h2, -⟩ := key toks' toks' q x hq
      exact ⟨y', st', h1, h2⟩
    cases st with
    | Prefix => exact atomcase (.inl rfl)
    | Infix w => exact atomcase (.inr ⟨w, rfl⟩)
    | Postfix => exact opcase (.inl rfl)
    | Atom => exact opcase (.inr rfl)
    | AtomLimitedPostfix =>
      refine .turn H hinf hinf' hp hp' hl (fun a pt hv => (hp.limitedPostfix a pt hv).mono fun _ _ _ _ _ => trivial)
        (fun a pt hv => (hp'.limitedPostfix a pt hv).mono fun _ _ _ _ _ => trivial) hl.limT hl.limT' hl.lim ih h h' hb hb' hy
        (shuntStep_lim toks ps y a pt) (shuntStep_lim toks' ps' y a pt) ?_ ?_
      · rintro q ⟨op, payload⟩ hq
        obtain ⟨y', h1, h2, h3⟩ := add (st' := .Postfix) (shouldPop_post op payload) (by grind) hq
        exact ⟨y', _, h1, h2, h3⟩
      · rintro q ⟨op, payload⟩ hq
        obtain ⟨y', -, h1, h2⟩ := add' (st' := .Postfix) h' (shouldPop_post op payload) (by grind) hq
        exact ⟨y', _, h1, h2⟩

end

/-! ## The parser -/

section
variable {toks toks' : List Token} {n : Nat} {e0 : PErr} {t u : Token} {Φ Φ' : NT → Rel} {rec rec' : NT → P (List V)}

theorem tableP_two {α : Type} (B : Both toks toks' n e0 t u Φ Φ' rec rec') {x : α × G} {l : List (α × G)}
    (hw : ∀ y ∈ x :: l, y.2.wf = true) (hl : ∀ y ∈ x :: l, y.2.exact = true) :
    Two toks toks' n e0 (tableP toks rec (x, l)) (tableP toks' rec' (x, l)) := by
  obtain ⟨k, hk⟩ : ∃ k, k = l.length := ⟨_, rfl⟩
  induction k generalizing l with
  | zero =>
    have : l = [] := List.eq_nil_of_length_eq_zero hk.symm
    subst this
    exact .map (evalG_two B _ (hw x (by simp)) (hl x (by simp)))
  | succ k ih =>
    obtain ⟨l', y, rfl⟩ : ∃ l' y, l = l' ++ [y] :=
      ⟨l.dropLast, l.getLast (by intro h; simp [h] at hk), (List.dropLast_concat_getLast _).symm⟩
    rw [tableP_concat, tableP_concat]
    have hw' : ∀ z ∈ x :: l', z.2.wf = true := fun z hz => hw z (by simp at hz ⊢; grind)
    have hl' : ∀ z ∈ x :: l', z.2.exact = true := fun z hz => hl z (by simp at hz ⊢; grind)
    exact .orElse (ih hw' hl' (by simpa using hk)) (.map (evalG_two B _ (hw y (by simp)) (hl y (by simp))))

theorem attributedP_two {α : Type} (B : Both toks toks' n e0 t u Φ Φ' rec rec') {p p' : P α} (hf : Fwd toks p) (hf' : Fwd toks' p')
    (hl : Two toks toks' n e0 p p') : Two toks toks' n e0 (attributedP toks rec p) (attributedP toks' rec' p') := by
  have a1 : Fwd toks (rec .attribute) := fun a pt hv => (B.ok.run .attribute a pt hv).mono fun _ _ _ _ _ => trivial
  have a2 : Fwd toks' (rec' .attribute) := fun a pt hv => (B.ok'.run .attribute a pt hv).mono fun _ _ _ _ _ => trivial
  refine .spanned B.hole ?_ (.bind (.zeroOrMore (B.two.two .attribute (by decide) (by decide)) a1 a2 _ _)
    (a1.zeroOrMore _) (a2.zeroOrMore _) (fun _ => hf.map) (fun _ => hf'.map) fun _ => .map hl)
  exact .bind (a1.zeroOrMore _) fun _ => hf.map

theorem prefixTable_exact : ∀ x ∈ prefixTable.1 :: prefixTable.2, x.2.exact = true := by decide +kernel
theorem infixTable_exact : ∀ x ∈ infixTable.1 :: infixTable.2, x.2.exact = true := by decide +kernel
theorem postfixTable_exact : ∀ x ∈ postfixTable.1 :: postfixTable.2, x.2.exact = true := by decide +kernel
theorem limitedTable_exact : ∀ x ∈ limitedTable.1 :: limitedTable.2, x.2.exact = true := by decide +kernel

attribute [local irreducible] tableP attributedP

theorem exprParsers_two (B : Both toks toks' n e0 t u Φ Φ' rec rec') :
    PsTwo toks toks' n e0 (exprParsers toks rec) (exprParsers toks' rec') where
  atom := .orElse (.map (attributedP_two B (tableP_fwd B.eof B.ok prefixTable_wf) (tableP_fwd B.eof' B.ok' prefixTable_wf)
      (tableP_two B prefixTable_wf prefixTable_exact)))
    (.map (attributedP_two B (fun a pt hv => (B.ok.run .expression_atom a pt hv).mono fun _ _ _ _ _ => trivial)
      (fun a pt hv => (B.ok'.run .expression_atom a pt hv).mono fun _ _ _ _ _ => trivial)
      (B.two.two .expression_atom (by decide) (by decide))))
  op := .orElse (.map (tableP_two B infixTable_wf infixTable_exact)) (.map (tableP_two B postfixTable_wf postfixTable_exact))
  lim := tableP_two B limitedTable_wf limitedTable_exact
  atomT := .orElse (attributedP_fwd B.ok (tableP_fwd B.eof B.ok prefixTable_wf)).map
    (.inl (.map (attributedP_tracked B.ok (B.tracked .expression_atom rfl))))
  opT := .orElse (tableP_fwd B.eof B.ok infixTable_wf).map (.inl (.map (postfixTable_tracked B.eof B.ok)))
  limT := limitedTable_tracked B.eof B.ok
  atomT' := .orElse (attributedP_fwd B.ok' (tableP_fwd B.eof' B.ok' prefixTable_wf)).map
    (.inl (.map (attributedP_tracked B.ok' (B.tracked' .expression_atom rfl))))
  opT' := .orElse (tableP_fwd B.eof' B.ok' infixTable_wf).map (.inl (.map (postfixTable_tracked B.eof' B.ok')))
  limT' := limitedTable_tracked B.eof' B.ok'

theorem Both.mk' (H : Hole toks toks' n e0 t u) (ht : EofLast toks) (ht' : EofLast toks') {m m' : Nat}
    (h : RecTwo toks toks' n e0 (eval toks m) (eval toks' m')) :
    Both toks toks' n e0 t u (fun nt am p q vs => Consumes nt am p q vs) (fun nt am p q vs => Consumes nt am p q vs)
      (eval toks m) (eval toks' m') :=
  ⟨H, ht, ht', eval_consumes ht m, eval_consumes ht' m', eval_tracked ht m, eval_tracked ht' m', h⟩

theorem eval_two (H : Hole toks toks' n e0 t u) (ht : EofLast toks) (ht' : EofLast toks') (m : Nat) :
    ∀ m', RecTwo toks toks' n e0 (eval toks m) (eval toks' m') := by
  induction m with
  | zero =>
    intro m'
    exact ⟨fun _ _ _ _ _ _ _ h => absurd trivial h, fun _ _ _ _ h => absurd trivial h, fun _ _ _ _ h => absurd trivial h⟩
  | succ m ih =>
    intro m'
    cases m' with
    | zero =>
      exact ⟨fun _ _ _ _ _ _ _ _ h => absurd trivial h, fun _ _ _ _ _ h => absurd trivial h, fun _ _ _ _ _ h => absurd trivial h⟩
    | succ m' =>
      have B := Both.mk' H ht ht' (ih m')
      refine ⟨?_, ?_, ?_⟩
      · intro nt h1 h2
        have h3 := rules_exact nt
        have h4 := rules_wf nt
        unfold eval
        generalize rules nt = r at h3 h4
        cases r with
        | g x =>
          simp [h1, h2] at h3
          exact evalG_two B x h4 h3
        | expr stmt =>
          refine .map ?_
          intro a pt hv hv'
          exact shuntLoop_two H (fun h => TableR.lt (fun _ _ _ _ _ h => h.1) infixTable_null h)
            (fun h => TableR.lt (fun _ _ _ _ _ h => h.1) infixTable_null h) (exprParsers_ok ht B.ok) (exprParsers_ok ht' B.ok')
            (exprParsers_two B) (loopFuel toks) {} .Prefix pt (.pre .nil) (.pre .nil) (.refl hv) (.refl hv')
            ⟨by simp, by simp⟩ (loopFuel toks')
      · have e : ∀ (toks : List Token) (m : Nat), eval toks (m + 1) .statement = evalG toks (eval toks m) Rules.rule_statement := fun _ _ => rfl
        rw [e, e]
        have h1 : (G.alts [.wrap .Statement_Item (.attributed .AttributedItem (.r .item)),
            .wrap .Statement_Expression (.r .statement_expression)]).wf = true := by decide +kernel
        have h2 : (G.alts [.wrap .Statement_Item (.attributed .AttributedItem (.r .item)),
            .wrap .Statement_Expression (.r .statement_expression)]).exact = true := by decide +kernel
        exact .orElse (evalG_two B _ h1 h2) (.map B.two.empty)
      · have e : ∀ (toks : List Token) (m : Nat), eval toks (m + 1) .statement_empty = evalG toks (eval toks m) Rules.rule_statement_empty := fun _ _ => rfl
        rw [e, e]
        refine .map (.spanned H ?_ (.peek H))
        exact evalG_fwd (g := .peek (.tok .Semicolon)) ht B.ok (by decide +kernel)

theorem parseItem_two (H : Hole toks toks' n e0 t u) (ht : EofLast toks) (ht' : EofLast toks') :
    Two toks toks' n e0 (parseItem toks) (parseItem toks') :=
  evalG_two (Both.mk' H ht ht' (eval_two H ht ht' _ _)) itemG itemG_wf (by decide +kernel)

end

/-! ## The loop over the items -/

section
variable {toks toks' : List Token} {n : Nat} {e0 : PErr} {t u : Token}

theorem PFailures.add_clean {f : PFailures} {p : Pt} {e : PErr} (hf : f.point.off = n → e0 ∉ f.kinds) (he : p.off = n → e ≠ e0) :
    (f.add p e).point.off = n → e0 ∉ (f.add p e).kinds := by
  unfold PFailures.add
  split
  · exact hf
  · split
    · intro h; simp; exact Ne.symm (he h)
    · rename_i h1 h2
      intro h
      unfold Pt.lt at h1 h2
      simp at h ⊢
      exact ⟨hf h, Ne.symm (he (by omega))⟩

theorem PFailures.addAll_clean {l : Log} (hl : CleanLog n e0 l) : ∀ {f : PFailures}, (f.point.off = n → e0 ∉ f.kinds) →
    (f.addAll l).point.off = n → e0 ∉ (f.addAll l).kinds := by
  induction l with
  | nil => intro f hf; exact hf
  | cons x l ih =>
    intro f hf
    simp at hl
    exact ih hl.2 (PFailures.add_clean hf hl.1)

/-- If both texts are rejected not after the `n`-th token, then `e0` is not an error of the first one. -/
theorem parseItems_two (H : Hole toks toks' n e0 t u) (ht : EofLast toks) (ht' : EofLast toks') {loc loc' : Nat} {errs errs' : List PErr}
    (hle : ∀ i t, toks[i]? = some t → t.extent.s = loc → i = n) (hle' : ∀ i t, toks'[i]? = some t → t.extent.s = loc' → i ≤ n) (k : Nat) :
    ∀ k' f a pt items items', ValidPt toks pt → ValidPt toks' pt → ValidPt toks f.point → ValidPt toks' f.point →
      (f.point.off = n → e0 ∉ f.kinds) →
      parseItems toks false k f a pt items = .err loc errs → parseItems toks' false k' f a pt items' = .err loc' errs' → e0 ∉ errs := by
  induction k with
  | zero => intro k' f a pt items items' _ _ _ _ _ h; simp [parseItems] at h
  | succ k ih =>
    intro k' f a pt items items' hv hv' hf hf' hc h h'
    have h1 := parseItems_reach ht (fun i t hi h => Nat.le_of_eq (hle i t hi h)) _ _ _ _ _ hv hf h
    have h1' := parseItems_reach ht' hle' _ _ _ _ _ hv' hf' h'
    obtain ⟨h2, h3⟩ := parseItem_two H ht ht' a pt hv hv' h1.2.2.2 h1'.2.2.2 h1.2.2.1 h1'.2.2.1
    cases k' with
    | zero => simp [parseItems] at h'
    | succ k' =>
      have hr := evalG_run ht (eval_consumes ht (evalFuel toks)) itemG itemG_wf a pt hv
      have hr' := evalG_run ht' (eval_consumes ht' (evalFuel toks')) itemG itemG_wf a pt hv'
      change Run toks (parseItem toks a pt) _ _ _ at hr
      change Run toks' (parseItem toks' a pt) _ _ _ at hr'
      unfold parseItems at h h'
      rw [h2] at h' hr'
      obtain ⟨t, h4, -⟩ := id hv
      obtain ⟨t', h4', -⟩ := id hv'
      rw [h4] at h
      rw [h4'] at h'
      dsimp only at h h'
      split at h
      · simp at h
      · split at h'
        · simp at h'
        · rcases hp : parseItem toks a pt with ⟨⟨q, vs⟩ | ⟨q, e⟩ | _ | _, a', l⟩ <;> rw [hp] at h h' hr hr' h3 <;> dsimp only at h h'
          · split at h
            · rename_i h5
              rw [if_pos h5] at h'
              exact ih k' _ _ q _ _ hr.2.2.1 hr'.2.2.1 ((FailsOK.mk hf).addAll (fun x hx => (hr.2.1 x hx).1)).valid
                ((FailsOK.mk hf').addAll (fun x hx => (hr'.2.1 x hx).1)).valid (PFailures.addAll_clean h3.1 hc) h h'
            · simp at h
          · split at h
            · rename_i t'' ht''
              simp at h
              have := PFailures.add_clean (PFailures.addAll_clean h3.1 hc) (h3.2 q e rfl) (hle _ _ ht'' h.1)
              rw [h.2] at this
              exact this
            · simp at h
          · simp at h
          · simp at h

theorem parseTokens_two (H : Hole toks toks' n e0 t u) (ht : EofLast toks) (ht' : EofLast toks') {loc loc' : Nat} {errs errs' : List PErr}
    (hle : ∀ i t, toks[i]? = some t → t.extent.s = loc → i = n) (hle' : ∀ i t, toks'[i]? = some t → t.extent.s = loc' → i ≤ n)
    (h : parseTokens toks false = .err loc errs) (h' : parseTokens toks' false = .err loc' errs') : e0 ∉ errs :=
  parseItems_two H ht ht' hle hle' _ _ _ _ _ _ _ (ValidPt.of_none ht.pos) (ValidPt.of_none ht'.pos) (ValidPt.of_none ht.pos)
    (ValidPt.of_none ht'.pos) (fun _ => by simp [PFailures.new]) h h'

end

end Verif
