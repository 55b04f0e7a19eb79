import Verif.Proofs.Den
/-!
# The shunting yard builds trees from left to right
-/

namespace Verif

section
variable {toks : List Token} {Φ : NT → Rel}

theorem Star.btw {α : Type} {R : Pt → Pt → α → Prop} (hR : ∀ p q v, R p q v → Btw toks p q) {p q vs}
    (h : Star toks R p q vs) : Btw toks p q := by
  induction h with
  | nil h => exact .refl h
  | cons h _ ih => exact (hR _ _ _ h).trans ih

theorem TailR.btw {es er : Bool} {α : Type} {S : Pt → Pt → Prop} {R : Pt → Pt → α → Prop} (hS : ∀ p q, S p q → Btw toks p q)
    (hR : ∀ p q v, R p q v → Btw toks p q) {p t q t'} (h : TailR toks es er S R p t q t') : Btw toks p q := by
  induction h with
  | stop h => exact h.1
  | last h h' => exact (hR _ _ _ h).trans h'.1
  | more h h' _ ih => exact (hR _ _ _ h).trans ((hS _ _ h').trans ih)

theorem ImplR.btw {es er : Bool} {α : Type} {i : α → Bool} {S : Pt → Pt → Prop} {R : Pt → Pt → α → Prop}
    (hS : ∀ p q, S p q → Btw toks p q)
    (hR : ∀ p q v, R p q v → Btw toks p q) {p t q t'} (h : ImplR toks es er i S R p t q t') : Btw toks p q := by
  induction h with
  | stop h => exact h.1
  | last h _ h' => exact (hR _ _ _ h).trans h'.1
  | implicit h _ h' _ ih => exact (hR _ _ _ h).trans (h'.1.trans ih)
  | more h h' _ ih => exact (hR _ _ _ h).trans ((hS _ _ h').trans ih)

theorem TailR1.btw {es er : Bool} {α : Type} {S : Pt → Pt → Prop} {R : Pt → Pt → α → Prop} (hS : ∀ p q, S p q → Btw toks p q)
    (hR : ∀ p q v, R p q v → Btw toks p q) {p q t} (h : TailR1 toks es er S R p q t) : Btw toks p q := by
  cases h with
  | one h h' => exact (hR _ _ _ h).trans h'.1
  | more h h' h'' => exact (hR _ _ _ h).trans ((hS _ _ h').trans (h''.btw hS hR))

/-- What is recognised lies between two valid points in order. -/
theorem den_btw (g : G) : ∀ a p q vs, den toks Φ g a p q vs → Btw toks p q := by
  induction g with
  | eps => rintro a p q vs ⟨h, rfl, -⟩; exact .refl h
  | tok k => rintro a p q vs ⟨h, -⟩; exact h
  | number => rintro a p q vs ⟨h, -⟩; exact h
  | simpleNumber => rintro a p q vs ⟨h, -⟩; exact h
  | r n => rintro a p q vs ⟨h, -⟩; exact h
  | seq x y ihx ihy => rintro a p q vs ⟨m, v, w, h, h', -⟩; exact (ihx _ _ _ _ h).trans (ihy _ _ _ _ h')
  | alt x y ihx ihy => rintro a p q vs (h | h); exact ihx _ _ _ _ h; exact ihy _ _ _ _ h
  | opt x ih =>
    rintro a p q vs (⟨v, h, -⟩ | ⟨h, rfl, -⟩)
    · exact ih _ _ _ _ h
    · exact .refl h
  | many x ih => rintro a p q vs ⟨v, h, -⟩; exact h.btw (fun _ _ _ h => ih _ _ _ _ h)
  | tailed k s x ihs ihx =>
    rintro a p q vs ⟨t, h, -⟩
    exact h.btw (fun _ _ ⟨_, h⟩ => ihs _ _ _ _ h) (fun _ _ _ h => ihx _ _ _ _ h)
  | tailed1Values s x ihs ihx =>
    rintro a p q vs ⟨t, h, -⟩
    exact h.btw (fun _ _ ⟨_, h⟩ => ihs _ _ _ _ h) (fun _ _ _ h => ihx _ _ _ _ h)
  | resume s x ihs ihx =>
    rintro a p q vs (⟨h, -⟩ | ⟨m, w, t, h, h', -⟩)
    · exact h.1
    · exact (ihs _ _ _ _ h).trans (h'.btw (fun _ _ ⟨_, h⟩ => ihs _ _ _ _ h) (fun _ _ _ h => ihx _ _ _ _ h))
  | implTailed k i s x ihs ihx =>
    rintro a p q vs ⟨t, h, -⟩
    exact h.btw (fun _ _ ⟨_, h⟩ => ihs _ _ _ _ h) (fun _ _ _ h => ihx _ _ _ _ h)
  | nested o c => rintro a p q vs ⟨m, e0, e, h, -, h', -⟩; exact h.trans h'
  | ext x ih => rintro a p q vs ⟨v, e, h, -⟩; exact ih _ _ _ _ h
  | drop x ih => rintro a p q vs ⟨v, h, -⟩; exact ih _ _ _ _ h
  | map f x ih => rintro a p q vs ⟨v, h, -⟩; exact ih _ _ _ _ h
  | build m x ih => rintro a p q vs ⟨v, e, h, -⟩; exact ih _ _ _ _ h
  | nodeEmpty k x ih => rintro a p q vs ⟨v, e, h, -⟩; exact ih _ _ _ _ h
  | mapErr e x ih => intro a p q vs h; exact ih _ _ _ _ h
  | peek x ih => rintro a p q vs ⟨h, rfl, -⟩; exact .refl h
  | amb l x ih => intro a p q vs h; exact ih _ _ _ _ h
  | ifAmbiguous x y ihx ihy =>
    intro a p q vs h
    unfold den at h
    split at h
    · exact ihx _ _ _ _ h
    · exact ihy _ _ _ _ h
  | notMaximum x ih => rintro a p q vs ⟨-, h⟩; exact ih _ _ _ _ h

theorem TableR.btw {α : Type} {t : (α × G) × List (α × G)} {am p q op payload}
    (h : TableR toks Φ t am p q op payload) : Btw toks p q := by
  obtain ⟨g, -, h⟩ := h; exact den_btw _ _ _ _ _ h

theorem AttrR.btw {R : Pt → Pt → Prop} (hR : ∀ p q, R p q → Btw toks p q) {am p q e attrs}
    (h : AttrR toks Φ R am p q e attrs) : Btw toks p q := by
  obtain ⟨m, vss, h, h', -⟩ := h
  exact (h.btw (fun _ _ _ h => den_btw _ _ _ _ _ h)).trans (hR _ _ h')

theorem PrefixR.btw {am p q e attrs op payload} (h : PrefixR toks Φ am p q e attrs op payload) : Btw toks p q :=
  AttrR.btw (fun _ _ h => TableR.btw h) h

theorem AtomR.btw {am p q v} (h : AtomR toks Φ am p q v) : Btw toks p q := by
  obtain ⟨e, attrs, vs, h, -⟩ := h
  exact h.btw (fun _ _ h => den_btw _ _ _ _ _ h)

theorem OperandR.btw {a am p q v} (h : OperandR toks Φ a am p q v) : Btw toks p q := by
  induction h with
  | atom h => exact h.btw
  | pre h _ _ ih => exact h.btw.trans ih

theorem OpenRangeR.btw {a p q v} (h : OpenRangeR toks Φ a p q v) : Btw toks p q := by
  induction h with
  | last h => exact h.btw
  | pre h _ _ ih => exact h.btw.trans ih

theorem LeftR.btw {stmt a p q v} (h : LeftR toks Φ stmt a p q v) : Btw toks p q := by
  induction h with
  | operand h => exact h.btw
  | post _ _ h _ ih => exact ih.trans h.btw
  | limited _ h _ ih => exact ih.trans h.btw
  | «infix» _ _ h h' _ ih => exact ih.trans (h.btw.trans h'.btw)

theorem ExprR.btw {stmt a p q v} (h : ExprR toks Φ stmt a p q v) : Btw toks p q := by
  cases h with
  | left h => exact h.btw
  | openInfix h _ h' => exact h.btw.trans h'.btw
  | openPrefix h => exact h.btw

end

/-! ## Which expressions may end a statement -/

theorem mayTerminate_prefix (e : Extent) (attrs : List V) (op : PrefixOp) (payload : List V) (inner : Extent)
    (v : Option V) : mayTerminateAttributed (mkAttributed e attrs (op.mk payload inner v)) = false := by
  cases op <;> rfl

theorem mayTerminate_infix (op : InfixOp) (payload : List V) (e : Extent) (l : V) (r : Option V) :
    mayTerminateAttributed (op.mk payload e l r) = false := by
  cases op <;> rfl

theorem mayTerminate_postfix (op : PostfixOp) (payload : List V) (e : Extent) (v : V) :
    mayTerminateAttributed (op.mk payload e v) = false := by
  cases op <;> rfl

/-! ## The operator stack -/

section yard
variable {toks : List Token} {Φ : NT → Rel} {stmt : Bool} {a : Amb}

/-- Prefix operators on the stack, from `p` (first one, read in mode `am`) to `q`; `am'` is the mode for what comes
next. -/
inductive PreStack (toks : List Token) (Φ : NT → Rel) (a am : Amb) (p : Pt) : Pt → Amb → List (Car OpKind) → Prop
  | nil : PreStack toks Φ a am p p am []
  | cons {m q am' cs e attrs op payload} : PreStack toks Φ a am p m am' cs →
      PrefixR toks Φ am' m q e attrs op payload →
      PreStack toks Φ a am p q a (⟨.pre e attrs op payload, m, q⟩ :: cs)

theorem PreStack.key_le {am p q am' cs} (h : PreStack toks Φ a am p q am' cs) : p.key ≤ q.key := by
  induction h with
  | nil => exact Nat.le_refl _
  | cons _ h ih => exact Nat.le_trans ih h.btw.le

theorem applyPrefix_ok {spt : Pt} {e attrs op payload v s q inner rs} (hk : Btw toks spt q)
    (he : ex toks spt q = some inner) :
    applyPrefix toks spt e attrs op payload (⟨v, s, q⟩ :: rs) =
      .ok (⟨mkAttributed ⟨e.s, inner.e⟩ attrs (op.mk payload inner (some v)), spt, q⟩ :: rs) := by
  have : ¬ q.lt spt := by rw [hk.right.lt_iff hk.left]; have := hk.le; omega
  simp [applyPrefix, popExpression, SRes.bind, this, exS, he]

theorem applyOne_pre {c : Car OpKind} {e attrs op payload v s q inner rs}
    (hc : c.value = .pre e attrs op payload) (hk : Btw toks c.spt q) (he : ex toks c.spt q = some inner) :
    applyOne toks c (⟨v, s, q⟩ :: rs) =
      .ok (⟨mkAttributed ⟨e.s, inner.e⟩ attrs (op.mk payload inner (some v)), c.spt, q⟩ :: rs) := by
  unfold applyOne
  rw [hc]
  dsimp only
  split
  · exact applyPrefix_ok hk he
  · exact applyPrefix_ok hk he

/-- Applying the prefix operators on the stack to an operand. -/
theorem applyWhile_pres {cond : OpKind → Bool} (hcond : ∀ x, cond x = true) {am p m am' cs}
    (h : PreStack toks Φ a am p m am' cs) : ∀ {q v}, OperandR toks Φ a am' m q v → ∀ base rs,
    ∃ v', OperandR toks Φ a am p q v' ∧ (cs = [] → v' = v) ∧ (cs ≠ [] → mayTerminateAttributed v' = false) ∧
      applyWhile toks cond (cs ++ base) (⟨v, m, q⟩ :: rs) = applyWhile toks cond base (⟨v', p, q⟩ :: rs) := by
  induction h with
  | nil => intro q v h base rs; exact ⟨v, h, fun _ => rfl, by simp, rfl⟩
  | @cons m0 q0 am0 cs0 e attrs op payload h1 h2 ih =>
    intro q v h base rs
    have hb := h2.btw.trans h.btw
    obtain ⟨inner, he⟩ := ex_isSome hb
    obtain ⟨v', h3, h5, h6, h4⟩ := ih (.pre h2 h he) base rs
    refine ⟨v', h3, by simp, fun _ => ?_, ?_⟩
    · cases cs0 with
      | nil => rw [h5 rfl]; exact mayTerminate_prefix ..
      | cons => exact h6 (by simp)
    rw [List.cons_append]
    simp only [applyWhile, hcond, if_true]
    rw [applyOne_pre rfl hb he]
    exact h4

/-- Applying prefix operators when there is no operand. -/
theorem applyWhile_open {cond : OpKind → Bool} (hcond : ∀ x, cond x = true) {p m am' cs}
    (h : PreStack toks Φ a a p m am' cs) : ∀ {q v}, OpenRangeR toks Φ a m q v →
    ∃ v', OpenRangeR toks Φ a p q v' ∧ applyWhile toks cond cs [⟨v, m, q⟩] = .ok ⟨[], [⟨v', p, q⟩]⟩ := by
  induction h with
  | nil => intro q v h; exact ⟨v, h, rfl⟩
  | cons h1 h2 ih =>
    intro q v h
    have hb := h2.btw.trans h.btw
    obtain ⟨inner, he⟩ := ex_isSome hb
    have ham : ∀ {am' m cs}, PreStack toks Φ a a p m am' cs → am' = a := by
      intro am' m cs h; cases h <;> rfl
    cases ham h1
    obtain ⟨v', h3, h4⟩ := ih (.pre h2 h he)
    refine ⟨v', h3, ?_⟩
    simp only [applyWhile, hcond, if_true]
    rw [applyOne_pre rfl hb he]
    exact h4

/-- The stack, the state and the current point, for an expression that starts at `p0`. -/
inductive YInv (toks : List Token) (Φ : NT → Rel) (stmt : Bool) (a : Amb) (p0 : Pt) : EState → Yard → Pt → Prop
  | pre {pt cs} : PreStack toks Φ a a p0 pt a cs → YInv toks Φ stmt a p0 .Prefix ⟨cs, []⟩ pt
  | preInf {pt cs l m m' op payload} : LeftR toks Φ stmt a p0 m l → (stmt = true → mayTerminateAttributed l = false) →
      TableR toks Φ infixTable a m m' op payload → PreStack toks Φ a (rhsMode a op) m' pt a cs → cs ≠ [] →
      YInv toks Φ stmt a p0 .Prefix ⟨cs ++ [⟨.inf op payload, m, m'⟩], [⟨l, p0, m⟩]⟩ pt
  | inf {l m m' op payload} : LeftR toks Φ stmt a p0 m l → (stmt = true → mayTerminateAttributed l = false) →
      TableR toks Φ infixTable a m m' op payload →
      YInv toks Φ stmt a p0 (.Infix op.isRange) ⟨[⟨.inf op payload, m, m'⟩], [⟨l, p0, m⟩]⟩ m'
  | post {v m pt op payload} : LeftR toks Φ stmt a p0 m v → (stmt = true → mayTerminateAttributed v = false) →
      TableR toks Φ postfixTable a m pt op payload →
      YInv toks Φ stmt a p0 .Postfix ⟨[⟨.post op payload, m, pt⟩], [⟨v, p0, m⟩]⟩ pt
  | limited {v m pt op payload} : LeftR toks Φ stmt a p0 m v → TableR toks Φ limitedTable a m pt op payload →
      YInv toks Φ stmt a p0 .Postfix ⟨[⟨.post op payload, m, pt⟩], [⟨v, p0, m⟩]⟩ pt
  | atom {v m pt cs am} : PreStack toks Φ a a p0 m am cs → OperandR toks Φ a am m pt v →
      (stmt = true → cs = [] → mayTerminateAttributed v = false) →
      YInv toks Φ stmt a p0 .Atom ⟨cs, [⟨v, m, pt⟩]⟩ pt
  | atomLimited {v pt} : OperandR toks Φ a a p0 pt v →
      YInv toks Φ stmt a p0 .AtomLimitedPostfix ⟨[], [⟨v, p0, pt⟩]⟩ pt
  | atomInf {v m pt cs am l m' m'' op payload} : LeftR toks Φ stmt a p0 m' l →
      (stmt = true → mayTerminateAttributed l = false) → TableR toks Φ infixTable a m' m'' op payload →
      PreStack toks Φ a (rhsMode a op) m'' m am cs → OperandR toks Φ a am m pt v →
      YInv toks Φ stmt a p0 .Atom ⟨cs ++ [⟨.inf op payload, m', m''⟩], [⟨v, m, pt⟩, ⟨l, p0, m'⟩]⟩ pt

theorem applyOne_post {op payload m q p v rs e} (he : ex toks p q = some e) :
    applyOne toks ⟨.post op payload, m, q⟩ (⟨v, p, m⟩ :: rs) = .ok (⟨op.mk payload e v, p, q⟩ :: rs) := by
  simp [applyOne, applyPostfix, popExpression, SRes.bind, exS, he]

theorem applyOne_inf {op payload m m' s q p l r rs e} (he : ex toks p q = some e) :
    applyOne toks ⟨.inf op payload, m, m'⟩ (⟨r, s, q⟩ :: ⟨l, p, m⟩ :: rs) =
      .ok (⟨op.mk payload e l (some r), p, q⟩ :: rs) := by
  simp [applyOne, applyMaybeInfix, applyInfix, popExpression, SRes.bind, exS, he]

/-- After an operand or a postfix operator, applying all operators leaves one expression. -/
theorem YInv.flush {cond : OpKind → Bool} (hcond : ∀ x, cond x = true) {p0 st y pt}
    (h : YInv toks Φ stmt a p0 st y pt) (hst : st = .Postfix ∨ st = .Atom ∨ st = .AtomLimitedPostfix) :
    ∃ v, LeftR toks Φ stmt a p0 pt v ∧
      (st ≠ .AtomLimitedPostfix → stmt = true → mayTerminateAttributed v = false) ∧
      applyWhile toks cond y.operators y.result = .ok ⟨[], [⟨v, p0, pt⟩]⟩ := by
  cases h with
  | pre => simp at hst
  | preInf => simp at hst
  | inf => simp at hst
  | post h1 h2 h3 =>
    obtain ⟨e, he⟩ := ex_isSome (h1.btw.trans h3.btw)
    refine ⟨_, .post h1 h2 h3 he, fun _ _ => mayTerminate_postfix .., ?_⟩
    simp only [applyWhile, hcond, if_true]
    rw [applyOne_post he]; rfl
  | limited h1 h3 =>
    obtain ⟨e, he⟩ := ex_isSome (h1.btw.trans h3.btw)
    refine ⟨_, .limited h1 h3 he, fun _ _ => mayTerminate_postfix .., ?_⟩
    simp only [applyWhile, hcond, if_true]
    rw [applyOne_post he]; rfl
  | atomLimited h1 => exact ⟨_, .operand h1, by simp, rfl⟩
  | @atom v m pt cs am h1 h2 h3 =>
    obtain ⟨v', h4, h5, h6, h7⟩ := applyWhile_pres hcond h1 h2 [] []
    refine ⟨v', .operand h4, fun _ hs => ?_, ?_⟩
    · cases cs with
      | nil => rw [h5 rfl]; exact h3 hs rfl
      | cons => exact h6 (by simp)
    · dsimp only; rw [List.append_nil] at h7; rw [h7]; rfl
  | @atomInf v m pt cs am l m' m'' op payload h0 h1 h2 h3 h4 =>
    obtain ⟨v', h5, h6, h7, h8⟩ := applyWhile_pres hcond h3 h4 [⟨.inf op payload, m', m''⟩] [⟨l, p0, m'⟩]
    have hb := h0.btw.trans (h2.btw.trans h5.btw)
    obtain ⟨e, he⟩ := ex_isSome hb
    refine ⟨_, .infix h0 h1 h2 h5 he, fun _ _ => mayTerminate_infix .., ?_⟩
    dsimp only
    rw [h8]
    simp only [applyWhile, hcond, if_true]
    rw [applyOne_inf he]; rfl

/-- What is known of the end of the loop. -/
def SOK (toks : List Token) (Φ : NT → Rel) (stmt : Bool) (a : Amb) (p0 : Pt) : SRes (Car V) → Prop
  | .ok c => ExprR toks Φ stmt a p0 c.ept c.value
  | .err q _ => Btw toks p0 q
  | .panic => False

theorem Yard.finish_ok {y : Yard} {c : Car V} {q : Pt}
    (h : applyWhile toks (fun _ => true) y.operators y.result = .ok ⟨[], [c]⟩) : y.finish toks q = .ok c := by
  simp [Yard.finish, h, SRes.bind, popExpression]

theorem Yard.finish_err {y : Yard} {q q' : Pt} {e : PErr}
    (h : applyWhile toks (fun _ => true) y.operators y.result = .err q' e) : y.finish toks q = .err q' e := by
  simp [Yard.finish, h, SRes.bind]

theorem PreStack.mode {am p q am' cs} (h : PreStack toks Φ a am p q am' cs) (hc : cs ≠ [] ∨ am = a) : am' = a := by
  cases h with
  | nil => simpa using hc
  | cons => rfl

/-- The end of the loop. -/
theorem YInv.finish (hinf : ∀ {p q op payload}, TableR toks Φ infixTable a p q op payload → p.key < q.key)
    {p0 st y pt q} (h : YInv toks Φ stmt a p0 st y pt) (hb : Btw toks p0 pt) (hq : Btw toks pt q) :
    SOK toks Φ stmt a p0 (y.finish toks q) := by
  by_cases hst : st = .Postfix ∨ st = .Atom ∨ st = .AtomLimitedPostfix
  · obtain ⟨v, h1, -, h2⟩ := h.flush (cond := fun _ => true) (fun _ => rfl) hst
    rw [Yard.finish_ok h2]
    exact .left h1
  · cases h with
    | post => simp at hst
    | limited => simp at hst
    | atom => simp at hst
    | atomLimited => simp at hst
    | atomInf => simp at hst
    | inf h1 h2 h3 =>
      rename_i l m op payload
      cases hr : op.isRange with
      | true =>
        obtain ⟨e, he⟩ := ex_isSome (h1.btw.trans h3.btw)
        rw [Yard.finish_ok (c := ⟨op.mk payload e l none, p0, pt⟩)]
        · exact .openInfix h1 h2 h3 hr he
        · simp [applyWhile, applyOne, hr, applyMaybeInfix, popExpression, SRes.bind, exS, he]
      | false =>
        rw [Yard.finish_err (q' := m) (e := .ExpectedExpression)]
        · exact h1.btw
        · simp [applyWhile, applyOne, hr, applyInfix, popExpression, SRes.bind]
    | pre h =>
      cases h with
      | nil =>
        have : (Yard.finish toks ⟨[], []⟩ q) = .err q .ExpectedExpression := by
          simp [Yard.finish, applyWhile, popExpression, SRes.bind]
        rw [this]; exact hb.trans hq
      | cons h1 h2 =>
        rename_i m am' cs e attrs op payload
        cases h1.mode (.inr rfl)
        cases hr : op.isRange with
        | true =>
          obtain ⟨inner, he⟩ := ex_isSome h2.btw
          obtain ⟨v', h3, h4⟩ := applyWhile_open (cond := fun _ => true) (fun _ => rfl) h1 (.last h2 hr he)
          rw [Yard.finish_ok (c := ⟨v', p0, pt⟩)]
          · exact .openPrefix h3
          · simp only [applyWhile, if_true]
            have : applyOne toks ⟨.pre e attrs op payload, m, pt⟩ [] =
                .ok [⟨mkAttributed ⟨e.s, inner.e⟩ attrs (op.mk payload inner none), m, pt⟩] := by
              simp [applyOne, hr, applyMaybePrefix, SRes.bind, exS, he]
            rw [this]; exact h4
        | false =>
          rw [Yard.finish_err (q' := m) (e := .ExpectedExpression)]
          · exact ⟨hb.left, h2.btw.left, h1.key_le⟩
          · simp [applyWhile, applyOne, hr, applyPrefix, popExpression, SRes.bind]
    | preInf h1 h2 h3 h4 h5 =>
      rename_i cs0 l m m' op payload
      revert h4
      generalize rhsMode a op = am
      intro h4
      have h4' : ∃ aa, PreStack toks Φ a am m' pt aa cs0 := ⟨_, h4⟩
      clear h4
      obtain ⟨aa, h4⟩ := h4'
      cases h4 with
      | nil => exact absurd rfl h5
      | cons h6 h7 =>
        rename_i m1 am' cs e attrs op' payload'
        have hlt : m.lt m1 := by
          rw [h3.btw.left.lt_iff h7.btw.left]
          have := hinf h3; have := h6.key_le; omega
        rw [Yard.finish_err (q' := m1) (e := .ExpectedExpression)]
        · exact ⟨hb.left, h7.btw.left, Nat.le_trans h1.btw.le (Nat.le_trans h3.btw.le h6.key_le)⟩
        · cases hr : op'.isRange <;>
            simp [applyWhile, applyOne, hr, applyMaybePrefix, applyPrefix, popExpression, SRes.bind, hlt]

/-- The parsers of the loop do as the reading of the grammar says. -/
structure ParsersOK (toks : List Token) (Φ : NT → Rel) (ps : ExprParsers) : Prop where
  prefixOrAtom : ∀ a pt, ValidPt toks pt → Run toks (ps.prefixOrAtom a pt) a pt fun q x =>
    match x with
    | .prefix e attrs op payload => PrefixR toks Φ a pt q e attrs op payload
    | .atom v => AtomR toks Φ a pt q v
  infixOrPostfix : ∀ a pt, ValidPt toks pt → Run toks (ps.infixOrPostfix a pt) a pt fun q x =>
    match x with
    | .infix op payload => TableR toks Φ infixTable a pt q op payload
    | .postfix op payload => TableR toks Φ postfixTable a pt q op payload
  limitedPostfix : ∀ a pt, ValidPt toks pt → Run toks (ps.limitedPostfix a pt) a pt fun q x =>
    TableR toks Φ limitedTable a pt q x.1 x.2

/-- What is known after one turn of the loop. -/
def StepOK (toks : List Token) (Φ : NT → Rel) (stmt : Bool) (a : Amb) (p0 q : Pt) : Step → Prop
  | .continue y st => ∀ adapt, adapt = (if stmt then adaptStatement else fun _ s => s) →
      YInv toks Φ stmt a p0 (adapt y st) y q
  | .stop r => SOK toks Φ stmt a p0 r

theorem addOperator_pre {y : Yard} {e attrs op payload p q}  :
    y.addOperator toks (.pre e attrs op payload) p q =
      .ok ⟨⟨.pre e attrs op payload, p, q⟩ :: y.operators, y.result⟩ := by
  obtain ⟨ops, rs⟩ := y
  have : ∀ t, (OpKind.pre e attrs op payload).shouldPop t = false := by intro t; cases t <;> rfl
  cases ops <;> simp [Yard.addOperator, applyWhile, this, SRes.bind]

theorem shouldPop_inf (op payload t) : (OpKind.inf op payload).shouldPop t = true := by cases t <;> rfl
theorem shouldPop_post (op payload t) : (OpKind.post op payload).shouldPop t = true := by cases t <;> rfl

theorem adapt_of_ne {adapt : Yard → EState → EState} {y st}
    (h : adapt = (if stmt then adaptStatement else fun _ s => s)) (hs : st ≠ .Atom) : adapt y st = st := by
  subst h
  cases stmt <;> cases st <;> simp_all [adaptStatement]

theorem adapt_ops {adapt : Yard → EState → EState} {y st}
    (h : adapt = (if stmt then adaptStatement else fun _ s => s)) (hs : y.operators ≠ []) : adapt y st = st := by
  subst h
  cases stmt <;> cases st <;> simp_all [adaptStatement]

theorem shuntStep_run (hinf : ∀ {p q op payload}, TableR toks Φ infixTable a p q op payload → p.key < q.key)
    {ps : ExprParsers} (hp : ParsersOK toks Φ ps) {p0 st y pt} (h : YInv toks Φ stmt a p0 st y pt)
    (hb : Btw toks p0 pt) :
    Run toks (shuntStep toks ps y st a pt) a p0 (fun q s => StepOK toks Φ stmt a p0 q s) := by
  have hv := hb.right
  by_cases hst : st = .Postfix ∨ st = .Atom ∨ st = .AtomLimitedPostfix
  · by_cases hlim : st = .AtomLimitedPostfix
    · subst hlim
      have hr := hp.limitedPostfix a pt hv
      simp only [shuntStep]
      generalize ps.limitedPostfix a pt = res at hr ⊢
      obtain ⟨out, a', l⟩ := res
      obtain ⟨rfl, h2, h3⟩ := hr
      have h2 := h2.mono hb.le
      cases out with
      | fail q e =>
        have hq : Btw toks pt q := ⟨hv, h3.1, h3.2⟩
        exact ⟨rfl, h2, h3.1, (hb.trans hq).le, h.finish hinf hb hq⟩
      | panic => exact h3.elim
      | hang => exact ⟨rfl, h2, trivial⟩
      | ok q x =>
        obtain ⟨op, payload⟩ := x
        obtain ⟨v, h4, -, h6⟩ := h.flush (shouldPop_post op payload) hst
        refine ⟨rfl, h2, h3.1, Nat.le_trans hb.le h3.2.1, ?_⟩
        dsimp only
        unfold Yard.addOperator
        rw [h6]
        intro adapt ha
        rw [adapt_of_ne ha (by simp)]
        exact .limited h4 h3.2.2
    · have hr := hp.infixOrPostfix a pt hv
      have : shuntStep toks ps y st a pt =
          match ps.infixOrPostfix a pt with
          | ⟨.ok pt' (.infix op payload), a', l⟩ =>
            ⟨.ok pt' (.ofYard (.Infix op.isRange) (y.addOperator toks (.inf op payload) pt pt')), a', l⟩
          | ⟨.ok pt' (.postfix op payload), a', l⟩ =>
            ⟨.ok pt' (.ofYard .Postfix (y.addOperator toks (.post op payload) pt pt')), a', l⟩
          | ⟨.fail q _, a', l⟩ => ⟨.ok q (.stop (y.finish toks q)), a', l⟩
          | ⟨.panic, a', l⟩ => ⟨.panic, a', l⟩
          | ⟨.hang, a', l⟩ => ⟨.hang, a', l⟩ := by
        rcases hst with rfl | rfl | rfl
        · rfl
        · rfl
        · exact absurd rfl hlim
      rw [this]
      generalize ps.infixOrPostfix a pt = res at hr ⊢
      obtain ⟨out, a', l⟩ := res
      obtain ⟨rfl, h2, h3⟩ := hr
      have h2 := h2.mono hb.le
      cases out with
      | fail q e =>
        have hq : Btw toks pt q := ⟨hv, h3.1, h3.2⟩
        exact ⟨rfl, h2, h3.1, (hb.trans hq).le, h.finish hinf hb hq⟩
      | panic => exact h3.elim
      | hang => exact ⟨rfl, h2, trivial⟩
      | ok q x =>
        cases x with
        | «infix» op payload =>
          obtain ⟨v, h4, h5, h6⟩ := h.flush (shouldPop_inf op payload) hst
          refine ⟨rfl, h2, h3.1, Nat.le_trans hb.le h3.2.1, ?_⟩
          dsimp only
          unfold Yard.addOperator
          rw [h6]
          intro adapt ha
          rw [adapt_of_ne ha (by simp)]
          exact .inf h4 (h5 hlim) h3.2.2
        | «postfix» op payload =>
          obtain ⟨v, h4, h5, h6⟩ := h.flush (shouldPop_post op payload) hst
          refine ⟨rfl, h2, h3.1, Nat.le_trans hb.le h3.2.1, ?_⟩
          dsimp only
          unfold Yard.addOperator
          rw [h6]
          intro adapt ha
          rw [adapt_of_ne ha (by simp)]
          exact .post h4 (h5 hlim) h3.2.2
  · -- the mode of the next operator or atom
    have key : ∃ am, Run toks (if (match st with | .Infix wasRange => a.isAmbiguous && wasRange | _ => false) then
          P.maximallyAmbiguous ps.prefixOrAtom a pt else ps.prefixOrAtom a pt) a pt (fun q x =>
            match x with
            | .prefix e attrs op payload => PrefixR toks Φ am pt q e attrs op payload
            | .atom v => AtomR toks Φ am pt q v) ∧
        (∀ q e attrs op payload, PrefixR toks Φ am pt q e attrs op payload →
          YInv toks Φ stmt a p0 .Prefix ⟨⟨.pre e attrs op payload, pt, q⟩ :: y.operators, y.result⟩ q) ∧
        (∀ q v, AtomR toks Φ am pt q v → ∀ adapt, adapt = (if stmt then adaptStatement else fun _ s => s) →
          YInv toks Φ stmt a p0 (adapt (y.addExpression v pt q) .Atom) (y.addExpression v pt q) q) := by
      cases h with
      | post => simp at hst
      | limited => simp at hst
      | atom => simp at hst
      | atomLimited => simp at hst
      | atomInf => simp at hst
      | pre h =>
        refine ⟨a, ?_, ?_, ?_⟩
        · simpa using hp.prefixOrAtom a pt hv
        · intro q e attrs op payload hx; exact .pre (.cons h hx)
        · intro q v hx adapt ha
          subst ha
          rename_i cs
          simp only [Yard.addExpression]
          cases stmt with
          | false => exact .atom h (.atom hx) (by simp)
          | true =>
            simp only [if_true, adaptStatement]
            cases h with
            | nil =>
              cases hm : mayTerminateAttributed v with
              | true => simp [hm]; exact .atomLimited (.atom hx)
              | false => simp [hm]; exact .atom .nil (.atom hx) (by simp [hm])
            | cons h1 h2 => simp; exact .atom (.cons h1 h2) (.atom hx) (by simp)
      | preInf h1 h2 h3 h4 h5 =>
        refine ⟨a, ?_, ?_, ?_⟩
        · simpa using hp.prefixOrAtom a pt hv
        · intro q e attrs op payload hx; exact .preInf h1 h2 h3 (.cons h4 hx) (by simp)
        · intro q v hx adapt ha
          rw [adapt_ops ha (by simp [Yard.addExpression])]
          exact .atomInf h1 h2 h3 h4 (.atom hx)
      | inf h1 h2 h3 =>
        rename_i op payload
        refine ⟨rhsMode a op, ?_, ?_, ?_⟩
        · unfold rhsMode
          dsimp only
          split
          · exact Run.setAmbiguityLevel (hp.prefixOrAtom .Maximum pt hv)
          · exact hp.prefixOrAtom a pt hv
        · intro q e attrs op payload hx; exact .preInf h1 h2 h3 (.cons .nil hx) (by simp)
        · intro q v hx adapt ha
          rw [adapt_ops ha (by simp [Yard.addExpression])]
          exact .atomInf h1 h2 h3 .nil (.atom hx)
    obtain ⟨am, hr, hpre, hatom⟩ := key
    have : shuntStep toks ps y st a pt =
        match (if (match st with | .Infix wasRange => a.isAmbiguous && wasRange | _ => false) then
          P.maximallyAmbiguous ps.prefixOrAtom a pt else ps.prefixOrAtom a pt) with
        | ⟨.ok pt' (.prefix e attrs op payload), a', l⟩ =>
          ⟨.ok pt' (.ofYard .Prefix (y.addOperator toks (.pre e attrs op payload) pt pt')), a', l⟩
        | ⟨.ok pt' (.atom e), a', l⟩ => ⟨.ok pt' (.continue (y.addExpression e pt pt') .Atom), a', l⟩
        | ⟨.fail q _, a', l⟩ => ⟨.ok q (.stop (y.finish toks q)), a', l⟩
        | ⟨.panic, a', l⟩ => ⟨.panic, a', l⟩
        | ⟨.hang, a', l⟩ => ⟨.hang, a', l⟩ := by
      cases st <;> first | rfl | simp at hst
    rw [this]
    generalize (if (match st with | .Infix wasRange => a.isAmbiguous && wasRange | _ => false) then
          P.maximallyAmbiguous ps.prefixOrAtom a pt else ps.prefixOrAtom a pt) = res at hr ⊢
    obtain ⟨out, a', l⟩ := res
    obtain ⟨rfl, h2, h3⟩ := hr
    have h2 := h2.mono hb.le
    cases out with
    | fail q e =>
      have hq : Btw toks pt q := ⟨hv, h3.1, h3.2⟩
      exact ⟨rfl, h2, h3.1, (hb.trans hq).le, h.finish hinf hb hq⟩
    | panic => exact h3.elim
    | hang => exact ⟨rfl, h2, trivial⟩
    | ok q x =>
      cases x with
      | «prefix» e attrs op payload =>
        refine ⟨rfl, h2, h3.1, Nat.le_trans hb.le h3.2.1, ?_⟩
        dsimp only
        rw [addOperator_pre]
        intro adapt ha
        rw [adapt_of_ne ha (by simp)]
        exact hpre _ _ _ _ _ h3.2.2
      | atom v =>
        exact ⟨rfl, h2, h3.1, Nat.le_trans hb.le h3.2.1, hatom _ _ h3.2.2⟩

theorem shuntLoop_run (hinf : ∀ {p q op payload}, TableR toks Φ infixTable a p q op payload → p.key < q.key)
    {ps : ExprParsers} (hp : ParsersOK toks Φ ps) {p0 : Pt} (n : Nat) :
    ∀ y st pt, YInv toks Φ stmt a p0 st y pt → Btw toks p0 pt →
      Run toks (shuntLoop toks ps (if stmt then adaptStatement else fun _ s => s) n y st a pt) a p0
        (ExprR toks Φ stmt a p0) := by
  induction n with
  | zero => intro y st pt _ _; exact ⟨rfl, .nil, trivial⟩
  | succ n ih =>
    intro y st pt h hb
    unfold shuntLoop
    refine Run.bind' ((shuntStep_run hinf hp h hb).mono ?_)
    intro q s hq hk hs
    cases s with
    | «continue» y' st' => exact ih _ _ _ (hs _ rfl) ⟨hb.left, hq, hk⟩
    | stop r =>
      refine ⟨rfl, .nil, ?_⟩
      cases r with
      | ok c => exact ⟨(ExprR.btw hs).right, (ExprR.btw hs).le, hs⟩
      | err => exact ⟨hs.right, hs.le⟩
      | panic => exact hs

end yard

section main
variable {toks : List Token} {Φ : NT → Rel} {rec : NT → P (List V)}

theorem tableP_run {α : Type} (ht : EofLast toks) (hr : RecOK toks Φ rec) (t : (α × G) × List (α × G))
    (hw : ∀ x ∈ t.1 :: t.2, x.2.wf = true) (a : Amb) (pt : Pt) (hv : ValidPt toks pt) :
    Run toks (tableP toks rec t a pt) a pt (fun q x => TableR toks Φ t a pt q x.1 x.2) := by
  have one : ∀ x ∈ t.1 :: t.2, Run toks (((evalG toks rec x.2).map fun vs => (x.1, vs)) a pt) a pt
      (fun q x => TableR toks Φ t a pt q x.1 x.2) := by
    intro x hx
    exact Run.map ((evalG_run ht hr x.2 (hw x hx) a pt hv).mono fun _ v _ _ h => ⟨x.2, hx, h⟩)
  unfold tableP
  dsimp only
  have : ∀ (l : List (α × G)) (p : P (α × List V)), (∀ x ∈ l, x ∈ t.1 :: t.2) →
      Run toks (p a pt) a pt (fun q x => TableR toks Φ t a pt q x.1 x.2) →
      Run toks (l.foldl (fun p x => p.orElse ((evalG toks rec x.2).map fun vs => (x.1, vs))) p a pt) a pt
        (fun q x => TableR toks Φ t a pt q x.1 x.2) := by
    intro l
    induction l with
    | nil => intro p _ h; exact h
    | cons x xs ih =>
      intro p hx h
      exact ih _ (fun y hy => hx y (by simp [hy])) (Run.orElse h (one x (hx x (by simp))))
  exact this t.2 _ (fun x hx => by simp [hx]) (one t.1 (by simp))

theorem attributedP_run {α : Type} (hr : RecOK toks Φ rec) {p : P α} {R : Pt → Pt → α → Prop} {a : Amb}
    (hp : ∀ pt, ValidPt toks pt → Run toks (p a pt) a pt (R pt)) (pt : Pt) (hv : ValidPt toks pt) :
    Run toks (attributedP toks rec p a pt) a pt
      (fun q x => AttrR toks Φ (fun m q => R m q x.2.2) a pt q x.1 x.2.1) := by
  refine Run.spanned hv (Run.bind ((Run.star
    (R := fun p q vs => den toks Φ (.r .attribute) a p q vs) ?_ _ pt hv).mono ?_))
  · intro pt hv; exact (hr.run .attribute a pt hv).btw hv
  · intro m vss hm hk h
    refine Run.map ((hp m hm).mono ?_)
    intro q v hq hk' h' e he
    exact ⟨m, vss, h, h', he, rfl⟩

theorem prefixTable_wf : ∀ x ∈ prefixTable.1 :: prefixTable.2, x.2.wf = true := by decide +kernel
theorem infixTable_wf : ∀ x ∈ infixTable.1 :: infixTable.2, x.2.wf = true := by decide +kernel
theorem postfixTable_wf : ∀ x ∈ postfixTable.1 :: postfixTable.2, x.2.wf = true := by decide +kernel
theorem limitedTable_wf : ∀ x ∈ limitedTable.1 :: limitedTable.2, x.2.wf = true := by decide +kernel

attribute [local irreducible] tableP attributedP TableR

theorem exprParsers_ok (ht : EofLast toks) (hr : RecOK toks Φ rec) :
    ParsersOK toks Φ (exprParsers toks rec) where
  prefixOrAtom a pt hv := by
    refine Run.orElse (Run.map ((attributedP_run hr
      (R := fun p q x => TableR toks Φ prefixTable a p q x.1 x.2)
      (fun pt hv => tableP_run ht hr prefixTable prefixTable_wf a pt hv) pt hv).mono ?_))
      (Run.map ((attributedP_run hr (R := fun p q vs => den toks Φ (.r .expression_atom) a p q vs)
        (fun pt hv => (hr.run .expression_atom a pt hv).btw hv) pt hv).mono ?_))
    · rintro q ⟨e, attrs, op, payload⟩ _ _ h; exact h
    · rintro q ⟨e, attrs, vs⟩ _ _ h; exact ⟨e, attrs, vs, h, rfl⟩
  infixOrPostfix a pt hv := by
    refine Run.orElse (Run.map ((tableP_run ht hr infixTable infixTable_wf a pt hv).mono ?_))
      (Run.map ((tableP_run ht hr postfixTable postfixTable_wf a pt hv).mono ?_))
    · rintro q ⟨op, payload⟩ _ _ h; exact h
    · rintro q ⟨op, payload⟩ _ _ h; exact h
  limitedPostfix a pt hv := tableP_run ht hr limitedTable limitedTable_wf a pt hv

theorem evalRule_run (ht : EofLast toks) (hr : RecOK toks Φ rec)
    (hinf : ∀ {a p q op payload}, TableR toks Φ infixTable a p q op payload → p.key < q.key)
    (r : Rule) (hw : r.wf = true) (a : Amb) (pt : Pt) (hv : ValidPt toks pt) :
    Run toks (evalRule toks rec r a pt) a pt (denRule toks Φ r a pt) := by
  cases r with
  | g g => exact evalG_run ht hr g hw a pt hv
  | expr stmt =>
    refine Run.map ((shuntLoop_run (stmt := stmt) hinf (exprParsers_ok ht hr) (loopFuel toks) {} .Prefix pt
      (.pre .nil) (.refl hv)).mono ?_)
    intro q v hq hk h
    exact ⟨v, h.btw, h, rfl⟩

/-- The parser does as any `Φ` says that is closed under the rules. -/
theorem eval_run (ht : EofLast toks) (hc : Closed toks Φ)
    (hinf : ∀ {a p q op payload}, TableR toks Φ infixTable a p q op payload → p.key < q.key) (n : Nat) :
    RecOK toks Φ (eval toks n) := by
  induction n with
  | zero => exact ⟨fun nt a pt hv => ⟨rfl, .nil, trivial⟩, eval_early toks 0⟩
  | succ n ih =>
    refine ⟨?_, eval_early toks _⟩
    intro nt a pt hv
    refine (evalRule_run ht ih hinf (rules nt) (rules_wf nt) a pt hv).mono ?_
    intro q vs hq hk h
    exact hc nt a pt q vs ⟨hv, hq, hk⟩ h

end main

end Verif
