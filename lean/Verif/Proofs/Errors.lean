import Verif.ParseLoop
import Verif.Message
import Verif.Proofs.ExpectRules
/-!
# Which errors the parser can have

All errors of the parser are variants of `Error`.
-/

namespace Verif

/-- All errors of a result are of some sort. -/
def Res.errs {α : Type} (E : PErr → Prop) (r : Res α) : Prop := (∀ x ∈ r.log, E x.2) ∧ ∀ q e, r.out = .fail q e → E e

/-- All errors of a parser are of some sort. -/
def AllErrs {α : Type} (E : PErr → Prop) (p : P α) : Prop := ∀ a pt, (p a pt).errs E

section
variable {α β : Type} {E : PErr → Prop} {toks : List Token}

@[simp] theorem Res.errs_ok {q : Pt} {v : α} {a : Amb} {l : Log} : Res.errs E ⟨.ok q v, a, l⟩ ↔ ∀ x ∈ l, E x.2 := by simp [Res.errs]
@[simp] theorem Res.errs_fail {q : Pt} {e : PErr} {a : Amb} {l : Log} :
    Res.errs E (⟨.fail q e, a, l⟩ : Res α) ↔ (∀ x ∈ l, E x.2) ∧ E e := by
  simp only [Res.errs]
  constructor
  · rintro ⟨h, h'⟩; exact ⟨h, h' _ _ rfl⟩
  · rintro ⟨h, h'⟩; exact ⟨h, fun _ _ h => by cases h; exact h'⟩
@[simp] theorem Res.errs_panic {a : Amb} {l : Log} : Res.errs E (⟨.panic, a, l⟩ : Res α) ↔ ∀ x ∈ l, E x.2 := by simp [Res.errs]
@[simp] theorem Res.errs_hang {a : Amb} {l : Log} : Res.errs E (⟨.hang, a, l⟩ : Res α) ↔ ∀ x ∈ l, E x.2 := by simp [Res.errs]

theorem Res.errs_after {r : Res α} {l : Log} (h : r.errs E) (hl : ∀ x ∈ l, E x.2) : Res.errs E ⟨r.out, r.amb, l ++ r.log⟩ := by
  refine ⟨?_, h.2⟩
  intro x hx
  rcases List.mem_append.mp hx with hx | hx
  · exact hl x hx
  · exact h.1 x hx

namespace AllErrs

theorem pure {v : α} : AllErrs E (P.pure v) := fun a pt => by simp [P.pure]
theorem failure {e : PErr} (h : E e) : AllErrs E (P.failure e : P α) := fun a pt => by simp [P.failure, h]
theorem hang : AllErrs E (fun a _ => ⟨.hang, a, []⟩ : P α) := fun a pt => by simp

theorem bind {p : P α} {f : α → P β} (hp : AllErrs E p) (hf : ∀ v, AllErrs E (f v)) : AllErrs E (p.bind f) := by
  intro a pt
  unfold P.bind
  have h := hp a pt
  generalize p a pt = r at *
  rcases r with ⟨⟨q, v⟩ | ⟨q, e⟩ | _ | _, a', l⟩ <;> simp at h ⊢
  · exact Res.errs_after (hf v a' q) (fun x hx => h _ _ hx)
  all_goals exact h

theorem map {p : P α} {f : α → β} (hp : AllErrs E p) : AllErrs E (p.map f) := by
  intro a pt
  unfold P.map
  have h := hp a pt
  generalize p a pt = r at *
  rcases r with ⟨⟨q, v⟩ | ⟨q, e⟩ | _ | _, a', l⟩ <;> simp at h ⊢ <;> exact h

theorem mapErr {p : P α} {e : PErr} (hp : AllErrs E p) (he : E e) : AllErrs E (p.mapErr e) := by
  intro a pt
  unfold P.mapErr
  have h := hp a pt
  generalize p a pt = r at *
  rcases r with ⟨⟨q, v⟩ | ⟨q, e⟩ | _ | _, a', l⟩ <;> simp at h ⊢
  · exact h
  · exact ⟨h.1, he⟩
  all_goals exact h

theorem orElse {p q : P α} (hp : AllErrs E p) (hq : AllErrs E q) : AllErrs E (p.orElse q) := by
  intro a pt
  unfold P.orElse
  have h := hp a pt
  generalize p a pt = r at *
  rcases r with ⟨⟨z, v⟩ | ⟨z, e⟩ | _ | _, a', l⟩
  · exact h
  · simp at h
    dsimp only
    have h' := hq a' pt
    generalize q a' pt = s at *
    refine ⟨?_, h'.2⟩
    intro x hx
    simp at hx
    rcases hx with hx | hx | rfl
    · exact h.1 _ _ hx
    · exact h'.1 x hx
    · exact h.2
  all_goals exact h

theorem optional {p : P α} (hp : AllErrs E p) : AllErrs E p.optional := by
  intro a pt
  unfold P.optional
  have h := hp a pt
  generalize p a pt = r at *
  rcases r with ⟨⟨q, v⟩ | ⟨q, e⟩ | _ | _, a', l⟩ <;> simp at h ⊢
  · exact h
  · rintro x y (hx | ⟨-, rfl⟩)
    · exact h.1 _ _ hx
    · exact h.2
  all_goals exact h

theorem peek {p : P α} (hp : AllErrs E p) : AllErrs E p.peek := by
  intro a pt
  unfold P.peek
  have h := hp a pt
  generalize p a pt = r at *
  rcases r with ⟨⟨q, v⟩ | ⟨q, e⟩ | _ | _, a', l⟩ <;> simp at h ⊢ <;> exact h

theorem setAmbiguityLevel {p : P α} {m : Amb} (hp : AllErrs E p) : AllErrs E (p.setAmbiguityLevel m) :=
  fun _ pt => ⟨(hp m pt).1, (hp m pt).2⟩

theorem zeroOrMore {p : P α} (hp : AllErrs E p) : ∀ n, AllErrs E (p.zeroOrMore n)
  | 0 => hang
  | n + 1 => by
    intro a pt
    unfold P.zeroOrMore
    have h := hp a pt
    generalize p a pt = r at *
    rcases r with ⟨⟨q, v⟩ | ⟨q, e⟩ | _ | _, a', l⟩ <;> simp at h ⊢
    · have h' := zeroOrMore hp n a' q
      generalize p.zeroOrMore n a' q = s at *
      rcases s with ⟨⟨q, v⟩ | ⟨q, e⟩ | _ | _, a', l'⟩ <;> simp at h' ⊢
      · grind
      · grind
      · grind
      · grind
    · rintro x y (hx | ⟨-, rfl⟩)
      · exact h.1 _ _ hx
      · exact h.2
    all_goals exact h

/-- The same where the error is put in the result. -/
def _root_.Verif.P.TailedState.errs (E : PErr → Prop) : P.TailedState α → Prop
  | .nothing e => E e
  | _ => True

theorem parseTailed {sep : P β} {f : P α} (hs : AllErrs E sep) (hf : AllErrs E f) :
    ∀ a pt, (P.parseTailed sep f a pt).errs E ∧ ∀ q v, (P.parseTailed sep f a pt).out = .ok q v → v.errs E := by
  intro a pt
  unfold P.parseTailed
  have h := hf a pt
  generalize f a pt = r at *
  rcases r with ⟨⟨q, v⟩ | ⟨q, e⟩ | _ | _, a', l⟩ <;> simp at h ⊢
  · have h' := hs a' q
    generalize sep a' q = s at *
    rcases s with ⟨⟨q, v⟩ | ⟨q, e⟩ | _ | _, a', l'⟩ <;> simp at h' ⊢
    · exact ⟨by grind, trivial⟩
    · exact ⟨by grind, trivial⟩
    · grind
    · grind
  · exact ⟨h.1, h.2⟩
  all_goals exact h

theorem bindTailed {sep : P β} {f : P α} {γ : Type} {g : P.TailedState α → P γ} (hs : AllErrs E sep) (hf : AllErrs E f)
    (hg : ∀ v, v.errs E → AllErrs E (g v)) : AllErrs E ((P.parseTailed sep f).bind g) := by
  intro a pt
  unfold P.bind
  have h := parseTailed hs hf a pt
  generalize P.parseTailed sep f a pt = r at *
  rcases r with ⟨⟨q, v⟩ | ⟨q, e⟩ | _ | _, a', l⟩ <;> simp at h ⊢
  · exact Res.errs_after (hg v h.2 a' q) (fun x hx => h.1 _ _ hx)
  all_goals exact h

theorem zeroOrMoreTailedAppend {sep : P β} {f : P α} (hs : AllErrs E sep) (hf : AllErrs E f) :
    ∀ n t, AllErrs E (P.zeroOrMoreTailedAppend sep f n t)
  | 0, _ => hang
  | n + 1, t => by
    unfold P.zeroOrMoreTailedAppend
    refine bindTailed hs hf ?_
    rintro (e | v | v) _
    · exact pure
    · exact pure
    · exact zeroOrMoreTailedAppend hs hf n _

theorem oneOrMoreTailed {sep : P β} {f : P α} (hs : AllErrs E sep) (hf : AllErrs E f) (n : Nat) : AllErrs E (P.oneOrMoreTailed sep f n) := by
  refine bindTailed hs hf ?_
  rintro (e | v | v) h
  · exact failure h
  · exact pure
  · exact zeroOrMoreTailedAppend hs hf n _

theorem implTailed {impl : α → Bool} {sep : P β} {f : P α} (hs : AllErrs E sep) (hf : AllErrs E f) :
    ∀ n t, AllErrs E (P.zeroOrMoreImplicitlyTailed impl sep f n t)
  | 0, _ => hang
  | n + 1, t => by
    unfold P.zeroOrMoreImplicitlyTailed
    refine bindTailed hs hf ?_
    rintro (e | v | v) _
    · exact pure
    · dsimp only
      split
      · exact implTailed hs hf n _
      · exact pure
    · exact implTailed hs hf n _

theorem resume {sep : P β} {f : P α} (hs : AllErrs E sep) (hf : AllErrs E f) (n : Nat) :
    AllErrs E (P.zeroOrMoreTailedValuesResume sep f n) := by
  intro a pt
  unfold P.zeroOrMoreTailedValuesResume
  have h := hs a pt
  generalize sep a pt = r at *
  rcases r with ⟨⟨q, v⟩ | ⟨q, e⟩ | _ | _, a', l⟩ <;> simp at h ⊢
  · have h' := oneOrMoreTailed hs hf n a' q
    generalize P.oneOrMoreTailed sep f n a' q = s at *
    rcases s with ⟨⟨q, v⟩ | ⟨q, e⟩ | _ | _, a', l'⟩ <;> simp at h' ⊢ <;> grind
  · exact h.1
  all_goals exact h

theorem token {convert : Token → Option α} {e : PErr} (he : E e) : AllErrs E (Verif.token toks convert e) := by
  intro a pt
  unfold Verif.token
  split
  · simp [he]
  · dsimp only
    split
    · simp
    · split
      · simp
      · split
        · split <;> simp [he]
        · simp [he]

theorem spanned {p : P α} (hp : AllErrs E p) : AllErrs E (P.spanned toks p) := by
  intro a pt
  unfold P.spanned
  have h := hp a pt
  generalize p a pt = r at *
  rcases r with ⟨⟨q, v⟩ | ⟨q, e⟩ | _ | _, a', l⟩ <;> simp at h ⊢
  · split <;> simpa using h
  all_goals exact h

theorem spannedEmpty {p : P α} (hp : AllErrs E p) : AllErrs E (P.spannedEmpty toks p) := by
  intro a pt
  unfold P.spannedEmpty
  have h := hp a pt
  generalize p a pt = r at *
  rcases r with ⟨⟨q, v⟩ | ⟨q, e⟩ | _ | _, a', l⟩ <;> simp at h ⊢
  · split <;> simpa using h
  all_goals exact h

theorem parseNestedUntil {o c : Token → Bool} : AllErrs E (Verif.parseNestedUntil toks o c) := by
  intro a pt
  unfold Verif.parseNestedUntil
  dsimp only
  split <;> simp

theorem fieldNameNumber (he : E .ExpectedNumber) : AllErrs E (Verif.fieldNameNumber toks) := by
  intro a pt
  unfold Verif.fieldNameNumber
  have h := token (toks := toks) (convert := convNumber) he a pt
  generalize Verif.token toks convNumber .ExpectedNumber a pt = r at *
  rcases r with ⟨⟨q, v⟩ | ⟨q, e⟩ | _ | _, a', l⟩ <;> simp at h ⊢
  · split
    · simpa using h
    · simp; exact ⟨h, he⟩
  all_goals exact h

end AllErrs

end

/-- Is it a variant of `Error`? -/
def PErr.declared (e : PErr) : Bool := PErr.variants.any (·.1 = e)

/-- All tokens and errors in a grammar expression have a variant. -/
def G.declared : G → Bool
  | .eps | .r _ => true
  | .tok k => (PErr.Expected k).declared
  | .number | .simpleNumber => PErr.declared .ExpectedNumber
  | .seq a b | .alt a b | .tailed _ a b | .tailed1Values a b | .resume a b | .implTailed _ _ a b | .ifAmbiguous a b =>
    a.declared && b.declared
  | .opt a | .many a | .ext a | .drop a | .map _ a | .build _ a | .nodeEmpty _ a | .peek a | .amb _ a => a.declared
  | .notMaximum a => a.declared && PErr.declared .BlockNotAllowedHere
  | .nested o _ => (PErr.Expected o).declared
  | .mapErr e a => e.declared && a.declared

section
variable {toks : List Token} {rec : NT → P (List V)}

theorem evalG_declared (hr : ∀ nt, AllErrs (·.declared) (rec nt)) (g : G) (h : g.declared = true) :
    AllErrs (·.declared) (evalG toks rec g) := by
  induction g with
  | eps => exact .pure
  | tok k => exact .map (.token h)
  | number => exact .map (.token h)
  | simpleNumber => exact .fieldNameNumber h
  | r n => exact hr n
  | seq a b iha ihb =>
    simp [G.declared] at h
    exact .bind (iha h.1) fun _ => .map (ihb h.2)
  | alt a b iha ihb =>
    simp [G.declared] at h
    exact .orElse (iha h.1) (ihb h.2)
  | opt a ih => exact .map (.optional (ih h))
  | many a ih => exact .map (.zeroOrMore (ih h) _)
  | tailed k s a ihs iha =>
    simp [G.declared] at h
    exact .map (.zeroOrMoreTailedAppend (ihs h.1) (iha h.2) _ _)
  | tailed1Values s a ihs iha =>
    simp [G.declared] at h
    exact .map (.oneOrMoreTailed (ihs h.1) (iha h.2) _)
  | resume s a ihs iha =>
    simp [G.declared] at h
    exact .map (.resume (ihs h.1) (iha h.2) _)
  | implTailed k i s a ihs iha =>
    simp [G.declared] at h
    exact .map (.implTailed (ihs h.1) (iha h.2) _ _)
  | nested o c => exact .bind (.token h) fun _ => .map .parseNestedUntil
  | ext a ih => exact .map (.spanned (ih h))
  | drop a ih => exact .map (ih h)
  | map f a ih => exact .map (ih h)
  | build m a ih => exact .map (.spanned (ih h))
  | nodeEmpty k a ih => exact .map (.spannedEmpty (ih h))
  | mapErr e a ih =>
    simp [G.declared] at h
    exact .mapErr (ih h.2) h.1
  | peek a ih => exact .peek (ih h)
  | amb l a ih => exact .setAmbiguityLevel (ih h)
  | ifAmbiguous a b iha ihb =>
    simp [G.declared] at h
    intro am pt
    unfold evalG
    split
    · exact iha h.1 am pt
    · exact ihb h.2 am pt
  | notMaximum a ih =>
    simp [G.declared] at h
    intro am pt
    unfold evalG
    split
    · simp; exact h.2
    · exact ih h.1 am pt

theorem tableP_declared {α : Type} (hr : ∀ nt, AllErrs (·.declared) (rec nt)) {x : α × G} {l : List (α × G)}
    (hl : ∀ y ∈ x :: l, y.2.declared = true) : AllErrs (·.declared) (tableP toks rec (x, l)) := by
  obtain ⟨k, hk⟩ : ∃ k, k = l.length := ⟨_, rfl⟩
  induction k generalizing l with
  | zero =>
    have : l = [] := List.eq_nil_of_length_eq_zero hk.symm
    subst this
    exact .map (evalG_declared hr _ (hl x (by simp)))
  | succ k ih =>
    obtain ⟨l', y, rfl⟩ : ∃ l' y, l = l' ++ [y] :=
      ⟨l.dropLast, l.getLast (by intro h; simp [h] at hk), (List.dropLast_concat_getLast _).symm⟩
    rw [tableP_concat]
    exact .orElse (ih (fun z hz => hl z (by simp at hz ⊢; grind)) (by simpa using hk)) (.map (evalG_declared hr _ (hl y (by simp))))

theorem attributedP_declared {α : Type} (hr : ∀ nt, AllErrs (·.declared) (rec nt)) {p : P α} (hp : AllErrs (·.declared) p) :
    AllErrs (·.declared) (attributedP toks rec p) :=
  .spanned (.bind (.zeroOrMore (hr _) _) fun _ => .map hp)

theorem Step.ofYard_stop {st : EState} {r : SRes Yard} {s : SRes (Car V)} (h : Step.ofYard st r = .stop s) (hr : r.plain) : s.plain := by
  cases r with
  | ok y => cases h
  | err q e => cases h; intro q' e' h'; cases h'; exact hr _ _ rfl
  | panic => cases h; exact SRes.plain_panic

theorem addOperator_plain {y : Yard} {op : OpKind} {p q : Pt} : (y.addOperator toks op p q).plain :=
  SRes.plain_bind (applyWhile_plain _ _) fun _ => SRes.plain_ok

theorem shuntStep_declared {ps : ExprParsers} (h1 : AllErrs (·.declared) ps.prefixOrAtom) (h2 : AllErrs (·.declared) ps.infixOrPostfix)
    (h3 : AllErrs (·.declared) ps.limitedPostfix) (y : Yard) (st : EState) (a : Amb) (pt : Pt) :
    (shuntStep toks ps y st a pt).errs (·.declared) ∧
      ∀ q s, (shuntStep toks ps y st a pt).out = .ok q (.stop s) → s.plain := by
  have key : ∀ {α : Type} {p : P α} {F : Pt → α → Step} {fin : Pt → SRes (Car V)}, AllErrs (·.declared) p →
      (∀ q x s, F q x = .stop s → s.plain) → (∀ q, (fin q).plain) →
      (stepOf p F fin a pt).errs (·.declared) ∧ ∀ q s, (stepOf p F fin a pt).out = .ok q (.stop s) → s.plain := by
    intro α p F fin hp hF hf
    unfold stepOf
    have h := hp a pt
    generalize p a pt = r at *
    rcases r with ⟨⟨q, v⟩ | ⟨q, e⟩ | _ | _, a', l⟩ <;> simp at h ⊢
    · exact ⟨h, fun _ _ _ hs => hF _ _ _ hs⟩
    · exact ⟨h.1, hf q⟩
    all_goals exact h
  have ha : ∀ q x s, atomF toks y pt q x = .stop s → s.plain := by
    rintro q (⟨e, attrs, op, payload⟩ | v) s hs
    · exact Step.ofYard_stop hs addOperator_plain
    · cases hs
  have ho : ∀ q x s, opF toks y pt q x = .stop s → s.plain := by
    rintro q (⟨op, payload⟩ | ⟨op, payload⟩) s hs <;> exact Step.ofYard_stop hs addOperator_plain
  have hl : ∀ q x s, limF toks y pt q x = .stop s → s.plain := by
    rintro q ⟨op, payload⟩ s hs
    exact Step.ofYard_stop hs addOperator_plain
  have hat : AllErrs (·.declared) (atomP ps a st) := by
    rcases atomP_cases a st with h | h <;> rw [h]
    · exact .setAmbiguityLevel h1
    · exact h1
  cases st with
  | Prefix => rw [shuntStep_atom toks ps y a pt (.inl rfl)]; exact key hat ha fun _ => finish_plain
  | Infix w => rw [shuntStep_atom toks ps y a pt (.inr ⟨w, rfl⟩)]; exact key hat ha fun _ => finish_plain
  | Postfix => rw [shuntStep_op toks ps y a pt (.inl rfl)]; exact key h2 ho fun _ => finish_plain
  | Atom => rw [shuntStep_op toks ps y a pt (.inr rfl)]; exact key h2 ho fun _ => finish_plain
  | AtomLimitedPostfix => rw [shuntStep_lim toks ps y a pt]; exact key h3 hl fun _ => finish_plain

theorem shuntLoop_declared {ps : ExprParsers} (h1 : AllErrs (·.declared) ps.prefixOrAtom) (h2 : AllErrs (·.declared) ps.infixOrPostfix)
    (h3 : AllErrs (·.declared) ps.limitedPostfix) {adapt : Yard → EState → EState} :
    ∀ n y st, AllErrs (·.declared) (shuntLoop toks ps adapt n y st)
  | 0, _, _ => .hang
  | n + 1, y, st => by
    intro a pt
    unfold shuntLoop P.bind
    have h := shuntStep_declared (toks := toks) h1 h2 h3 y st a pt
    generalize shuntStep toks ps y st a pt = r at *
    rcases r with ⟨⟨q, v⟩ | ⟨q, e⟩ | _ | _, a', l⟩ <;> simp at h ⊢
    · cases v with
      | «continue» y' st' => exact Res.errs_after (shuntLoop_declared h1 h2 h3 n y' _ a' q) (fun x hx => h.1 _ _ hx)
      | stop s =>
        have hs := h.2 q s rfl rfl
        refine Res.errs_after (r := ⟨s.toOut, a', []⟩) ?_ (fun x hx => h.1 _ _ hx)
        cases s with
        | ok c => simp [SRes.toOut]
        | err q e => simp [SRes.toOut]; rw [hs _ _ rfl]; decide +kernel
        | panic => simp [SRes.toOut]
    all_goals exact h

/-- Every rule has declared errors only. -/
theorem rules_declared : ∀ nt, (match rules nt with | .g g => g.declared | .expr _ => true) = true := by
  intro nt; cases nt <;> decide +kernel

theorem prefixTable_declared : ∀ x ∈ prefixTable.1 :: prefixTable.2, x.2.declared = true := by decide +kernel
theorem infixTable_declared : ∀ x ∈ infixTable.1 :: infixTable.2, x.2.declared = true := by decide +kernel
theorem postfixTable_declared : ∀ x ∈ postfixTable.1 :: postfixTable.2, x.2.declared = true := by decide +kernel
theorem limitedTable_declared : ∀ x ∈ limitedTable.1 :: limitedTable.2, x.2.declared = true := by decide +kernel

attribute [local irreducible] tableP attributedP

theorem eval_declared : ∀ m nt, AllErrs (·.declared) (eval toks m nt)
  | 0, _ => .hang
  | m + 1, nt => by
    have h := rules_declared nt
    unfold eval
    generalize rules nt = r at h
    cases r with
    | g x => exact evalG_declared (eval_declared m) x h
    | expr stmt =>
      exact .map (shuntLoop_declared
        (.orElse (.map (attributedP_declared (eval_declared m) (tableP_declared (eval_declared m) prefixTable_declared)))
          (.map (attributedP_declared (eval_declared m) (eval_declared m _))))
        (.orElse (.map (tableP_declared (eval_declared m) infixTable_declared))
          (.map (tableP_declared (eval_declared m) postfixTable_declared)))
        (tableP_declared (eval_declared m) limitedTable_declared) _ _ _)

theorem parseItem_declared : AllErrs (·.declared) (parseItem toks) :=
  evalG_declared (eval_declared _) itemG (by decide +kernel)

theorem PFailures.add_declared {f : PFailures} {p : Pt} {e : PErr} (hf : ∀ x ∈ f.kinds, x.declared) (he : e.declared) :
    ∀ x ∈ (f.add p e).kinds, x.declared := by
  unfold PFailures.add
  split
  · exact hf
  · split <;> simp <;> grind

theorem PFailures.addAll_declared {l : Log} : ∀ {f : PFailures}, (∀ x ∈ f.kinds, x.declared) → (∀ x ∈ l, x.2.declared) →
    ∀ x ∈ (f.addAll l).kinds, x.declared := by
  induction l with
  | nil => intro f hf _; exact hf
  | cons y l ih =>
    intro f hf hl
    exact ih (PFailures.add_declared hf (hl y (by simp))) fun x hx => hl x (by simp [hx])

theorem parseItems_declared {clear : Bool} {loc : Nat} {errs : List PErr} (k : Nat) : ∀ f a pt items, (∀ x ∈ f.kinds, x.declared) →
    parseItems toks clear k f a pt items = .err loc errs → ∀ x ∈ errs, x.declared := by
  induction k with
  | zero => intro f a pt items _ h; cases h
  | succ k ih =>
    intro f a pt items hf h
    unfold parseItems at h
    split at h
    · cases h
    · split at h
      · cases h
      · have hr := parseItem_declared (toks := toks) a pt
        split at h
        · rename_i hp
          rw [hp] at hr
          split at h
          · refine ih _ _ _ _ ?_ h
            split
            · simp [PFailures.new]
            · exact PFailures.addAll_declared hf hr.1
          · cases h
        · rename_i hp
          rw [hp] at hr
          dsimp only at h
          split at h
          · cases h
            exact PFailures.add_declared (PFailures.addAll_declared hf hr.1) (hr.2 _ _ rfl)
          · cases h
        · cases h
        · cases h

theorem parseTokens_declared {clear : Bool} {loc : Nat} {errs : List PErr} (h : parseTokens toks clear = .err loc errs) :
    ∀ x ∈ errs, x.declared :=
  parseItems_declared _ _ _ _ _ (by simp [PFailures.new]) h

end

end Verif
