import Verif.Proofs.Run
/-!
# Where parsers fail

`G.total` and `G.early` are right: what is `total` never fails, and what is `early` only fails where it started.
-/

namespace Verif

/-- A parser that never fails. -/
def Never {α : Type} (p : P α) : Prop := ∀ a pt pt' e, (p a pt).out ≠ .fail pt' e

/-- A parser that fails only where it starts. -/
def Here {α : Type} (p : P α) : Prop := ∀ a pt pt' e, (p a pt).out = .fail pt' e → pt' = pt

namespace Never
variable {α β : Type}

theorem here {p : P α} (h : Never p) : Here p := fun a pt pt' e he => absurd he (h a pt pt' e)

theorem pure (v : α) : Never (P.pure v) := by intro a pt pt' e; simp [P.pure]

theorem map {p : P α} (f : α → β) (h : Never p) : Never (p.map f) := by
  intro a pt pt' e
  have := h a pt
  unfold P.map
  generalize p a pt = r at this ⊢
  obtain ⟨o, a', l⟩ := r
  cases o <;> simp_all

theorem bind {p : P α} {f : α → P β} (h : Never p) (hf : ∀ v, Never (f v)) : Never (p.bind f) := by
  intro a pt pt' e
  have := h a pt
  unfold P.bind
  generalize p a pt = r at this ⊢
  obtain ⟨o, a', l⟩ := r
  cases o <;> simp_all
  apply hf

theorem mapErr {p : P α} (e : PErr) (h : Never p) : Never (p.mapErr e) := by
  intro a pt pt' e
  have := h a pt
  unfold P.mapErr
  generalize p a pt = r at this ⊢
  obtain ⟨o, a', l⟩ := r
  cases o <;> simp_all

theorem orElse_left {p q : P α} (h : Never p) : Never (p.orElse q) := by
  intro a pt pt' e
  have := h a pt
  unfold P.orElse
  generalize p a pt = r at this ⊢
  obtain ⟨o, a', l⟩ := r
  cases o <;> simp_all

theorem orElse_right {p q : P α} (h : Never q) : Never (p.orElse q) := by
  intro a pt pt' e
  unfold P.orElse
  generalize p a pt = r
  obtain ⟨o, a', l⟩ := r
  cases o <;> simp_all
  exact h _ _ _ _

theorem optional (p : P α) : Never p.optional := by
  intro a pt pt' e
  unfold P.optional
  generalize p a pt = r
  obtain ⟨o, a', l⟩ := r
  cases o <;> simp

theorem zeroOrMore (p : P α) (n : Nat) : Never (P.zeroOrMore p n) := by
  induction n with
  | zero => intro a pt pt' e; simp [P.zeroOrMore]
  | succ n ih =>
    intro a pt pt' e
    unfold P.zeroOrMore
    generalize p a pt = r
    obtain ⟨o, a', l⟩ := r
    cases o with
    | ok q v =>
      dsimp only
      have := ih a' q
      generalize P.zeroOrMore p n a' q = r at this ⊢
      obtain ⟨o, a', l⟩ := r
      cases o <;> simp_all
    | _ => simp

theorem peek {p : P α} (h : Never p) : Never p.peek := by
  intro a pt pt' e
  have := h a pt
  unfold P.peek
  generalize p a pt = r at this ⊢
  obtain ⟨o, a', l⟩ := r
  cases o <;> simp_all

theorem setAmbiguityLevel {p : P α} (level : Amb) (h : Never p) : Never (P.setAmbiguityLevel level p) := by
  intro a pt pt' e
  have := h level pt
  unfold P.setAmbiguityLevel
  generalize p level pt = r at this ⊢
  obtain ⟨o, a', l⟩ := r
  exact this _ _

theorem spanned {p : P α} (toks : List Token) (h : Never p) : Never (P.spanned toks p) := by
  intro a pt pt' e
  have := h a pt
  unfold P.spanned
  generalize p a pt = r at this ⊢
  obtain ⟨o, a', l⟩ := r
  cases o with
  | ok q v => dsimp only; split <;> simp
  | _ => simp_all

theorem spannedEmpty {p : P α} (toks : List Token) (h : Never p) : Never (P.spannedEmpty toks p) := by
  intro a pt pt' e
  have := h a pt
  unfold P.spannedEmpty
  generalize p a pt = r at this ⊢
  obtain ⟨o, a', l⟩ := r
  cases o with
  | ok q v => dsimp only; split <;> simp
  | _ => simp_all

theorem parseTailed (sep : P β) (f : P α) : Never (P.parseTailed sep f) := by
  intro a pt pt' e
  unfold P.parseTailed
  generalize f a pt = r
  obtain ⟨o, a', l⟩ := r
  cases o with
  | ok q v =>
    dsimp only
    generalize sep a' q = r
    obtain ⟨o, a', l⟩ := r
    cases o <;> simp
  | _ => simp

theorem tailed (sep : P β) (f : P α) (n : Nat) : ∀ t, Never (P.zeroOrMoreTailedAppend sep f n t) := by
  induction n with
  | zero => intro t a pt pt' e; simp [P.zeroOrMoreTailedAppend]
  | succ n ih =>
    intro t
    unfold P.zeroOrMoreTailedAppend
    refine bind (parseTailed sep f) ?_
    intro v
    split
    · exact pure _
    · exact pure _
    · exact ih _

theorem implTailed (impl : α → Bool) (sep : P β) (f : P α) (n : Nat) :
    ∀ t, Never (P.zeroOrMoreImplicitlyTailed impl sep f n t) := by
  induction n with
  | zero => intro t a pt pt' e; simp [P.zeroOrMoreImplicitlyTailed]
  | succ n ih =>
    intro t
    unfold P.zeroOrMoreImplicitlyTailed
    refine bind (parseTailed sep f) ?_
    intro v
    split
    · exact pure _
    · split
      · exact ih _
      · exact pure _
    · exact ih _

theorem tailed1 (sep : P β) {f : P α} (h : Never f) (n : Nat) : Never (P.oneOrMoreTailed sep f n) := by
  intro a pt pt' e
  have := h a pt
  unfold P.oneOrMoreTailed P.bind P.parseTailed
  generalize f a pt = r at this ⊢
  obtain ⟨o, a', l⟩ := r
  cases o with
  | ok q v =>
    dsimp only
    generalize sep a' q = r
    obtain ⟨o, a', l⟩ := r
    cases o with
    | ok q v => exact tailed sep f n _ a' q pt' e
    | _ => simp [P.pure]
  | _ => simp_all

theorem resume (sep : P β) (f : P α) (n : Nat) : Never (P.zeroOrMoreTailedValuesResume sep f n) := by
  intro a pt pt' e
  unfold P.zeroOrMoreTailedValuesResume
  generalize sep a pt = r
  obtain ⟨o, a', l⟩ := r
  cases o with
  | ok q v =>
    dsimp only
    generalize P.oneOrMoreTailed sep f n a' q = r
    obtain ⟨o, a', l⟩ := r
    cases o <;> simp
  | _ => simp

theorem parseNestedUntil (toks : List Token) (opn cls : Token → Bool) : Never (parseNestedUntil toks opn cls) := by
  intro a pt pt' e
  unfold Verif.parseNestedUntil
  dsimp only
  split <;> simp

end Never

namespace Here
variable {α β : Type}

theorem map {p : P α} (f : α → β) (h : Here p) : Here (p.map f) := by
  intro a pt pt' e
  have := h a pt pt' e
  unfold P.map
  generalize p a pt = r at this ⊢
  obtain ⟨o, a', l⟩ := r
  cases o <;> simp_all

theorem bind {p : P α} {f : α → P β} (h : Here p) (hf : ∀ v, Never (f v)) : Here (p.bind f) := by
  intro a pt pt' e
  have := h a pt pt' e
  unfold P.bind
  generalize p a pt = r at this ⊢
  obtain ⟨o, a', l⟩ := r
  cases o with
  | ok q v => intro he; exact absurd he (hf v _ _ _ _)
  | _ => simp_all

theorem mapErr {p : P α} (e : PErr) (h : Here p) : Here (p.mapErr e) := by
  intro a pt pt' e'
  have h := h a pt pt'
  unfold P.mapErr
  generalize p a pt = r at h ⊢
  obtain ⟨o, a', l⟩ := r
  cases o with
  | fail q e'' => intro he; simp at he; exact h e'' (by simp [he.1])
  | _ => simp_all

theorem orElse {p q : P α} (h : Here q) : Here (p.orElse q) := by
  intro a pt pt' e
  unfold P.orElse
  generalize p a pt = r
  obtain ⟨o, a', l⟩ := r
  cases o with
  | fail => exact h _ _ _ _
  | _ => simp

theorem peek (p : P α) : Here p.peek := by
  intro a pt pt' e
  unfold P.peek
  generalize p a pt = r
  obtain ⟨o, a', l⟩ := r
  cases o <;> simp_all

theorem setAmbiguityLevel {p : P α} (level : Amb) (h : Here p) : Here (P.setAmbiguityLevel level p) := by
  intro a pt pt' e
  have := h level pt pt' e
  unfold P.setAmbiguityLevel
  generalize p level pt = r at this ⊢
  obtain ⟨o, a', l⟩ := r
  exact this

theorem spanned {p : P α} (toks : List Token) (h : Here p) : Here (P.spanned toks p) := by
  intro a pt pt' e
  have := h a pt pt' e
  unfold P.spanned
  generalize p a pt = r at this ⊢
  obtain ⟨o, a', l⟩ := r
  cases o with
  | ok q v => dsimp only; split <;> simp
  | _ => simp_all

theorem spannedEmpty {p : P α} (toks : List Token) (h : Here p) : Here (P.spannedEmpty toks p) := by
  intro a pt pt' e
  have := h a pt pt' e
  unfold P.spannedEmpty
  generalize p a pt = r at this ⊢
  obtain ⟨o, a', l⟩ := r
  cases o with
  | ok q v => dsimp only; split <;> simp
  | _ => simp_all

theorem tailed1 (sep : P β) {f : P α} (h : Here f) (n : Nat) : Here (P.oneOrMoreTailed sep f n) := by
  intro a pt pt' e
  have h := h a pt
  unfold P.oneOrMoreTailed P.bind P.parseTailed
  generalize f a pt = r at h ⊢
  obtain ⟨o, a', l⟩ := r
  cases o with
  | ok q v =>
    dsimp only
    generalize sep a' q = r
    obtain ⟨o, a', l⟩ := r
    cases o with
    | ok q v => intro he; exact absurd he (Never.tailed sep f n _ a' q pt' e)
    | _ => simp [P.pure]
  | fail q e' =>
    intro he
    simp [P.failure] at he
    exact h pt' e' (by simp [he.1])
  | _ => simp

theorem token (toks : List Token) (conv : Token → Option α) (err : PErr) : Here (token toks conv err) := by
  intro a pt pt' e
  unfold Verif.token
  repeat' split
  all_goals (try dsimp only)
  all_goals (repeat' split)
  all_goals (intro h; simp at h; try exact h.1.symm)

theorem fieldNameNumber (toks : List Token) : Here (fieldNameNumber toks) := by
  intro a pt pt' e
  have h := token toks convNumber .ExpectedNumber a pt
  unfold Verif.fieldNameNumber
  generalize Verif.token toks convNumber .ExpectedNumber a pt = r at h ⊢
  obtain ⟨o, a', l⟩ := r
  cases o with
  | ok q v => dsimp only; split <;> intro h <;> simp at h; exact h.1.symm
  | fail q e' => intro he; cases he; exact h _ _ rfl
  | _ => simp

end Here

/-- The tables are right for the given parsers. -/
structure RecEarly (rec : NT → P (List V)) : Prop where
  total : ∀ nt, nt.total = true → Never (rec nt)
  early : ∀ nt, nt.early = true → Here (rec nt)

section
variable {toks : List Token} {rec : NT → P (List V)}

theorem evalG_never (hr : RecEarly rec) (g : G) : g.total = true → Never (evalG toks rec g) := by
  induction g with
  | eps => intro _; exact .pure _
  | tok | number | simpleNumber | nested => intro h; simp [G.total] at h
  | r n => exact hr.total n
  | seq a b iha ihb =>
    intro h; simp [G.total] at h
    exact .bind (iha h.1) fun _ => .map _ (ihb h.2)
  | alt a b iha ihb =>
    intro h; simp [G.total] at h
    rcases h with h | h
    · exact .orElse_left (iha h)
    · exact .orElse_right (ihb h)
  | opt a => intro _; exact .map _ (.optional _)
  | many a => intro _; exact .map _ (.zeroOrMore _ _)
  | tailed => intro _; exact .map _ (.tailed _ _ _ _)
  | tailed1Values s a _ ih => intro h; exact .map _ (.tailed1 _ (ih h) _)
  | resume => intro _; exact .map _ (.resume _ _ _)
  | implTailed => intro _; exact .map _ (.implTailed _ _ _ _ _)
  | ext a ih => intro h; exact .map _ (.spanned _ (ih h))
  | drop a ih => intro h; exact .map _ (ih h)
  | map f a ih => intro h; exact .map _ (ih h)
  | build m a ih => intro h; exact .map _ (.spanned _ (ih h))
  | nodeEmpty m a ih => intro h; exact .map _ (.spannedEmpty _ (ih h))
  | mapErr e a ih => intro h; exact .mapErr _ (ih h)
  | peek a ih => intro h; exact .peek (ih h)
  | amb l a ih => intro h; exact .setAmbiguityLevel _ (ih h)
  | ifAmbiguous a b iha ihb =>
    intro h am pt
    simp [G.total] at h
    simp only [evalG]
    split
    · exact iha h.1 _ _
    · exact ihb h.2 _ _
  | notMaximum => intro h; simp [G.total] at h

theorem evalG_here (hr : RecEarly rec) (g : G) : g.early = true → Here (evalG toks rec g) := by
  induction g with
  | eps => intro _; exact (evalG_never hr _ rfl).here
  | opt | many | tailed | resume | implTailed => intro _; exact (evalG_never hr _ rfl).here
  | tok k => intro _; exact .map _ (.token _ _ _)
  | number => intro _; exact .map _ (.token _ _ _)
  | simpleNumber => intro _; exact .fieldNameNumber _
  | nested o c => intro _; exact .bind (.token _ _ _) fun _ => .map _ (.parseNestedUntil _ _ _)
  | r n => exact hr.early n
  | seq a b iha _ =>
    intro h; simp [G.early] at h
    exact .bind (iha h.1) fun _ => .map _ (evalG_never hr b h.2)
  | alt a b _ ihb => intro h; exact .orElse (ihb h)
  | tailed1Values s a _ ih => intro h; exact .map _ (.tailed1 _ (ih h) _)
  | ext a ih => intro h; exact .map _ (.spanned _ (ih h))
  | drop a ih => intro h; exact .map _ (ih h)
  | map f a ih => intro h; exact .map _ (ih h)
  | build m a ih => intro h; exact .map _ (.spanned _ (ih h))
  | nodeEmpty m a ih => intro h; exact .map _ (.spannedEmpty _ (ih h))
  | mapErr e a ih => intro h; exact .mapErr _ (ih h)
  | peek a => intro _; exact .peek _
  | amb l a ih => intro h; exact .setAmbiguityLevel _ (ih h)
  | ifAmbiguous a b iha ihb =>
    intro h am pt
    simp [G.early] at h
    simp only [evalG]
    split
    · exact iha h.1 _ _
    · exact ihb h.2 _ _
  | notMaximum a ih =>
    intro h am pt pt' e
    simp only [evalG]
    split
    · intro h; simp at h; exact h.1.symm
    · exact ih h _ _ _ _

end

/-- The tables agree with the rules. -/
theorem rules_early : ∀ nt, (match rules nt with
    | .g g => (!nt.total || g.total) && (!nt.early || g.early)
    | .expr _ => !nt.total && !nt.early) = true := by
  have h : NT.all.all (fun nt => match rules nt with
    | .g g => (!nt.total || g.total) && (!nt.early || g.early)
    | .expr _ => !nt.total && !nt.early) = true := by decide +kernel
  intro nt
  exact List.all_eq_true.mp h nt (NT.mem_all nt)

theorem eval_early (toks : List Token) (n : Nat) : RecEarly (eval toks n) := by
  induction n with
  | zero => constructor <;> intro nt _ a pt pt' e <;> simp [eval]
  | succ n ih =>
    constructor
    · intro nt h
      have := rules_early nt
      unfold eval evalRule
      split
      · rename_i g hg; rw [hg] at this; simp [h] at this; exact evalG_never ih g this.1
      · rename_i hg; rw [hg] at this; simp [h] at this
    · intro nt h
      have := rules_early nt
      unfold eval evalRule
      split
      · rename_i g hg; rw [hg] at this; simp [h] at this; exact evalG_here ih g this.2
      · rename_i hg; rw [hg] at this; simp [h] at this

end Verif
