import Verif.Lex
/-!
# Helper lemmas for the tokenizer: a weakest-precondition style calculus
-/

namespace Verif

/-- `q` is reached from `p` by consuming a prefix of the remaining text. -/
def Adv (p q : LPoint) : Prop := ∃ a, p.s = a ++ q.s ∧ q.offset = p.offset + blen a

theorem Adv.refl (p : LPoint) : Adv p p := ⟨[], by simp, by simp⟩

theorem Adv.trans {p q r : LPoint} (h1 : Adv p q) (h2 : Adv q r) : Adv p r := by
  obtain ⟨a, ha, ha'⟩ := h1
  obtain ⟨b, hb, hb'⟩ := h2
  exact ⟨a ++ b, by simp [ha, hb], by simp [hb', ha']; omega⟩

theorem Adv.le {p q : LPoint} (h : Adv p q) : p.offset ≤ q.offset := by
  obtain ⟨a, _, h⟩ := h; omega

def LogOk (pt : LPoint) (l : LLog) : Prop := ∀ r ∈ l, Adv pt r.1

theorem LogOk.nil (pt : LPoint) : LogOk pt [] := by intro r h; cases h

theorem LogOk.append {pt : LPoint} {l l' : LLog} (h : LogOk pt l) (h' : LogOk pt l') :
    LogOk pt (l ++ l') := by
  intro r hr
  rcases List.mem_append.mp hr with h1 | h1
  · exact h r h1
  · exact h' r h1

theorem LogOk.adv {pt pt' : LPoint} {l : LLog} (ha : Adv pt pt') (h : LogOk pt' l) : LogOk pt l :=
  fun r hr => ha.trans (h r hr)

theorem LogOk.single {pt pt' : LPoint} (e : LErr) (ha : Adv pt pt') : LogOk pt [(pt', e)] := by
  intro r hr
  simp at hr
  subst hr
  exact ha

/-- From `pt`, `p` neither panics nor hangs, only moves forward (also in the failures it reports or records), and
on success satisfies `Q`. -/
def SpecAt {α} (p : LP α) (pt : LPoint) (Q : LPoint → α → Prop) : Prop :=
  match p pt with
  | (.ok pt' v, l) => Adv pt pt' ∧ Q pt' v ∧ LogOk pt l
  | (.fail pt' _, l) => Adv pt pt' ∧ LogOk pt l
  | (.panic, _) => False
  | (.hang, _) => False

/-- Case analysis on an `LP` result under a spec. -/
theorem SpecAt.cases {α} {p : LP α} {pt : LPoint} {Q : LPoint → α → Prop} (h : SpecAt p pt Q) :
    (∃ pt' v l, p pt = (.ok pt' v, l) ∧ Adv pt pt' ∧ Q pt' v ∧ LogOk pt l) ∨
    (∃ pt' e l, p pt = (.fail pt' e, l) ∧ Adv pt pt' ∧ LogOk pt l) := by
  unfold SpecAt at h
  match hp : p pt with
  | (.ok pt' v, l) => rw [hp] at h; exact .inl ⟨pt', v, l, rfl, h⟩
  | (.fail pt' e, l) => rw [hp] at h; exact .inr ⟨pt', e, l, rfl, h⟩
  | (.panic, l) => rw [hp] at h; exact h.elim
  | (.hang, l) => rw [hp] at h; exact h.elim

theorem SpecAt.of_ok {α} {p : LP α} {pt : LPoint} {Q : LPoint → α → Prop} (h : SpecAt p pt Q)
    {pt' v l} (hp : p pt = (.ok pt' v, l)) : Adv pt pt' ∧ Q pt' v ∧ LogOk pt l := by
  unfold SpecAt at h; rw [hp] at h; exact h

theorem SpecAt.of_fail {α} {p : LP α} {pt : LPoint} {Q : LPoint → α → Prop} (h : SpecAt p pt Q)
    {pt' e l} (hp : p pt = (.fail pt' e, l)) : Adv pt pt' ∧ LogOk pt l := by
  unfold SpecAt at h; rw [hp] at h; exact h

theorem SpecAt.mk_ok {α} {p : LP α} {pt : LPoint} {Q : LPoint → α → Prop} {pt' v l}
    (hp : p pt = (.ok pt' v, l)) (h : Adv pt pt' ∧ Q pt' v ∧ LogOk pt l) : SpecAt p pt Q := by
  unfold SpecAt; rw [hp]; exact h

theorem SpecAt.mk_fail {α} {p : LP α} {pt : LPoint} {Q : LPoint → α → Prop} {pt' l} (e : LErr)
    (hp : p pt = (.fail pt' e, l)) (h : Adv pt pt' ∧ LogOk pt l) : SpecAt p pt Q := by
  unfold SpecAt; rw [hp]; exact h

theorem SpecAt.congr {α} {p q : LP α} {pt : LPoint} {Q : LPoint → α → Prop} (e : p pt = q pt)
    (h : SpecAt q pt Q) : SpecAt p pt Q := by
  unfold SpecAt at *; rw [e]; exact h

theorem SpecAt.mono {α} {p : LP α} {pt : LPoint} {Q R : LPoint → α → Prop} (h : SpecAt p pt Q)
    (hqr : ∀ pt' v, Adv pt pt' → Q pt' v → R pt' v) : SpecAt p pt R := by
  rcases h.cases with ⟨pt', v, l, hp, ha, hq, hl⟩ | ⟨pt', e, l, hp, ha, hl⟩
  · exact .mk_ok hp ⟨ha, hqr _ _ ha hq, hl⟩
  · exact .mk_fail e hp ⟨ha, hl⟩

theorem SpecAt.bindL {α β} {p : LP α} {f : α → LP β} {pt : LPoint} {Q : LPoint → α → Prop}
    {R : LPoint → β → Prop} (h : SpecAt p pt Q)
    (hf : ∀ mid v, Adv pt mid → Q mid v → SpecAt (f v) mid R) : SpecAt (LP.bind p f) pt R := by
  rcases h.cases with ⟨pt', v, l, hp, ha, hq, hl⟩ | ⟨pt', e, l, hp, ha, hl⟩
  · rcases (hf pt' v ha hq).cases with ⟨pt'', w, l', hp', ha', hr, hl'⟩ | ⟨pt'', e, l', hp', ha', hl'⟩
    · exact .mk_ok (by simp [LP.bind, hp, hp']) ⟨ha.trans ha', hr, hl.append (hl'.adv ha)⟩
    · exact .mk_fail e (by simp [LP.bind, hp, hp']) ⟨ha.trans ha', hl.append (hl'.adv ha)⟩
  · exact .mk_fail e (by simp [LP.bind, hp]) ⟨ha, hl⟩

theorem SpecAt.bind {α β} {p : LP α} {f : α → LP β} {pt : LPoint} {Q : LPoint → α → Prop}
    {R : LPoint → β → Prop} (h : SpecAt p pt Q)
    (hf : ∀ mid v, Adv pt mid → Q mid v → SpecAt (f v) mid R) : SpecAt (p >>= f) pt R :=
  SpecAt.bindL h hf

theorem SpecAt.pure {α} {v : α} {pt : LPoint} {R : LPoint → α → Prop} (h : R pt v) :
    SpecAt (LP.pure v) pt R := .mk_ok rfl ⟨.refl _, h, .nil _⟩

theorem SpecAt.point {pt : LPoint} : SpecAt LP.point pt (fun q v => pt = q ∧ pt = v) :=
  .mk_ok rfl ⟨.refl _, ⟨rfl, rfl⟩, .nil _⟩

theorem SpecAt.map {α β} {p : LP α} {f : α → β} {pt : LPoint} {R : LPoint → β → Prop}
    (h : SpecAt p pt fun q v => R q (f v)) : SpecAt (LP.map p f) pt R :=
  SpecAt.bindL h fun _ _ _ hq => .pure hq

theorem SpecAt.orElse {α} {p q : LP α} {pt : LPoint} {R : LPoint → α → Prop} (h : SpecAt p pt R)
    (h' : SpecAt q pt R) : SpecAt (LP.orElse p q) pt R := by
  rcases h.cases with ⟨pt', v, l, hp, ha, hq, hl⟩ | ⟨pt', e, l, hp, ha, hl⟩
  · exact .mk_ok (by simp [LP.orElse, hp]) ⟨ha, hq, hl⟩
  · by_cases he : e.recoverable = true
    · rcases h'.cases with ⟨pt'', w, l', hp', ha', hr, hl'⟩ | ⟨pt'', e', l', hp', ha', hl'⟩
      · exact .mk_ok (by simp [LP.orElse, hp, hp', he]; rfl)
          ⟨ha', hr, hl.append (hl'.append (.single _ ha))⟩
      · exact .mk_fail e' (by simp [LP.orElse, hp, hp', he]; rfl)
          ⟨ha', hl.append (hl'.append (.single _ ha))⟩
    · exact .mk_fail e (by simp [LP.orElse, hp, he]) ⟨ha, hl⟩

theorem SpecAt.alts {α} {p : LP α} {ps : List (LP α)} {pt : LPoint} {R : LPoint → α → Prop}
    (h : SpecAt p pt R) (h' : ∀ q ∈ ps, SpecAt q pt R) : SpecAt (LP.alts p ps) pt R := by
  induction ps generalizing p with
  | nil => exact h
  | cons q qs ih =>
    exact ih (h.orElse (h' q (by simp))) (fun r hr => h' r (by simp [hr]))

theorem SpecAt.optional {α} {p : LP α} {pt : LPoint} {R : LPoint → Option α → Prop}
    (h : SpecAt p pt fun q v => R q (some v)) (h' : R pt none) : SpecAt (LP.optional p) pt R := by
  rcases h.cases with ⟨pt', v, l, hp, ha, hq, hl⟩ | ⟨pt', e, l, hp, ha, hl⟩
  · exact .mk_ok (by simp [LP.optional, hp]) ⟨ha, hq, hl⟩
  · by_cases he : e.recoverable = true
    · exact .mk_ok (by simp [LP.optional, hp, he]; rfl)
        ⟨.refl _, h', hl.append (.single _ ha)⟩
    · exact .mk_fail e (by simp [LP.optional, hp, he]) ⟨ha, hl⟩

theorem SpecAt.not {α} {p : LP α} {e : LErr} {pt : LPoint} {Q : LPoint → α → Prop} (h : SpecAt p pt Q) :
    SpecAt (LP.not p e) pt (fun q _ => q = pt) := by
  rcases h.cases with ⟨pt', v, l, hp, ha, hq, hl⟩ | ⟨pt', e', l, hp, ha, hl⟩
  · exact .mk_fail e (by simp [LP.not, hp]) ⟨.refl _, hl⟩
  · exact .mk_ok (by simp [LP.not, hp]; rfl) ⟨.refl _, rfl, hl⟩

theorem SpecAt.peek {α} {p : LP α} {pt : LPoint} {Q : LPoint → α → Prop} (h : SpecAt p pt Q) :
    SpecAt (LP.peek p) pt (fun q _ => q = pt) := by
  rcases h.cases with ⟨pt', v, l, hp, ha, hq, hl⟩ | ⟨pt', e', l, hp, ha, hl⟩
  · exact .mk_ok (by simp [LP.peek, hp]; rfl) ⟨.refl _, rfl, hl⟩
  · exact .mk_fail e' (by simp [LP.peek, hp]) ⟨.refl _, hl⟩

/-- An ordered choice that succeeds does so through one alternative, all earlier ones having failed
recoverably. -/
theorem alts_ok {α} {p : LP α} {ps : List (LP α)} {pt pt' : LPoint} {v : α} {l : LLog}
    (h : LP.alts p ps pt = (.ok pt' v, l)) :
    ∃ before q after l', p :: ps = before ++ q :: after ∧ q pt = (.ok pt' v, l') ∧
      ∀ r ∈ before, ∃ pe e le, r pt = (.fail pe e, le) ∧ e.recoverable = true := by
  induction ps generalizing p with
  | nil => exact ⟨[], p, [], l, rfl, h, by simp⟩
  | cons q qs ih =>
    obtain ⟨before, r, after, l', heq, hr, hb⟩ := ih h
    cases before with
    | nil =>
      simp at heq
      obtain ⟨rfl, rfl⟩ := heq
      unfold LP.orElse at hr
      split at hr
      · rename_i pe e le hp
        split at hr
        · rename_i he
          match hq : q pt with
          | (r, l'') =>
            rw [hq] at hr
            simp at hr
            refine ⟨[p], q, qs, l'', rfl, ?_, ?_⟩
            · rw [hq, hr.1]
            · intro r hr; simp at hr; subst hr; exact ⟨_, _, _, hp, he⟩
        · simp at hr
      · exact ⟨[], p, q :: qs, l', rfl, hr, by simp⟩
    | cons b bs =>
      simp at heq
      obtain ⟨rfl, rfl⟩ := heq
      refine ⟨p :: q :: bs, r, after, l', rfl, hr, ?_⟩
      intro x hx
      have h0 := hb (LP.orElse p q) (by simp)
      obtain ⟨pe, e, le, h0, h1⟩ := h0
      unfold LP.orElse at h0
      split at h0
      · rename_i pe' e' le' hp
        split at h0
        · rename_i he
          simp at hx
          rcases hx with rfl | rfl | hx
          · exact ⟨_, _, _, hp, he⟩
          · match hq : x pt with
            | (r', l'') =>
              rw [hq] at h0
              simp at h0
              exact ⟨pe, e, l'', by rw [← h0.1], h1⟩
          · exact hb x (by simp [hx])
        · simp at h0
          obtain ⟨⟨rfl, rfl⟩, rfl⟩ := h0
          simp_all
      · rename_i hne
        exact (hne _ _ _ h0).elim

theorem alts_head_ok {α} {p : LP α} (ps : List (LP α)) {pt pt' : LPoint} {v : α} {l : LLog}
    (hp : p pt = (.ok pt' v, l)) : ∃ l', LP.alts p ps pt = (.ok pt' v, l') := by
  induction ps generalizing p l with
  | nil => exact ⟨l, hp⟩
  | cons q qs ih => exact ih (p := LP.orElse p q) (l := l) (by simp [LP.orElse, hp])

/-- If one alternative succeeds and all earlier ones fail recoverably, the choice succeeds with its value. -/
theorem alts_first_ok {α} {p : LP α} {ps before after : List (LP α)} {q : LP α} {pt pt' : LPoint} {v : α}
    {l : LLog} (heq : p :: ps = before ++ q :: after) (hq : q pt = (.ok pt' v, l))
    (hb : ∀ r ∈ before, ∃ pe e le, r pt = (.fail pe e, le) ∧ e.recoverable = true) :
    ∃ l', LP.alts p ps pt = (.ok pt' v, l') := by
  cases before with
  | nil =>
    simp at heq
    obtain ⟨rfl, rfl⟩ := heq
    exact alts_head_ok _ hq
  | cons b bs =>
    simp at heq
    obtain ⟨rfl, rfl⟩ := heq
    have hp := hb p (by simp)
    have hb' : ∀ r ∈ bs, ∃ pe e le, r pt = (.fail pe e, le) ∧ e.recoverable = true :=
      fun r hr => hb r (by simp [hr])
    clear hb
    induction bs generalizing p with
    | nil =>
      obtain ⟨pe, e, le, hp, he⟩ := hp
      exact alts_head_ok (p := LP.orElse p q) after (l := le ++ l ++ [(pe, e)])
        (by simp [LP.orElse, hp, he, hq])
    | cons c cs ih =>
      obtain ⟨pc, ec, lc, hc, hec⟩ := hb' c (by simp)
      obtain ⟨pe, e, le, hp, he⟩ := hp
      exact ih (p := LP.orElse p c)
        ⟨pc, ec, le ++ lc ++ [(pe, e)], by simp [LP.orElse, hp, he, hc], hec⟩
        (fun r hr => hb' r (by simp [hr]))

end Verif
