import Verif.Spec.Grammar
/-!
# Reasoning about parsers over tokens

`Run toks r a pt Q`: the result `r` of a parser started in mode `a` at `pt` leaves the mode as it was, recovered only from
failures at valid points not before `pt`, did not panic, and on success satisfies `Q`.
-/

namespace Verif

theorem split_lt {t : Token} {n : Nat} (h : (split t n).isSome) : n < 2 := by
  unfold split at h; split at h <;> simp_all

theorem ValidPt.subw_le {toks : List Token} {p : Pt} (h : ValidPt toks p) : p.subw ≤ 2 := by
  obtain ⟨t, -, h⟩ := h
  unfold Pt.subw
  split
  · omega
  · have := split_lt (h _ (by assumption)); omega

theorem ValidPt.off_lt {toks : List Token} {p : Pt} (h : ValidPt toks p) : p.off < toks.length := by
  obtain ⟨t, h, -⟩ := h
  exact (List.getElem?_eq_some_iff.mp h).1

theorem ValidPt.key_lt {toks : List Token} {p : Pt} (h : ValidPt toks p) : p.key < 4 * toks.length := by
  have := h.subw_le; have := h.off_lt; unfold Pt.key; omega

theorem ValidPt.key_inj {toks : List Token} {p q : Pt} (hp : ValidPt toks p) (hq : ValidPt toks q)
    (h : p.key = q.key) : p = q := by
  have h1 := hp.subw_le; have h2 := hq.subw_le
  obtain ⟨po, ps⟩ := p; obtain ⟨qo, qs⟩ := q
  simp only [Pt.key, Pt.subw] at *
  cases ps <;> cases qs <;> simp_all <;> omega

theorem ValidPt.lt_iff {toks : List Token} {p q : Pt} (hp : ValidPt toks p) (hq : ValidPt toks q) :
    p.lt q ↔ p.key < q.key := by
  have h1 := hp.subw_le; have h2 := hq.subw_le
  unfold Pt.lt Pt.key; omega

/-- Every failure recovered from is at a valid point not before `pt`. -/
def LogOK (toks : List Token) (pt : Pt) (l : Log) : Prop := ∀ x ∈ l, ValidPt toks x.1 ∧ pt.key ≤ x.1.key

theorem LogOK.nil {toks pt} : LogOK toks pt [] := by simp [LogOK]

theorem LogOK.append {toks pt l l'} (h : LogOK toks pt l) (h' : LogOK toks pt l') : LogOK toks pt (l ++ l') := by
  intro x hx
  rcases List.mem_append.mp hx with hx | hx
  · exact h x hx
  · exact h' x hx

theorem LogOK.mono {toks pt pt' l} (h : LogOK toks pt' l) (hk : pt.key ≤ pt'.key) : LogOK toks pt l :=
  fun x hx => ⟨(h x hx).1, Nat.le_trans hk (h x hx).2⟩

theorem LogOK.single {toks pt pt' e} (h : ValidPt toks pt') (hk : pt.key ≤ pt'.key) : LogOK toks pt [(pt', e)] := by
  intro x hx; simp at hx; subst hx; exact ⟨h, hk⟩

/-- What is known of an outcome. -/
def OutOK {α : Type} (toks : List Token) (pt : Pt) (Q : Pt → α → Prop) : Out α → Prop
  | .ok pt' v => ValidPt toks pt' ∧ pt.key ≤ pt'.key ∧ Q pt' v
  | .fail pt' _ => ValidPt toks pt' ∧ pt.key ≤ pt'.key
  | .panic => False
  | .hang => True

/-- See the head of the file. -/
def Run {α : Type} (toks : List Token) (r : Res α) (a : Amb) (pt : Pt) (Q : Pt → α → Prop) : Prop :=
  r.amb = a ∧ LogOK toks pt r.log ∧ OutOK toks pt Q r.out

namespace Run
variable {α β γ : Type} {toks : List Token} {a : Amb} {pt : Pt}

theorem mono {r : Res α} {Q Q' : Pt → α → Prop} (h : Run toks r a pt Q)
    (hQ : ∀ pt' v, ValidPt toks pt' → pt.key ≤ pt'.key → Q pt' v → Q' pt' v) : Run toks r a pt Q' := by
  obtain ⟨out, a', l⟩ := r
  obtain ⟨h1, h2, h3⟩ := h
  refine ⟨h1, h2, ?_⟩
  cases out <;> simp_all [OutOK]

theorem and {r : Res α} {Q Q' : Pt → α → Prop} (h : Run toks r a pt Q) (h' : Run toks r a pt Q') :
    Run toks r a pt (fun p v => Q p v ∧ Q' p v) := by
  obtain ⟨out, a', l⟩ := r
  obtain ⟨h1, h2, h3⟩ := h
  obtain ⟨h1', h2', h3'⟩ := h'
  refine ⟨h1, h2, ?_⟩
  cases out <;> simp_all [OutOK]

theorem pure {v : α} {Q : Pt → α → Prop} (hv : ValidPt toks pt) (h : Q pt v) :
    Run toks (P.pure v a pt) a pt Q := ⟨rfl, .nil, hv, Nat.le_refl _, h⟩

theorem failure {e : PErr} {Q : Pt → α → Prop} (hv : ValidPt toks pt) :
    Run toks (P.failure e a pt : Res α) a pt Q := ⟨rfl, .nil, hv, Nat.le_refl _⟩

/-- Sequencing, where everything is measured from a point `p0` not after `pt`. -/
theorem bind' {p : P α} {f : α → P β} {p0 : Pt} {Q : Pt → β → Prop}
    (h : Run toks (p a pt) a p0 (fun pt' v => Run toks (f v a pt') a p0 Q)) :
    Run toks (p.bind f a pt) a p0 Q := by
  unfold P.bind
  generalize p a pt = res at h ⊢
  obtain ⟨out, a', l⟩ := res
  obtain ⟨rfl, h2, h3⟩ := h
  cases out with
  | ok pt' v =>
    dsimp only at *
    obtain ⟨h3, h4, h5⟩ := h3
    rcases h : f v a' pt' with ⟨r, a'', l'⟩
    rw [h] at h5
    obtain ⟨h5, h6, h7⟩ := h5
    exact ⟨h5, h2.append h6, h7⟩
  | fail pt' e => exact ⟨rfl, h2, h3⟩
  | panic => exact ⟨rfl, h2, h3⟩
  | hang => exact ⟨rfl, h2, h3⟩

theorem weaken {r : Res α} {p0 : Pt} {Q : Pt → α → Prop} (h : Run toks r a pt Q) (hk : p0.key ≤ pt.key) :
    Run toks r a p0 Q := by
  obtain ⟨out, a', l⟩ := r
  obtain ⟨h1, h2, h3⟩ := h
  refine ⟨h1, h2.mono hk, ?_⟩
  cases out <;> simp_all [OutOK] <;> omega

theorem bind {p : P α} {f : α → P β} {Q : Pt → β → Prop}
    (h : Run toks (p a pt) a pt (fun pt' v => Run toks (f v a pt') a pt' Q)) :
    Run toks (p.bind f a pt) a pt Q :=
  bind' (h.mono fun _ _ _ hk h => h.weaken hk)

theorem map {p : P α} {f : α → β} {Q : Pt → β → Prop}
    (h : Run toks (p a pt) a pt (fun pt' v => Q pt' (f v))) : Run toks (p.map f a pt) a pt Q := by
  unfold P.map
  generalize p a pt = res at h ⊢
  obtain ⟨out, a', l⟩ := res
  cases out <;> exact h

theorem mapErr {p : P α} {e : PErr} {Q : Pt → α → Prop} (h : Run toks (p a pt) a pt Q) :
    Run toks (p.mapErr e a pt) a pt Q := by
  unfold P.mapErr
  generalize p a pt = res at h ⊢
  obtain ⟨out, a', l⟩ := res
  cases out <;> exact h

theorem orElse {p q : P α} {Q : Pt → α → Prop} (h : Run toks (p a pt) a pt Q) (h' : Run toks (q a pt) a pt Q) :
    Run toks (p.orElse q a pt) a pt Q := by
  unfold P.orElse
  generalize p a pt = res at h ⊢
  obtain ⟨out, a', l⟩ := res
  obtain ⟨rfl, h2, h3⟩ := h
  cases out with
  | fail pt' e =>
    dsimp only at *
    rcases h : q a' pt with ⟨r, a'', l'⟩
    rw [h] at h'
    obtain ⟨h5, h6, h7⟩ := h'
    exact ⟨h5, (h2.append h6).append (.single h3.1 h3.2), h7⟩
  | ok pt' v => exact ⟨rfl, h2, h3⟩
  | panic => exact ⟨rfl, h2, h3⟩
  | hang => exact ⟨rfl, h2, h3⟩

theorem optional {p : P α} {Q : Pt → Option α → Prop} (hv : ValidPt toks pt)
    (h : Run toks (p a pt) a pt (fun pt' v => Q pt' (some v))) (hn : Q pt none) :
    Run toks (p.optional a pt) a pt Q := by
  unfold P.optional
  generalize p a pt = res at h ⊢
  obtain ⟨out, a', l⟩ := res
  obtain ⟨rfl, h2, h3⟩ := h
  cases out with
  | fail pt' e => exact ⟨rfl, h2.append (.single h3.1 h3.2), hv, Nat.le_refl _, hn⟩
  | ok pt' v => exact ⟨rfl, h2, h3⟩
  | panic => exact ⟨rfl, h2, h3⟩
  | hang => exact ⟨rfl, h2, h3⟩

theorem zeroOrMore {p : P α} {Q1 : Pt → Pt → α → Prop} {Q : Pt → Pt → List α → Prop}
    (h : ∀ pt, ValidPt toks pt → Run toks (p a pt) a pt (Q1 pt))
    (hnil : ∀ pt, ValidPt toks pt → Q pt pt [])
    (hcons : ∀ pt pt' pt'' v vs, ValidPt toks pt → ValidPt toks pt' → ValidPt toks pt'' → pt.key ≤ pt'.key →
      pt'.key ≤ pt''.key → Q1 pt pt' v → Q pt' pt'' vs → Q pt pt'' (v :: vs)) (n : Nat) :
    ∀ pt, ValidPt toks pt → Run toks (P.zeroOrMore p n a pt) a pt (Q pt) := by
  induction n with
  | zero => intro pt hv; exact ⟨rfl, .nil, trivial⟩
  | succ n ih =>
    intro pt hv
    unfold P.zeroOrMore
    have hp := h pt hv
    generalize p a pt = res at hp ⊢
    obtain ⟨out, a', l⟩ := res
    obtain ⟨rfl, h2, h3⟩ := hp
    cases out with
    | fail pt' e => exact ⟨rfl, h2.append (.single h3.1 h3.2), hv, Nat.le_refl _, hnil pt hv⟩
    | panic => exact ⟨rfl, h2, h3⟩
    | hang => exact ⟨rfl, h2, h3⟩
    | ok pt' v =>
      dsimp only at *
      obtain ⟨h3, h4, h5⟩ := h3
      have hr := ih pt' h3
      generalize P.zeroOrMore p n a' pt' = res at hr ⊢
      obtain ⟨r, a'', l'⟩ := res
      obtain ⟨rfl, h6, h7⟩ := hr
      have hl := h2.append (h6.mono h4)
      cases r with
      | fail => exact ⟨rfl, hl, h7.1, Nat.le_trans h4 h7.2⟩
      | panic => exact h7.elim
      | hang => exact ⟨rfl, hl, trivial⟩
      | ok pt'' vs =>
        exact ⟨rfl, hl, h7.1, Nat.le_trans h4 h7.2.1, hcons _ _ _ _ _ hv h3 h7.1 h4 h7.2.1 h5 h7.2.2⟩

theorem peek {p : P α} {Q Q' : Pt → α → Prop} (hv : ValidPt toks pt) (h : Run toks (p a pt) a pt Q')
    (hQ : ∀ pt' v, Q' pt' v → Q pt v) :
    Run toks (p.peek a pt) a pt Q := by
  unfold P.peek
  generalize p a pt = res at h ⊢
  obtain ⟨out, a', l⟩ := res
  obtain ⟨rfl, h2, h3⟩ := h
  cases out with
  | fail pt' e => exact ⟨rfl, h2, hv, Nat.le_refl _⟩
  | ok pt' v => exact ⟨rfl, h2, hv, Nat.le_refl _, hQ _ _ h3.2.2⟩
  | panic => exact ⟨rfl, h2, h3⟩
  | hang => exact ⟨rfl, h2, h3⟩

theorem setAmbiguityLevel {p : P α} {level : Amb} {Q : Pt → α → Prop} (h : Run toks (p level pt) level pt Q) :
    Run toks (p.setAmbiguityLevel level a pt) a pt Q := by
  unfold P.setAmbiguityLevel
  generalize p level pt = res at h ⊢
  obtain ⟨out, a', l⟩ := res
  obtain ⟨-, h2, h3⟩ := h
  exact ⟨rfl, h2, h3⟩

/-- What the parser of one element and a separator leads to. -/
inductive Tail1 (toks : List Token) (F S : Pt → Pt → Prop) (pt : Pt) (Q1 : Pt → α → Prop) (Qs : Pt → Pt → Prop) : Pt → P.TailedState α → Prop
  | nothing (pt') (e) : F pt pt' → Tail1 toks F S pt Q1 Qs pt' (.nothing e)
  | valueOnly (pt' pt'') (v) : ValidPt toks pt' → pt.key ≤ pt'.key → pt'.key ≤ pt''.key → Q1 pt' v →
      S pt' pt'' → Tail1 toks F S pt Q1 Qs pt'' (.valueOnly v)
  | valueAndSeparator (pt' pt'') (v) : ValidPt toks pt' → pt.key ≤ pt'.key → pt'.key ≤ pt''.key → Q1 pt' v →
      Qs pt' pt'' → Tail1 toks F S pt Q1 Qs pt'' (.valueAndSeparator v)

theorem parseTailed {sep : P β} {f : P α} {Q1 : Pt → α → Prop} {Qs F S : Pt → Pt → Prop}
    (hF : ∀ a pt pt' e, (f a pt).out = .fail pt' e → F pt pt')
    (hS : ∀ a pt pt' e, (sep a pt).out = .fail pt' e → S pt pt')
    (h : Run toks (f a pt) a pt Q1)
    (hs : ∀ pt', ValidPt toks pt' → pt.key ≤ pt'.key → Run toks (sep a pt') a pt' (fun pt'' _ => Qs pt' pt'')) :
    Run toks (P.parseTailed sep f a pt) a pt (Tail1 toks F S pt Q1 Qs) := by
  unfold P.parseTailed
  have hF := hF a pt
  generalize f a pt = res at h hF ⊢
  obtain ⟨out, a', l⟩ := res
  obtain ⟨rfl, h2, h3⟩ := h
  cases out with
  | fail pt' e => exact ⟨rfl, h2, h3.1, h3.2, .nothing _ _ (hF _ _ rfl)⟩
  | panic => exact ⟨rfl, h2, h3⟩
  | hang => exact ⟨rfl, h2, h3⟩
  | ok pt' v =>
    dsimp only at *
    obtain ⟨h3, h4, h5⟩ := h3
    have hs := hs pt' h3 h4
    have hS := hS a' pt'
    generalize sep a' pt' = res at hs hS ⊢
    obtain ⟨r, a'', l'⟩ := res
    obtain ⟨rfl, h6, h7⟩ := hs
    have hl := h2.append (h6.mono h4)
    cases r with
    | fail pt'' e => exact ⟨rfl, hl, h7.1, Nat.le_trans h4 h7.2, .valueOnly pt' _ _ h3 h4 h7.2 h5 (hS _ _ rfl)⟩
    | panic => exact h7.elim
    | hang => exact ⟨rfl, hl, trivial⟩
    | ok pt'' w =>
      exact ⟨rfl, hl, h7.1, Nat.le_trans h4 h7.2.1, .valueAndSeparator pt' _ _ h3 h4 h7.2.1 h5 h7.2.2⟩

end Run

end Verif
