import Verif.Spec.Shape
import Verif.ParseFile
/-!
# The parser does not look at places

Two runs of the parser, over tokens of the same kinds, go the same way.
-/

namespace Verif
open Verif.Spec

/-! ## Values of the same shape -/

def Like (v w : V) : Prop := shape v = shape w
def Likes (vs ws : List V) : Prop := shapes vs = shapes ws

theorem shapes_map (vs : List V) : shapes vs = vs.map shape := by
  induction vs with
  | nil => rfl
  | cons v vs ih => simp [shapes, ih]

@[simp] theorem shapes_append (vs ws : List V) : shapes (vs ++ ws) = shapes vs ++ shapes ws := by simp [shapes_map]
@[simp] theorem shapes_nil : shapes [] = [] := rfl
@[simp] theorem shapes_cons (v : V) (vs : List V) : shapes (v :: vs) = shape v :: shapes vs := rfl
@[simp] theorem shape_ext (e : Extent) : shape (.ext e) = .ext ⟨0, 0⟩ := rfl
@[simp] theorem shape_bool (b : Bool) : shape (.bool b) = .bool b := rfl
@[simp] theorem shape_list (vs : List V) : shape (.list vs) = .list (shapes vs) := rfl
@[simp] theorem shape_enm (t : Tag) (vs : List V) : shape (.enm t vs) = .enm t (shapes vs) := rfl
@[simp] theorem shape_node (k : K) (e : Extent) (ws : List Ws) (vs : List V) :
    shape (.node k e ws vs) = .node k ⟨0, 0⟩ [] (shapes vs) := rfl

/-! ## Results -/

/-- The same progress, with related values. -/
inductive Out.Sim {α β : Type} (R : α → β → Prop) : Out α → Out β → Prop
  | ok {p v w} : R v w → Out.Sim R (.ok p v) (.ok p w)
  | fail {p e} : Out.Sim R (.fail p e) (.fail p e)
  | panic : Out.Sim R .panic .panic
  | hang : Out.Sim R .hang .hang

structure Res.Sim {α β : Type} (R : α → β → Prop) (r : Res α) (s : Res β) : Prop where
  out : Out.Sim R r.out s.out
  amb : r.amb = s.amb
  log : r.log = s.log

/-- Parsers that go the same way. -/
def P.Sim {α β : Type} (R : α → β → Prop) (p : P α) (q : P β) : Prop := ∀ a pt, Res.Sim R (p a pt) (q a pt)

/-- The cases of related results. -/
theorem Res.Sim.elim {α β : Type} {R : α → β → Prop} {r : Res α} {s : Res β} (h : Res.Sim R r s) :
    (∃ p v w a l, R v w ∧ r = ⟨.ok p v, a, l⟩ ∧ s = ⟨.ok p w, a, l⟩) ∨
    (∃ p e a l, r = ⟨.fail p e, a, l⟩ ∧ s = ⟨.fail p e, a, l⟩) ∨
    (∃ a l, r = ⟨.panic, a, l⟩ ∧ s = ⟨.panic, a, l⟩) ∨ (∃ a l, r = ⟨.hang, a, l⟩ ∧ s = ⟨.hang, a, l⟩) := by
  obtain ⟨o, a, l⟩ := r
  obtain ⟨o', a', l'⟩ := s
  obtain ⟨h1, h2, h3⟩ := h
  simp only at h1 h2 h3
  subst h2 h3
  cases h1 with
  | ok h => exact .inl ⟨_, _, _, _, _, h, rfl, rfl⟩
  | fail => exact .inr (.inl ⟨_, _, _, _, rfl, rfl⟩)
  | panic => exact .inr (.inr (.inl ⟨_, _, rfl, rfl⟩))
  | hang => exact .inr (.inr (.inr ⟨_, _, rfl, rfl⟩))

theorem Res.Sim.ok {α β : Type} {R : α → β → Prop} {p v w a l} (h : R v w) : Res.Sim R ⟨.ok p v, a, l⟩ ⟨.ok p w, a, l⟩ :=
  ⟨.ok h, rfl, rfl⟩
theorem Res.Sim.fail {α β : Type} {R : α → β → Prop} {p e a l} : Res.Sim R ⟨.fail p e, a, l⟩ ⟨.fail p e, a, l⟩ :=
  ⟨.fail, rfl, rfl⟩
theorem Res.Sim.panic {α β : Type} {R : α → β → Prop} {a l} : Res.Sim R ⟨.panic, a, l⟩ ⟨.panic, a, l⟩ := ⟨.panic, rfl, rfl⟩
theorem Res.Sim.hang {α β : Type} {R : α → β → Prop} {a l} : Res.Sim R ⟨.hang, a, l⟩ ⟨.hang, a, l⟩ := ⟨.hang, rfl, rfl⟩

namespace P.Sim
variable {α β α' β' : Type} {R : α → β → Prop} {R' : α' → β' → Prop}

theorem pure {v : α} {w : β} (h : R v w) : P.Sim R (P.pure v) (P.pure w) := fun _ _ => .ok h

theorem failure {e} : P.Sim R (P.failure e) (P.failure e) := fun _ _ => .fail

theorem bind {p : P α} {q : P β} {f : α → P α'} {g : β → P β'} (h : P.Sim R p q)
    (h' : ∀ v w, R v w → P.Sim R' (f v) (g w)) : P.Sim R' (p.bind f) (q.bind g) := by
  intro a pt
  unfold P.bind
  rcases (h a pt).elim with ⟨p', v, w, a', l, hr, h1, h2⟩ | ⟨p', e, a', l, h1, h2⟩ | ⟨a', l, h1, h2⟩ | ⟨a', l, h1, h2⟩ <;> rw [h1, h2]
  · have h3 := h' v w hr a' p'
    exact ⟨h3.out, h3.amb, by simp [h3.log]⟩
  · exact .fail
  · exact .panic
  · exact .hang

theorem map {p : P α} {q : P β} {f : α → α'} {g : β → β'} (h : P.Sim R p q)
    (h' : ∀ v w, R v w → R' (f v) (g w)) : P.Sim R' (p.map f) (q.map g) := by
  intro a pt
  unfold P.map
  rcases (h a pt).elim with ⟨p', v, w, a', l, hr, h1, h2⟩ | ⟨p', e, a', l, h1, h2⟩ | ⟨a', l, h1, h2⟩ | ⟨a', l, h1, h2⟩ <;> rw [h1, h2]
  · exact .ok (h' v w hr)
  · exact .fail
  · exact .panic
  · exact .hang

theorem mapErr {p : P α} {q : P β} {e} (h : P.Sim R p q) : P.Sim R (p.mapErr e) (q.mapErr e) := by
  intro a pt
  unfold P.mapErr
  rcases (h a pt).elim with ⟨p', v, w, a', l, hr, h1, h2⟩ | ⟨p', e, a', l, h1, h2⟩ | ⟨a', l, h1, h2⟩ | ⟨a', l, h1, h2⟩ <;> rw [h1, h2]
  · exact .ok hr
  · exact .fail
  · exact .panic
  · exact .hang

theorem orElse {p p' : P α} {q q' : P β} (h : P.Sim R p q) (h' : P.Sim R p' q') : P.Sim R (p.orElse p') (q.orElse q') := by
  intro a pt
  unfold P.orElse
  rcases (h a pt).elim with ⟨p', v, w, a', l, hr, h1, h2⟩ | ⟨p', e, a', l, h1, h2⟩ | ⟨a', l, h1, h2⟩ | ⟨a', l, h1, h2⟩ <;> rw [h1, h2]
  · exact .ok hr
  · have h3 := h' a' pt
    exact ⟨h3.out, h3.amb, by simp [h3.log]⟩
  · exact .panic
  · exact .hang

/-- Both values are there and related, or both are missing. -/
inductive Opt (R : α → β → Prop) : Option α → Option β → Prop
  | some {v w} : R v w → Opt R (.some v) (.some w)
  | none : Opt R .none .none

/-- Lists of related elements. -/
inductive All (R : α → β → Prop) : List α → List β → Prop
  | nil : All R [] []
  | cons {v w vs ws} : R v w → All R vs ws → All R (v :: vs) (w :: ws)

theorem All.append {vs vs' : List α} {ws ws' : List β} (h : All R vs ws) (h' : All R vs' ws') : All R (vs ++ vs') (ws ++ ws') := by
  induction h with
  | nil => exact h'
  | cons h _ ih => exact .cons h ih

theorem All.length {vs : List α} {ws : List β} (h : All R vs ws) : vs.length = ws.length := by
  induction h with
  | nil => rfl
  | cons h _ ih => simp [ih]

theorem optional {p : P α} {q : P β} (h : P.Sim R p q) : P.Sim (Opt R) p.optional q.optional := by
  intro a pt
  unfold P.optional
  rcases (h a pt).elim with ⟨p', v, w, a', l, hr, h1, h2⟩ | ⟨p', e, a', l, h1, h2⟩ | ⟨a', l, h1, h2⟩ | ⟨a', l, h1, h2⟩ <;> rw [h1, h2]
  · exact .ok (.some hr)
  · exact .ok .none
  · exact .panic
  · exact .hang

theorem zeroOrMore {p : P α} {q : P β} (h : P.Sim R p q) (n : Nat) : P.Sim (All R) (p.zeroOrMore n) (q.zeroOrMore n) := by
  induction n with
  | zero => intro a pt; exact .hang
  | succ n ih =>
    intro a pt
    unfold P.zeroOrMore
    rcases (h a pt).elim with ⟨p', v, w, a', l, hr, h1, h2⟩ | ⟨p', e, a', l, h1, h2⟩ | ⟨a', l, h1, h2⟩ | ⟨a', l, h1, h2⟩ <;>
      simp only [h1, h2]
    · rcases (ih a' p').elim with ⟨p', v, w, a', l, hr', h1, h2⟩ | ⟨p', e, a', l, h1, h2⟩ | ⟨a', l, h1, h2⟩ | ⟨a', l, h1, h2⟩ <;>
        simp only [h1, h2]
      · exact .ok (.cons hr hr')
      · exact .fail
      · exact .panic
      · exact .hang
    · exact .ok .nil
    · exact .panic
    · exact .hang

theorem peek {p : P α} {q : P β} (h : P.Sim R p q) : P.Sim R p.peek q.peek := by
  intro a pt
  unfold P.peek
  rcases (h a pt).elim with ⟨p', v, w, a', l, hr, h1, h2⟩ | ⟨p', e, a', l, h1, h2⟩ | ⟨a', l, h1, h2⟩ | ⟨a', l, h1, h2⟩ <;> rw [h1, h2]
  · exact .ok hr
  · exact .fail
  · exact .panic
  · exact .hang

theorem setAmbiguityLevel {p : P α} {q : P β} {lv} (h : P.Sim R p q) :
    P.Sim R (p.setAmbiguityLevel lv) (q.setAmbiguityLevel lv) := by
  intro a pt
  have := h lv pt
  exact ⟨this.out, rfl, this.log⟩

/-! ## Lists with separators -/

inductive TS (R : α → β → Prop) : TailedState α → TailedState β → Prop
  | nothing {e} : TS R (.nothing e) (.nothing e)
  | valueOnly {v w} : R v w → TS R (.valueOnly v) (.valueOnly w)
  | valueAndSeparator {v w} : R v w → TS R (.valueAndSeparator v) (.valueAndSeparator w)

structure TL (R : α → β → Prop) (t : Tailed α) (u : Tailed β) : Prop where
  values : All R t.values u.values
  separatorCount : t.separatorCount = u.separatorCount
  lastHadSeparator : t.lastHadSeparator = u.lastHadSeparator

theorem parseTailed {s : P α'} {s' : P β'} {p : P α} {q : P β} (hs : P.Sim R' s s') (h : P.Sim R p q) :
    P.Sim (TS R) (P.parseTailed s p) (P.parseTailed s' q) := by
  intro a pt
  unfold P.parseTailed
  rcases (h a pt).elim with ⟨p', v, w, a', l, hr, h1, h2⟩ | ⟨p', e, a', l, h1, h2⟩ | ⟨a', l, h1, h2⟩ | ⟨a', l, h1, h2⟩ <;>
    simp only [h1, h2]
  · rcases (hs a' p').elim with ⟨p', v, w, a', l, hr', h1, h2⟩ | ⟨p', e, a', l, h1, h2⟩ | ⟨a', l, h1, h2⟩ | ⟨a', l, h1, h2⟩ <;>
      simp only [h1, h2]
    · exact .ok (.valueAndSeparator hr)
    · exact .ok (.valueOnly hr)
    · exact .panic
    · exact .hang
  · exact .ok .nothing
  · exact .panic
  · exact .hang

theorem zeroOrMoreTailedAppend {s : P α'} {s' : P β'} {p : P α} {q : P β} (hs : P.Sim R' s s') (h : P.Sim R p q) (n : Nat) :
    ∀ {t u}, TL R t u → P.Sim (TL R) (P.zeroOrMoreTailedAppend s p n t) (P.zeroOrMoreTailedAppend s' q n u) := by
  induction n with
  | zero => intro t u _ a pt; exact .hang
  | succ n ih =>
    intro t u ht
    unfold P.zeroOrMoreTailedAppend
    refine (parseTailed hs h).bind fun x y hxy => ?_
    cases hxy with
    | nothing => exact .pure ht
    | valueOnly hr => exact .pure ⟨ht.values.append (.cons hr .nil), ht.separatorCount, rfl⟩
    | valueAndSeparator hr =>
      exact ih ⟨ht.values.append (.cons hr .nil), by simp [ht.separatorCount], rfl⟩

theorem zeroOrMoreTailed {s : P α'} {s' : P β'} {p : P α} {q : P β} (hs : P.Sim R' s s') (h : P.Sim R p q) (n : Nat) :
    P.Sim (TL R) (P.zeroOrMoreTailed s p n) (P.zeroOrMoreTailed s' q n) :=
  zeroOrMoreTailedAppend hs h n ⟨.nil, rfl, rfl⟩

theorem oneOrMoreTailed {s : P α'} {s' : P β'} {p : P α} {q : P β} (hs : P.Sim R' s s') (h : P.Sim R p q) (n : Nat) :
    P.Sim (TL R) (P.oneOrMoreTailed s p n) (P.oneOrMoreTailed s' q n) := by
  unfold P.oneOrMoreTailed
  refine (parseTailed hs h).bind fun x y hxy => ?_
  cases hxy with
  | nothing => exact .failure
  | valueOnly hr => exact .pure ⟨.cons hr .nil, rfl, rfl⟩
  | valueAndSeparator hr => exact zeroOrMoreTailedAppend hs h n ⟨.cons hr .nil, rfl, rfl⟩

theorem zeroOrMoreTailedValuesResume {s : P α'} {s' : P β'} {p : P α} {q : P β} (hs : P.Sim R' s s') (h : P.Sim R p q) (n : Nat) :
    P.Sim (All R) (P.zeroOrMoreTailedValuesResume s p n) (P.zeroOrMoreTailedValuesResume s' q n) := by
  intro a pt
  unfold P.zeroOrMoreTailedValuesResume
  rcases (hs a pt).elim with ⟨p', v, w, a', l, hr, h1, h2⟩ | ⟨p', e, a', l, h1, h2⟩ | ⟨a', l, h1, h2⟩ | ⟨a', l, h1, h2⟩ <;>
    simp only [h1, h2]
  · rcases (oneOrMoreTailed hs h n a' p').elim with
        ⟨p', v, w, a', l, hr', h1, h2⟩ | ⟨p', e, a', l, h1, h2⟩ | ⟨a', l, h1, h2⟩ | ⟨a', l, h1, h2⟩ <;>
      simp only [h1, h2]
    · exact .ok hr'.values
    · exact .ok .nil
    · exact .panic
    · exact .hang
  · exact .ok .nil
  · exact .panic
  · exact .hang

theorem zeroOrMoreImplicitlyTailed {s : P α'} {s' : P β'} {p : P α} {q : P β} {i : α → Bool} {j : β → Bool}
    (hi : ∀ v w, R v w → i v = j w) (hs : P.Sim R' s s') (h : P.Sim R p q) (n : Nat) :
    ∀ {t u}, TL R t u → P.Sim (TL R) (P.zeroOrMoreImplicitlyTailed i s p n t) (P.zeroOrMoreImplicitlyTailed j s' q n u) := by
  induction n with
  | zero => intro t u _ a pt; exact .hang
  | succ n ih =>
    intro t u ht
    unfold P.zeroOrMoreImplicitlyTailed
    refine (parseTailed hs h).bind fun x y hxy => ?_
    cases hxy with
    | nothing => exact .pure ht
    | valueOnly hr =>
      simp only [hi _ _ hr]
      split
      · exact ih ⟨ht.values.append (.cons hr .nil), by simp [ht.separatorCount], rfl⟩
      · exact .pure ⟨ht.values.append (.cons hr .nil), ht.separatorCount, ht.lastHadSeparator⟩
    | valueAndSeparator hr =>
      exact ih ⟨ht.values.append (.cons hr .nil), by simp [ht.separatorCount], rfl⟩

end P.Sim

/-! ## Tokens -/

theorem _root_.Verif.Spec.SameKinds.get {ts ts' : List Token} (h : SameKinds ts ts') (i : Nat) : P.Sim.Opt SameKind ts[i]? ts'[i]? := by
  induction h generalizing i with
  | nil => simp; exact .none
  | cons h _ ih =>
    cases i with
    | zero => simp; exact .some h
    | succ i => simpa using ih i

theorem _root_.Verif.Spec.SameKinds.drop {ts ts' : List Token} (h : SameKinds ts ts') (i : Nat) : SameKinds (ts.drop i) (ts'.drop i) := by
  induction h generalizing i with
  | nil => simp; exact .nil
  | cons h h' ih =>
    cases i with
    | zero => exact .cons h h'
    | succ i => simpa using ih i

theorem _root_.Verif.Spec.SameKinds.length {ts ts' : List Token} (h : SameKinds ts ts') : ts.length = ts'.length := by
  induction h with
  | nil => rfl
  | cons h _ ih => simp [ih]

theorem _root_.Verif.Spec.SameKind.kind {t t' : Token} (h : SameKind t t') : t.kind? = t'.kind? := by
  cases t <;> cases t' <;> simp [SameKind] at h <;> simp [Token.kind?, h]

theorem _root_.Verif.Spec.SameKind.eof {t t' : Token} (h : SameKind t t') : t.isEOF = t'.isEOF := by
  cases t with
  | number n => cases t' <;> simp [SameKind] at h; rfl
  | plain k e => cases t' <;> simp [SameKind] at h; subst h; cases k <;> rfl

theorem _root_.Verif.Spec.SameKind.split {t t' : Token} (h : SameKind t t') (n : Nat) :
    P.Sim.Opt (fun x y => SameKind x.1 y.1 ∧ SameKind x.2 y.2) (split t n) (split t' n) := by
  cases t with
  | number m => cases t' <;> simp [SameKind] at h; exact .none
  | plain k e =>
    cases t' <;> simp [SameKind] at h
    subst h
    cases k <;> rcases n with _ | _ | n <;> first | exact .none | exact .some ⟨rfl, rfl⟩

variable {toks toks' : List Token}

theorem ex_sim (h : SameKinds toks toks') (p q : Pt) : P.Sim.Opt (fun _ _ => True) (ex toks p q) (ex toks' p q) := by
  unfold ex
  have h0 := h.get p.off
  generalize toks[p.off]? = x at h0
  generalize toks'[p.off]? = y at h0
  have h9 := h.get (q.off - 1)
  generalize toks[q.off - 1]? = x' at h9
  generalize toks'[q.off - 1]? = y' at h9
  cases h0 with
  | none => exact .none
  | some h1 =>
    dsimp only
    split
    · cases h9 with
      | none => exact .none
      | some h2 => exact .some trivial
    · split
      · split
        · exact .some trivial
        · split
          · exact .some trivial
          · exact .none
      · exact .none

theorem token_sim {α β : Type} {R : α → β → Prop} {f : Token → Option α} {g : Token → Option β} {err}
    (h : SameKinds toks toks') (hf : ∀ t t', SameKind t t' → P.Sim.Opt R (f t) (g t')) :
    P.Sim R (token toks f err) (token toks' g err) := by
  intro a pt
  have key : ∀ {t t' u u' : Token}, SameKind t t' → SameKind u u' → ∀ n, Res.Sim R
      (match f u with
      | some v => ⟨.ok (pt.advanceBy 1) v, a, []⟩
      | none =>
        match split t n with
        | some (h, _) =>
          match f h with
          | some v => ⟨.ok ⟨pt.off, some n⟩ v, a, []⟩
          | none => ⟨.fail pt err, a, []⟩
        | none => ⟨.fail pt err, a, []⟩)
      (match g u' with
      | some v => ⟨.ok (pt.advanceBy 1) v, a, []⟩
      | none =>
        match split t' n with
        | some (h, _) =>
          match g h with
          | some v => ⟨.ok ⟨pt.off, some n⟩ v, a, []⟩
          | none => ⟨.fail pt err, a, []⟩
        | none => ⟨.fail pt err, a, []⟩) := by
    intro t t' u u' ht hu n
    have h1 := hf u u' hu
    generalize f u = x at h1
    generalize g u' = y at h1
    cases h1 with
    | some h1 => exact .ok h1
    | none =>
      have h2 := ht.split n
      generalize split t n = x at h2
      generalize split t' n = y at h2
      cases h2 with
      | none => exact .fail
      | @some v w h2 =>
        obtain ⟨v1, v2⟩ := v
        obtain ⟨w1, w2⟩ := w
        dsimp only
        have h3 := hf v1 w1 h2.1
        generalize f v1 = x at h3
        generalize g w1 = y at h3
        cases h3 with
        | none => exact .fail
        | some h3 => exact .ok h3
  unfold token
  have h0 := h.get pt.off
  generalize toks[pt.off]? = x at h0
  generalize toks'[pt.off]? = y at h0
  cases h0 with
  | none => exact .fail
  | @some t t' ht =>
    obtain ⟨o, sub⟩ := pt
    cases sub with
    | none => exact key ht ht 0
    | some n =>
      dsimp only
      have h2 := ht.split n
      generalize h3 : split t n = x at h2
      generalize h4 : split t' n = y at h2
      cases h2 with
      | none => exact .panic
      | some h2 => exact key ht h2.2 (n + 1)

theorem convTK_sim (k : TK) (t t' : Token) (h : SameKind t t') : P.Sim.Opt (fun _ _ => True) (convTK k t) (convTK k t') := by
  cases t <;> cases t' <;> simp [SameKind] at h
  · subst h
    simp only [convTK]
    split
    · exact .some trivial
    · exact .none
  · exact .none

theorem tok_sim (h : SameKinds toks toks') (k : TK) (err : PErr) :
    P.Sim (fun _ _ => True) (token toks (convTK k) err) (token toks' (convTK k) err) :=
  token_sim h (convTK_sim k)

theorem convNumber_sim (t t' : Token) (h : SameKind t t') :
    P.Sim.Opt (fun n m => SameKind (.number n) (.number m)) (convNumber t) (convNumber t') := by
  cases t <;> cases t' <;> simp [SameKind] at h
  · exact .none
  · exact .some h

theorem number_sim (h : SameKinds toks toks') (err : PErr) : P.Sim (fun n m => SameKind (.number n) (.number m))
    (token toks convNumber err) (token toks' convNumber err) :=
  token_sim h convNumber_sim

theorem convertNumber_sim {n m : Number} (h : SameKind (.number n) (.number m)) : Like (convertNumber n) (convertNumber m) := by
  obtain ⟨h1, h2, h3, h4, h5⟩ := h
  have ho : ∀ {x y : Option Extent}, x.isSome = y.isSome → shape (optExt x) = shape (optExt y) := by
    intro x y h
    cases x <;> cases y <;> simp at h <;> rfl
  unfold Like convertNumber
  rw [h1]
  cases m.base <;> simp [ho h2, ho h3, ho h4]

theorem intoSimple_sim {n m : Number} (h : SameKind (.number n) (.number m)) :
    P.Sim.Opt (fun _ _ => True) n.intoSimple m.intoSimple := by
  obtain ⟨h1, h2, h3, h4, h5⟩ := h
  have ho : ∀ {x y : Option Extent}, x.isSome = y.isSome → x.isNone = y.isNone := by
    intro x y h
    cases x <;> cases y <;> simp at h <;> rfl
  have h6 : (n.underscores == 0) = (m.underscores == 0) := by
    rw [Bool.eq_iff_iff]; simpa using h5
  unfold Number.intoSimple
  rw [h1, ho h2, ho h3, ho h4, h6]
  split
  · split
    · exact .some trivial
    · exact .none
  · exact .none

theorem fieldNameNumber_sim (h : SameKinds toks toks') : P.Sim Likes (fieldNameNumber toks) (fieldNameNumber toks') := by
  intro a pt
  unfold fieldNameNumber
  rcases (number_sim h .ExpectedNumber a pt).elim with
    ⟨p', v, w, a', l, hr, h1, h2⟩ | ⟨p', e, a', l, h1, h2⟩ | ⟨a', l, h1, h2⟩ | ⟨a', l, h1, h2⟩ <;> simp only [h1, h2]
  · have h3 := intoSimple_sim hr
    generalize v.intoSimple = x at h3
    generalize w.intoSimple = y at h3
    cases h3 with
    | none => exact .fail
    | some => exact .ok rfl
  · exact .fail
  · exact .panic
  · exact .hang

theorem nestedLen_sim {o c : TK} {ts ts' : List Token} (h : SameKinds ts ts') (n : Nat) :
    nestedLen (isTK o) (isTK c) n ts = nestedLen (isTK o) (isTK c) n ts' := by
  induction h generalizing n with
  | nil => rfl
  | cons h _ ih => simp only [nestedLen, h.eof, isTK, h.kind, ← ih]

theorem spanned_sim {α β : Type} {R : α → β → Prop} {p : P α} {q : P β} (h : SameKinds toks toks') (hp : P.Sim R p q) :
    P.Sim (fun x y => R x.2 y.2) (P.spanned toks p) (P.spanned toks' q) := by
  intro a pt
  unfold P.spanned
  rcases (hp a pt).elim with ⟨p', v, w, a', l, hr, h1, h2⟩ | ⟨p', e, a', l, h1, h2⟩ | ⟨a', l, h1, h2⟩ | ⟨a', l, h1, h2⟩ <;>
    simp only [h1, h2]
  · have h3 := ex_sim h pt p'
    generalize ex toks pt p' = x at h3
    generalize ex toks' pt p' = y at h3
    cases h3 with
    | none => exact .panic
    | some => exact .ok hr
  · exact .fail
  · exact .panic
  · exact .hang

theorem spannedEmpty_sim {α β : Type} {R : α → β → Prop} {p : P α} {q : P β} (h : SameKinds toks toks') (hp : P.Sim R p q) :
    P.Sim (fun x y => R x.2 y.2) (P.spannedEmpty toks p) (P.spannedEmpty toks' q) := by
  intro a pt
  unfold P.spannedEmpty
  rcases (hp a pt).elim with ⟨p', v, w, a', l, hr, h1, h2⟩ | ⟨p', e, a', l, h1, h2⟩ | ⟨a', l, h1, h2⟩ | ⟨a', l, h1, h2⟩ <;>
    simp only [h1, h2]
  · have h3 := ex_sim h pt pt
    generalize ex toks pt pt = x at h3
    generalize ex toks' pt pt = y at h3
    cases h3 with
    | none => exact .panic
    | some => exact .ok hr
  · exact .fail
  · exact .panic
  · exact .hang

theorem parseNestedUntil_sim (h : SameKinds toks toks') (o c : TK) :
    P.Sim (fun _ _ => True) (parseNestedUntil toks (isTK o) (isTK c)) (parseNestedUntil toks' (isTK o) (isTK c)) := by
  intro a pt
  unfold parseNestedUntil
  dsimp only
  rw [nestedLen_sim (h.drop pt.off)]
  have h3 := ex_sim h pt (pt.advanceBy (nestedLen (isTK o) (isTK c) 0 (toks'.drop pt.off)))
  generalize ex toks pt _ = x at h3
  generalize ex toks' pt _ = y at h3
  cases h3 with
  | none => exact .panic
  | some => exact .ok trivial

/-! ## What is built -/

theorem all_flatten {vss wss : List (List V)} (h : P.Sim.All Likes vss wss) : Likes vss.flatten wss.flatten := by
  induction h with
  | nil => rfl
  | cons h _ ih => simp [Likes] at *; rw [h, ih]

theorem extent_shape : ∀ v : V, (shape v).extent? = v.extent?.map fun _ => ⟨0, 0⟩
  | .ext _ => rfl
  | .bool _ => rfl
  | .list _ => rfl
  | .enm _ [] => rfl
  | .enm _ (v :: _) => by simpa [V.extent?] using extent_shape v
  | .node .. => rfl

mutual
theorem shape_shape : ∀ v : V, shape (shape v) = shape v
  | .ext _ => rfl
  | .bool _ => rfl
  | .list vs => by simp [shapes_shapes vs]
  | .enm _ vs => by simp [shapes_shapes vs]
  | .node _ _ _ vs => by simp [shapes_shapes vs]
theorem shapes_shapes : ∀ vs : List V, shapes (shapes vs) = shapes vs
  | [] => rfl
  | v :: vs => by simp [shape_shape v, shapes_shapes vs]
end
attribute [simp] shape_shape shapes_shapes

theorem shapes_isEmpty (vs : List V) : (shapes vs).isEmpty = vs.isEmpty := by cases vs <;> rfl

theorem Fn.app_shape (f : Fn) (vs : List V) : shapes (f.app (shapes vs)) = shapes (f.app vs) := by
  cases f with
  | wrap t => simp [Fn.app]
  | wrapSecond t => rcases vs with _ | ⟨v, _ | ⟨w, _ | ⟨x, vs⟩⟩⟩ <;> simp [Fn.app]
  | flat =>
    rcases vs with _ | ⟨v, _ | ⟨w, vs⟩⟩ <;> try simp [Fn.app]
    cases v with
    | list ws =>
      rcases ws with _ | ⟨x, _ | ⟨y, ws⟩⟩ <;> try simp [Fn.app]
      cases x <;> simp [Fn.app]
    | _ => simp [Fn.app]
  | some => simp [Fn.app]
  | none => simp [Fn.app]
  | swap => rcases vs with _ | ⟨v, _ | ⟨w, _ | ⟨x, vs⟩⟩⟩ <;> simp [Fn.app]
  | isSome =>
    rcases vs with _ | ⟨v, _ | ⟨w, vs⟩⟩ <;> try simp [Fn.app]
    cases v <;> simp [Fn.app, shapes_isEmpty]
  | append =>
    rcases vs with _ | ⟨v, _ | ⟨w, _ | ⟨x, vs⟩⟩⟩ <;> try simp [Fn.app]
    cases v <;> cases w <;> simp [Fn.app]
  | externAbi =>
    rcases vs with _ | ⟨v, _ | ⟨w, vs⟩⟩ <;> try simp [Fn.app]
    cases v with
    | list ws => rcases ws with _ | ⟨x, _ | ⟨y, _ | ⟨z, ws⟩⟩⟩ <;> simp [Fn.app]
    | _ => simp [Fn.app]
  | ident | lifetime | character | string | byte | byteString =>
    rcases vs with _ | ⟨v, _ | ⟨w, vs⟩⟩ <;> try simp [Fn.app]
    all_goals cases v <;> simp [Fn.app, mkIdent]
  | copyExtent k =>
    rcases vs with _ | ⟨v, _ | ⟨w, vs⟩⟩ <;> try simp [Fn.app]
    rw [extent_shape]
    cases v.extent? <;> simp
  | into =>
    rcases vs with _ | ⟨v, _ | ⟨w, vs⟩⟩ <;> try simp [Fn.app]
    rw [extent_shape]
    cases v.extent? <;> simp [intoExpr, mkAttributed]
  | fieldValue =>
    rcases vs with _ | ⟨v, _ | ⟨w, _ | ⟨x, _ | ⟨y, vs⟩⟩⟩⟩ <;> try simp [Fn.app]
    · cases v with
      | ext e =>
        cases x with
        | list xs =>
          rcases xs with _ | ⟨x, _ | ⟨y, xs⟩⟩
          · cases w with
            | node k e ws vs => cases k <;> simp [Fn.app, intoExpr, mkAttributed, mkPathedIdent]
            | _ => simp [Fn.app]
          · simp [Fn.app]
          · simp [Fn.app]
        | _ => simp [Fn.app]
      | _ => simp [Fn.app]

theorem Fn.app_likes (f : Fn) {vs ws : List V} (h : Likes vs ws) : Likes (f.app vs) (f.app ws) := by
  unfold Likes at *
  rw [← Fn.app_shape, h, Fn.app_shape]

theorem Mk.app_shape (m : Mk) (e e' : Extent) (vs : List V) : shapes (m.app e' (shapes vs)) = shapes (m.app e vs) := by
  cases m with
  | node k => simp [Mk.app]
  | span => simp [Mk.app]
  | tupleBody => rcases vs with _ | ⟨v, _ | ⟨w, _ | ⟨x, vs⟩⟩⟩ <;> simp [Mk.app]
  | paren =>
    rcases vs with _ | ⟨v, _ | ⟨w, vs⟩⟩ <;> try simp [Mk.app]
    cases v with
    | enm t vs => cases t <;> simp [Mk.app]
    | _ => simp [Mk.app]

theorem Mk.app_likes (m : Mk) {e e' : Extent} {vs ws : List V} (h : Likes vs ws) : Likes (m.app e vs) (m.app e' ws) := by
  unfold Likes at *
  rw [← Mk.app_shape m e e, h, Mk.app_shape m e' e]

theorem mayTerminate_shape (v : V) : mayTerminate (shape v) = mayTerminate v := by
  cases v with
  | enm t vs =>
    simp only [shape_enm, mayTerminate]
    split <;> try rfl
    rcases vs with _ | ⟨v, _ | ⟨w, vs⟩⟩ <;> try (simp; done)
    cases v with
    | node k e ws vs =>
      by_cases hk : k = .MacroCall
      · subst hk
        rcases vs with _ | ⟨v, _ | ⟨w, _ | ⟨x, _ | ⟨y, vs⟩⟩⟩⟩ <;> try (simp; done)
        cases x with
        | enm t vs => by_cases ht : t = .MacroCallArgs_Curly <;> simp [ht]
        | _ => rfl
      · simp [hk]
    | _ => rfl
  | _ => rfl

theorem mayTerminateAttributed_shape (v : V) : mayTerminateAttributed (shape v) = mayTerminateAttributed v := by
  cases v with
  | node k e ws vs =>
    rcases vs with _ | ⟨v, _ | ⟨w, _ | ⟨x, vs⟩⟩⟩ <;> try (cases k <;> rfl)
    have := mayTerminate_shape w
    cases k <;> simp [mayTerminateAttributed, this]
  | _ => rfl

theorem mayTerminateAttributed_like {v w : V} (h : Like v w) : mayTerminateAttributed v = mayTerminateAttributed w := by
  rw [← mayTerminateAttributed_shape v, h, mayTerminateAttributed_shape]

theorem Impl.app_shape (i : Impl) (vs : List V) : i.app (shapes vs) = i.app vs := by
  cases i with
  | statement =>
    rcases vs with _ | ⟨v, _ | ⟨w, vs⟩⟩ <;> try rfl
    · cases v with
      | enm t vs =>
        rcases vs with _ | ⟨v, _ | ⟨w, vs⟩⟩ <;> try (cases t <;> rfl)
        have := mayTerminateAttributed_shape v
        cases t <;> simp [Impl.app, this]
      | _ => rfl
    · cases v with
      | enm t vs =>
        rcases vs with _ | ⟨v, _ | ⟨w, vs⟩⟩ <;> try (cases t <;> rfl)
      | _ => rfl
  | matchArm =>
    rcases vs with _ | ⟨v, _ | ⟨w, vs⟩⟩ <;> try (simp [Impl.app]; done)
    cases v with
    | node k e ws vs =>
      rcases vs with _ | ⟨v, _ | ⟨w, _ | ⟨x, _ | ⟨y, _ | ⟨z, vs⟩⟩⟩⟩⟩ <;> try (simp [Impl.app]; done)
      by_cases hk : k = .MatchArm
      · cases y with
        | enm t vs => by_cases ht : t = .MatchHand_Brace <;> simp [Impl.app, hk, ht]
        | _ => simp [Impl.app, hk]
      · simp [Impl.app, hk]
    | _ => rfl

theorem Impl.app_likes (i : Impl) {vs ws : List V} (h : Likes vs ws) : i.app vs = i.app ws := by
  unfold Likes at h
  rw [← Impl.app_shape, h, Impl.app_shape]

theorem intoExpression_shape (v : V) : intoExpression (shape v) = (intoExpression v).map shape := by
  cases v with
  | enm t vs => rcases vs with _ | ⟨v, _ | ⟨w, vs⟩⟩ <;> cases t <;> rfl
  | _ => rfl

theorem blockLast_shape (vs : List V) :
    (shapes vs).getLast?.bind intoExpression = (vs.getLast?.bind intoExpression).map shape := by
  rw [shapes_map, List.getLast?_map]
  cases vs.getLast? with
  | none => rfl
  | some v => simp [intoExpression_shape]

theorem TailK.out_likes (k : TailK) {t u : P.Tailed (List V)} (h : P.Sim.TL Likes t u) : Likes (k.out t) (k.out u) := by
  have h1 : shapes t.values.flatten = shapes u.values.flatten := all_flatten h.values
  cases k with
  | values => simp [TailK.out, Likes, h1]
  | paren =>
    simp only [TailK.out, h.values.length, h.separatorCount, Likes]
    split <;> simp [h1]
  | block =>
    have h2 := blockLast_shape t.values.flatten
    rw [h1, blockLast_shape] at h2
    simp only [TailK.out, h.lastHadSeparator, Likes]
    generalize t.values.flatten.getLast?.bind intoExpression = x at h2
    generalize u.values.flatten.getLast?.bind intoExpression = y at h2
    cases x <;> cases y <;> simp at h2
    · simp [h1]
    · dsimp only
      split
      · simp [h1]
      · have : shapes t.values.flatten.dropLast = shapes u.values.flatten.dropLast := by
          rw [shapes_map, List.map_dropLast, ← shapes_map, h1, shapes_map, ← List.map_dropLast, ← shapes_map]
        simp [this, h2]

/-! ## Grammar expressions -/

theorem evalG_sim (h : SameKinds toks toks') {rec rec' : NT → P (List V)} (hr : ∀ nt, P.Sim Likes (rec nt) (rec' nt)) :
    ∀ g, P.Sim Likes (evalG toks rec g) (evalG toks' rec' g)
  | .eps => .pure rfl
  | .tok k => (tok_sim h k _).map fun _ _ _ => rfl
  | .number => (number_sim h _).map fun _ _ hn => by have := convertNumber_sim hn; simp [Likes] at *; exact this
  | .simpleNumber => fieldNameNumber_sim h
  | .r n => hr n
  | .seq a b => (evalG_sim h hr a).bind fun _ _ h1 => (evalG_sim h hr b).map fun _ _ h2 => by
      simp only [Likes, shapes_append] at *; rw [h1, h2]
  | .alt a b => (evalG_sim h hr a).orElse (evalG_sim h hr b)
  | .opt a => (evalG_sim h hr a).optional.map fun _ _ h1 => by
      cases h1 with
      | none => rfl
      | some h1 => simpa [Likes] using h1
  | .many a => by
      have := ((evalG_sim h hr a).zeroOrMore (loopFuel toks)).map (R' := Likes) (f := fun vss => [.list vss.flatten])
        (g := fun vss => [.list vss.flatten]) fun _ _ h1 => by simpa [Likes] using all_flatten h1
      simpa only [evalG, loopFuel, ← h.length] using this
  | .tailed k sep a => by
      have := (P.Sim.zeroOrMoreTailed (evalG_sim h hr sep) (evalG_sim h hr a) (loopFuel toks)).map (R' := Likes)
        fun _ _ h1 => TailK.out_likes k h1
      simpa only [evalG, loopFuel, ← h.length] using this
  | .tailed1Values sep a => by
      have := (P.Sim.oneOrMoreTailed (evalG_sim h hr sep) (evalG_sim h hr a) (loopFuel toks)).map (R' := Likes)
        fun _ _ h1 => TailK.out_likes .values h1
      simpa only [evalG, loopFuel, ← h.length] using this
  | .resume sep a => by
      have := (P.Sim.zeroOrMoreTailedValuesResume (evalG_sim h hr sep) (evalG_sim h hr a) (loopFuel toks)).map (R' := Likes)
        (f := fun vss => [.list vss.flatten])
        (g := fun vss => [.list vss.flatten]) fun _ _ h1 => by simpa [Likes] using all_flatten h1
      simpa only [evalG, loopFuel, ← h.length] using this
  | .implTailed k i sep a => by
      have := (P.Sim.zeroOrMoreImplicitlyTailed (R := Likes) (fun _ _ h1 => Impl.app_likes i h1)
        (evalG_sim h hr sep) (evalG_sim h hr a) (loopFuel toks)
        (t := {}) (u := {}) ⟨.nil, rfl, rfl⟩).map (R' := Likes) fun _ _ h1 => TailK.out_likes k h1
      simpa only [evalG, loopFuel, ← h.length] using this
  | .nested o c => (tok_sim h o _).bind fun _ _ _ => (parseNestedUntil_sim h o c).map fun _ _ _ => rfl
  | .ext a => (spanned_sim h (evalG_sim h hr a)).map fun _ _ _ => rfl
  | .drop a => (evalG_sim h hr a).map fun _ _ _ => rfl
  | .map f a => (evalG_sim h hr a).map fun _ _ h1 => Fn.app_likes f h1
  | .build m a => (spanned_sim h (evalG_sim h hr a)).map fun _ _ h1 => Mk.app_likes m h1
  | .nodeEmpty k a => (spannedEmpty_sim h (evalG_sim h hr a)).map fun _ _ h1 => by simpa [Likes] using h1
  | .mapErr e a => (evalG_sim h hr a).mapErr
  | .peek a => (evalG_sim h hr a).peek
  | .amb level a => (evalG_sim h hr a).setAmbiguityLevel
  | .ifAmbiguous a b => fun am pt => by
      simp only [evalG]
      split
      · exact evalG_sim h hr a am pt
      · exact evalG_sim h hr b am pt
  | .notMaximum a => fun am pt => by
      simp only [evalG]
      split
      · exact .fail
      · exact evalG_sim h hr a am pt

/-! ## The shunting yard -/

inductive OpKind.Sim : OpKind → OpKind → Prop
  | pre {e e' as as' op vs vs'} : Likes as as' → Likes vs vs' → Sim (.pre e as op vs) (.pre e' as' op vs')
  | inf {op vs vs'} : Likes vs vs' → Sim (.inf op vs) (.inf op vs')
  | post {op vs vs'} : Likes vs vs' → Sim (.post op vs) (.post op vs')

structure Car.Sim {α β : Type} (R : α → β → Prop) (c : Car α) (d : Car β) : Prop where
  value : R c.value d.value
  spt : c.spt = d.spt
  ept : c.ept = d.ept

structure Yard.Sim (y z : Yard) : Prop where
  operators : P.Sim.All (Car.Sim OpKind.Sim) y.operators z.operators
  result : P.Sim.All (Car.Sim Like) y.result z.result

inductive SRes.Sim {α β : Type} (R : α → β → Prop) : SRes α → SRes β → Prop
  | ok {v w} : R v w → SRes.Sim R (.ok v) (.ok w)
  | err {p e} : SRes.Sim R (.err p e) (.err p e)
  | panic : SRes.Sim R .panic .panic

theorem SRes.Sim.bind {α β α' β' : Type} {R : α → β → Prop} {R' : α' → β' → Prop} {x : SRes α} {y : SRes β}
    {f : α → SRes α'} {g : β → SRes β'} (h : SRes.Sim R x y) (h' : ∀ v w, R v w → SRes.Sim R' (f v) (g w)) :
    SRes.Sim R' (x.bind f) (y.bind g) := by
  cases h with
  | ok h => exact h' _ _ h
  | err => exact .err
  | panic => exact .panic

theorem exS_sim (h : SameKinds toks toks') (p q : Pt) : SRes.Sim (fun _ _ => True) (exS toks p q) (exS toks' p q) := by
  have := ex_sim h p q
  unfold exS
  generalize ex toks p q = x at this
  generalize ex toks' p q = y at this
  cases this with
  | none => exact .panic
  | some => exact .ok trivial

theorem popExpression_sim {rs rs' : List (Car V)} (h : P.Sim.All (Car.Sim Like) rs rs') (l : Pt) :
    SRes.Sim (fun x y => Car.Sim Like x.1 y.1 ∧ P.Sim.All (Car.Sim Like) x.2 y.2) (popExpression rs l) (popExpression rs' l) := by
  cases h with
  | nil => exact .err
  | cons h h' => exact .ok ⟨h, h'⟩

theorem PrefixOp.mk_like (op : PrefixOp) {vs vs' : List V} {e e' : Extent} {o o' : Option V} (h : Likes vs vs')
    (ho : P.Sim.Opt Like o o') : Like (op.mk vs e o) (op.mk vs' e' o') := by
  unfold Likes at h
  unfold Like
  cases ho with
  | none => cases op <;> simp [PrefixOp.mk, h]
  | some ho => cases op <;> simp [PrefixOp.mk, h, show shape _ = shape _ from ho]

theorem InfixOp.mk_like (op : InfixOp) {vs vs' : List V} {e e' : Extent} {l l' : V} {o o' : Option V} (h : Likes vs vs')
    (hl : Like l l') (ho : P.Sim.Opt Like o o') : Like (op.mk vs e l o) (op.mk vs' e' l' o') := by
  unfold Likes at h
  unfold Like at *
  cases ho with
  | none => cases op <;> simp [InfixOp.mk, intoAttributed, mkAttributed, h, hl]
  | some ho => cases op <;> simp [InfixOp.mk, intoAttributed, mkAttributed, h, hl, show shape _ = shape _ from ho]

theorem PostfixOp.mk_like (op : PostfixOp) {vs vs' : List V} {e e' : Extent} {l l' : V} (h : Likes vs vs')
    (hl : Like l l') : Like (op.mk vs e l) (op.mk vs' e' l') := by
  unfold Likes at h
  unfold Like at *
  cases op <;> simp [PostfixOp.mk, intoAttributed, mkAttributed, h, hl]

theorem mkAttributed_like {e e' : Extent} {as as' : List V} {v v' : V} (h : Likes as as') (hv : Like v v') :
    Like (mkAttributed e as v) (mkAttributed e' as' v') := by
  unfold Likes at h
  unfold Like at *
  simp [mkAttributed, h, hv]

abbrev Stack := P.Sim.All (Car.Sim Like)

theorem applyPrefix_sim (h : SameKinds toks toks') {spt e e' as as' op vs vs' rs rs'} (ha : Likes as as') (hv : Likes vs vs')
    (hr : Stack rs rs') :
    SRes.Sim Stack (applyPrefix toks spt e as op vs rs) (applyPrefix toks' spt e' as' op vs' rs') := by
  unfold applyPrefix
  refine (popExpression_sim hr spt).bind fun ⟨c, rs⟩ ⟨c', rs'⟩ ⟨hc, hrs⟩ => ?_
  dsimp only at *
  rw [hc.ept]
  split
  · exact .err
  · refine (exS_sim h _ _).bind fun _ _ _ => ?_
    exact .ok (.cons ⟨mkAttributed_like ha (PrefixOp.mk_like op hv (.some hc.value)), rfl, rfl⟩ hrs)

theorem applyMaybePrefix_sim (h : SameKinds toks toks') {spt ept e e' as as' op vs vs' rs rs'} (ha : Likes as as')
    (hv : Likes vs vs') (hr : Stack rs rs') :
    SRes.Sim Stack (applyMaybePrefix toks spt ept e as op vs rs) (applyMaybePrefix toks' spt ept e' as' op vs' rs') := by
  unfold applyMaybePrefix
  cases hr with
  | nil =>
    refine (exS_sim h _ _).bind fun _ _ _ => ?_
    exact .ok (.cons ⟨mkAttributed_like ha (PrefixOp.mk_like op hv .none), rfl, rfl⟩ .nil)
  | cons h1 h2 => exact applyPrefix_sim h ha hv (.cons h1 h2)

theorem applyInfix_sim (h : SameKinds toks toks') {spt ept op vs vs' rs rs'} (hv : Likes vs vs')
    (hr : Stack rs rs') : SRes.Sim Stack (applyInfix toks spt ept op vs rs) (applyInfix toks' spt ept op vs' rs') := by
  unfold applyInfix
  refine (popExpression_sim hr _).bind fun ⟨c, rs⟩ ⟨c', rs'⟩ ⟨hc, hrs⟩ => ?_
  refine (popExpression_sim hrs _).bind fun ⟨d, rs⟩ ⟨d', rs'⟩ ⟨hd, hrs⟩ => ?_
  dsimp only at *
  rw [hc.ept, hd.spt]
  exact (exS_sim h _ _).bind fun _ _ _ =>
    .ok (.cons ⟨InfixOp.mk_like op hv hd.value (.some hc.value), rfl, rfl⟩ hrs)

theorem applyMaybeInfix_sim (h : SameKinds toks toks') {spt ept op vs vs' rs rs'} (hv : Likes vs vs')
    (hr : Stack rs rs') : SRes.Sim Stack (applyMaybeInfix toks spt ept op vs rs) (applyMaybeInfix toks' spt ept op vs' rs') := by
  unfold applyMaybeInfix
  rw [hr.length]
  split
  · refine (popExpression_sim hr _).bind fun ⟨c, rs⟩ ⟨c', rs'⟩ ⟨hc, hrs⟩ => ?_
    dsimp only at *
    rw [hc.spt]
    exact (exS_sim h _ _).bind fun _ _ _ =>
      .ok (.cons ⟨InfixOp.mk_like op hv hc.value .none, rfl, rfl⟩ hrs)
  · exact applyInfix_sim h hv hr

theorem applyPostfix_sim (h : SameKinds toks toks') {spt ept op vs vs' rs rs'} (hv : Likes vs vs')
    (hr : Stack rs rs') : SRes.Sim Stack (applyPostfix toks spt ept op vs rs) (applyPostfix toks' spt ept op vs' rs') := by
  unfold applyPostfix
  refine (popExpression_sim hr _).bind fun ⟨c, rs⟩ ⟨c', rs'⟩ ⟨hc, hrs⟩ => ?_
  dsimp only at *
  rw [hc.spt]
  exact (exS_sim h _ _).bind fun _ _ _ =>
    .ok (.cons ⟨PostfixOp.mk_like op hv hc.value, rfl, rfl⟩ hrs)

theorem applyOne_sim (h : SameKinds toks toks') {c d rs rs'} (hc : Car.Sim OpKind.Sim c d) (hr : Stack rs rs') :
    SRes.Sim Stack (applyOne toks c rs) (applyOne toks' d rs') := by
  obtain ⟨v, s, e⟩ := c
  obtain ⟨w, s', e'⟩ := d
  obtain ⟨hv, h1, h2⟩ := hc
  simp only at hv h1 h2
  subst h1 h2
  unfold applyOne
  cases hv with
  | pre ha hv =>
    dsimp only
    split
    · exact applyMaybePrefix_sim h ha hv hr
    · exact applyPrefix_sim h ha hv hr
  | inf hv =>
    dsimp only
    split
    · exact applyMaybeInfix_sim h hv hr
    · exact applyInfix_sim h hv hr
  | post hv => exact applyPostfix_sim h hv hr

theorem applyWhile_sim (h : SameKinds toks toks') {cond cond' : OpKind → Bool} (hcond : ∀ v w, OpKind.Sim v w → cond v = cond' w)
    {cs cs'} (hc : P.Sim.All (Car.Sim OpKind.Sim) cs cs') :
    ∀ {rs rs'}, Stack rs rs' → SRes.Sim Yard.Sim (applyWhile toks cond cs rs) (applyWhile toks' cond' cs' rs') := by
  induction hc with
  | nil => intro rs rs' hr; exact .ok ⟨.nil, hr⟩
  | cons hc hcs ih =>
    intro rs rs' hr
    unfold applyWhile
    rw [hcond _ _ hc.value]
    split
    · exact (applyOne_sim h hc hr).bind fun _ _ hr => ih hr
    · exact .ok ⟨.cons hc hcs, hr⟩

theorem OpKind.Sim.shouldPop {o o' t t' : OpKind} (ho : OpKind.Sim o o') (ht : OpKind.Sim t t') :
    o.shouldPop t = o'.shouldPop t' := by
  cases ho <;> cases ht <;> rfl

theorem addOperator_sim (h : SameKinds toks toks') {y z : Yard} (hy : y.Sim z) {o o' : OpKind} (ho : OpKind.Sim o o') (s e : Pt) :
    SRes.Sim Yard.Sim (y.addOperator toks o s e) (z.addOperator toks' o' s e) :=
  (applyWhile_sim h (fun _ _ ht => ho.shouldPop ht) hy.operators hy.result).bind fun _ _ hy =>
    .ok ⟨.cons ⟨ho, rfl, rfl⟩ hy.operators, hy.result⟩

theorem addExpression_sim {y z : Yard} (hy : y.Sim z) {v w : V} (hv : Like v w) (s e : Pt) :
    (y.addExpression v s e).Sim (z.addExpression w s e) :=
  ⟨hy.operators, .cons ⟨hv, rfl, rfl⟩ hy.result⟩

theorem finish_sim (h : SameKinds toks toks') {y z : Yard} (hy : y.Sim z) (p : Pt) :
    SRes.Sim (Car.Sim Like) (y.finish toks p) (z.finish toks' p) := by
  unfold Yard.finish
  refine (applyWhile_sim h (fun _ _ _ => rfl) hy.operators hy.result).bind fun y z hy => ?_
  have := hy.result
  generalize y.result = rs at this
  generalize z.result = rs' at this
  cases this with
  | nil => exact .err
  | cons h1 h2 =>
    simp only [popExpression]
    cases h2 with
    | nil => exact .ok h1
    | cons => exact .panic

theorem getLast_sim {rs rs' : List (Car V)} (h : Stack rs rs') : P.Sim.Opt (Car.Sim Like) rs.getLast? rs'.getLast? := by
  induction h with
  | nil => exact .none
  | cons h h' ih =>
    cases h' with
    | nil => exact .some h
    | cons => simpa [List.getLast?_cons_cons] using ih

theorem adaptStatement_sim {y z : Yard} (hy : y.Sim z) (st : EState) : adaptStatement y st = adaptStatement z st := by
  have h1 : y.operators.isEmpty = z.operators.isEmpty := by
    have := hy.operators
    generalize y.operators = rs at this
    generalize z.operators = rs' at this
    cases this <;> rfl
  have h2 := getLast_sim hy.result
  cases st with
  | Atom =>
    simp only [adaptStatement, h1]
    generalize y.result.getLast? = x at h2
    generalize z.result.getLast? = x' at h2
    cases h2 with
    | none => rfl
    | some h2 => simp only [mayTerminateAttributed_like h2.value]
  | _ => rfl

inductive PrefixOrAtom.Sim : PrefixOrAtom → PrefixOrAtom → Prop
  | prefix {e e' as as' op vs vs'} : Likes as as' → Likes vs vs' → Sim (.prefix e as op vs) (.prefix e' as' op vs')
  | atom {v w} : Like v w → Sim (.atom v) (.atom w)

inductive InfixOrPostfix.Sim : InfixOrPostfix → InfixOrPostfix → Prop
  | infix {op vs vs'} : Likes vs vs' → Sim (.infix op vs) (.infix op vs')
  | postfix {op vs vs'} : Likes vs vs' → Sim (.postfix op vs) (.postfix op vs')

/-- A labelled list of values. -/
def Labelled {α : Type} (x y : α × List V) : Prop := x.1 = y.1 ∧ Likes x.2 y.2

structure ExprParsers.Sim (p q : ExprParsers) : Prop where
  prefixOrAtom : P.Sim PrefixOrAtom.Sim p.prefixOrAtom q.prefixOrAtom
  infixOrPostfix : P.Sim InfixOrPostfix.Sim p.infixOrPostfix q.infixOrPostfix
  limitedPostfix : P.Sim Labelled p.limitedPostfix q.limitedPostfix

inductive Step.Sim : Step → Step → Prop
  | continue {y z st} : y.Sim z → Step.Sim (.continue y st) (.continue z st)
  | stop {r s} : SRes.Sim (Car.Sim Like) r s → Step.Sim (.stop r) (.stop s)

theorem ofYard_sim {st} {y z : SRes Yard} (h : SRes.Sim Yard.Sim y z) : Step.Sim (.ofYard st y) (.ofYard st z) := by
  cases h with
  | ok h => exact .continue h
  | err => exact .stop .err
  | panic => exact .stop .panic

theorem toOut_sim {r s : SRes (Car V)} (h : SRes.Sim (Car.Sim Like) r s) : Out.Sim Like r.toOut s.toOut := by
  cases h with
  | ok h => simp only [SRes.toOut, h.ept]; exact .ok h.value
  | err => exact .fail
  | panic => exact .panic

theorem shuntStep_sim (h : SameKinds toks toks') {ps ps' : ExprParsers} (hp : ps.Sim ps') {y z : Yard} (hy : y.Sim z) (st : EState) :
    P.Sim Step.Sim (shuntStep toks ps y st) (shuntStep toks' ps' z st) := by
  have key : ∀ (_ : Amb) (pt : Pt) {r s : Res PrefixOrAtom}, Res.Sim PrefixOrAtom.Sim r s → Res.Sim Step.Sim
      (match r with
        | ⟨.ok pt' (.prefix e attrs op payload), a', l⟩ =>
          ⟨.ok pt' (.ofYard .Prefix (y.addOperator toks (.pre e attrs op payload) pt pt')), a', l⟩
        | ⟨.ok pt' (.atom e), a', l⟩ => ⟨.ok pt' (.continue (y.addExpression e pt pt') .Atom), a', l⟩
        | ⟨.fail q _, a', l⟩ => ⟨.ok q (.stop (y.finish toks q)), a', l⟩
        | ⟨.panic, a', l⟩ => ⟨.panic, a', l⟩
        | ⟨.hang, a', l⟩ => ⟨.hang, a', l⟩ : Res Step)
      (match s with
        | ⟨.ok pt' (.prefix e attrs op payload), a', l⟩ =>
          ⟨.ok pt' (.ofYard .Prefix (z.addOperator toks' (.pre e attrs op payload) pt pt')), a', l⟩
        | ⟨.ok pt' (.atom e), a', l⟩ => ⟨.ok pt' (.continue (z.addExpression e pt pt') .Atom), a', l⟩
        | ⟨.fail q _, a', l⟩ => ⟨.ok q (.stop (z.finish toks' q)), a', l⟩
        | ⟨.panic, a', l⟩ => ⟨.panic, a', l⟩
        | ⟨.hang, a', l⟩ => ⟨.hang, a', l⟩ : Res Step) := by
    intro _ pt r s hrs
    rcases hrs.elim with ⟨p', v, w, a', l, hr, h1, h2⟩ | ⟨p', e, a', l, h1, h2⟩ | ⟨a', l, h1, h2⟩ | ⟨a', l, h1, h2⟩ <;>
      simp only [h1, h2]
    · cases hr with
      | «prefix» ha hv => exact .ok (ofYard_sim (addOperator_sim h hy (.pre ha hv) _ _))
      | atom hv => exact .ok (.continue (addExpression_sim hy hv _ _))
    · exact .ok (.stop (finish_sim h hy _))
    · exact .panic
    · exact .hang
  have key2 : ∀ a pt, Res.Sim Step.Sim (shuntStep toks ps y .Atom a pt) (shuntStep toks' ps' z .Atom a pt) := by
    intro a pt
    simp only [shuntStep]
    rcases (hp.infixOrPostfix a pt).elim with
        ⟨p', v, w, a', l, hr, h1, h2⟩ | ⟨p', e, a', l, h1, h2⟩ | ⟨a', l, h1, h2⟩ | ⟨a', l, h1, h2⟩ <;>
      simp only [h1, h2]
    · cases hr with
      | «infix» hv => exact .ok (ofYard_sim (addOperator_sim h hy (.inf hv) _ _))
      | «postfix» hv => exact .ok (ofYard_sim (addOperator_sim h hy (.post hv) _ _))
    · exact .ok (.stop (finish_sim h hy _))
    · exact .panic
    · exact .hang
  intro a pt
  cases st with
  | «Prefix» => exact key a pt (hp.prefixOrAtom a pt)
  | «Infix» w =>
    have : Res.Sim PrefixOrAtom.Sim
        (if a.isAmbiguous && w then P.maximallyAmbiguous ps.prefixOrAtom a pt else ps.prefixOrAtom a pt)
        (if a.isAmbiguous && w then P.maximallyAmbiguous ps'.prefixOrAtom a pt else ps'.prefixOrAtom a pt) := by
      split
      · exact P.Sim.setAmbiguityLevel hp.prefixOrAtom a pt
      · exact hp.prefixOrAtom a pt
    exact key a pt this
  | «Postfix» => exact key2 a pt
  | Atom => exact key2 a pt
  | AtomLimitedPostfix =>
    simp only [shuntStep]
    rcases (hp.limitedPostfix a pt).elim with
        ⟨p', v, w, a', l, hr, h1, h2⟩ | ⟨p', e, a', l, h1, h2⟩ | ⟨a', l, h1, h2⟩ | ⟨a', l, h1, h2⟩ <;>
      simp only [h1, h2]
    · obtain ⟨o, v⟩ := v
      obtain ⟨o', w⟩ := w
      obtain ⟨ho, hv⟩ := hr
      simp only at ho hv
      subst ho
      exact .ok (ofYard_sim (addOperator_sim h hy (.post hv) _ _))
    · exact .ok (.stop (finish_sim h hy _))
    · exact .panic
    · exact .hang

theorem shuntLoop_sim (h : SameKinds toks toks') {ps ps' : ExprParsers} (hp : ps.Sim ps') {adapt : Yard → EState → EState}
    (ha : ∀ {y z : Yard}, y.Sim z → ∀ st, adapt y st = adapt z st) (n : Nat) :
    ∀ {y z : Yard}, y.Sim z → ∀ st, P.Sim Like (shuntLoop toks ps adapt n y st) (shuntLoop toks' ps' adapt n z st) := by
  induction n with
  | zero => intro y z _ st a pt; exact .hang
  | succ n ih =>
    intro y z hy st
    unfold shuntLoop
    refine (shuntStep_sim h hp hy st).bind fun s s' hs => ?_
    cases hs with
    | «continue» hy => dsimp only; rw [ha hy]; exact ih hy _
    | stop hr => exact fun a pt => ⟨toOut_sim hr, rfl, rfl⟩

theorem tableP_sim (h : SameKinds toks toks') {rec rec' : NT → P (List V)} (hr : ∀ nt, P.Sim Likes (rec nt) (rec' nt))
    {α : Type} (t : (α × G) × List (α × G)) : P.Sim Labelled (tableP toks rec t) (tableP toks' rec' t) := by
  have one : ∀ x : α × G, P.Sim Labelled ((evalG toks rec x.2).map fun vs => (x.1, vs))
      ((evalG toks' rec' x.2).map fun vs => (x.1, vs)) := fun x => (evalG_sim h hr x.2).map fun _ _ hv => ⟨rfl, hv⟩
  obtain ⟨t, ts⟩ := t
  unfold tableP
  dsimp only
  have : ∀ (p q : P (α × List V)), P.Sim Labelled p q → P.Sim Labelled
      (ts.foldl (fun p x => p.orElse ((evalG toks rec x.2).map fun vs => (x.1, vs))) p)
      (ts.foldl (fun p x => p.orElse ((evalG toks' rec' x.2).map fun vs => (x.1, vs))) q) := by
    induction ts with
    | nil => exact fun p q h => h
    | cons t ts ih => exact fun p q h => ih _ _ (h.orElse (one t))
  exact this _ _ (one t)

theorem attributedP_sim (h : SameKinds toks toks') {rec rec' : NT → P (List V)} (hr : ∀ nt, P.Sim Likes (rec nt) (rec' nt))
    {α β : Type} {R : α → β → Prop} {p : P α} {q : P β} (hp : P.Sim R p q) :
    P.Sim (fun (x : Extent × List V × α) (y : Extent × List V × β) => Likes x.2.1 y.2.1 ∧ R x.2.2 y.2.2) (attributedP toks rec p) (attributedP toks' rec' q) := by
  unfold attributedP
  have h1 := (hr .attribute).zeroOrMore (loopFuel toks)
  have h2 : loopFuel toks = loopFuel toks' := by simp [loopFuel, h.length]
  rw [← h2]
  exact spanned_sim h (R := fun (x : List V × α) (y : List V × β) => Likes x.1 y.1 ∧ R x.2 y.2)
    (h1.bind fun _ _ ha => hp.map fun _ _ hv => ⟨all_flatten ha, hv⟩)

theorem exprParsers_sim (h : SameKinds toks toks') {rec rec' : NT → P (List V)} (hr : ∀ nt, P.Sim Likes (rec nt) (rec' nt)) :
    (exprParsers toks rec).Sim (exprParsers toks' rec') where
  prefixOrAtom := by
    simp only [exprParsers]
    refine P.Sim.orElse (P.Sim.map (attributedP_sim h hr (tableP_sim h hr prefixTable)) ?_)
      (P.Sim.map (attributedP_sim h hr (hr .expression_atom)) ?_)
    · refine fun ⟨e, as, op, vs⟩ ⟨e', as', op', vs'⟩ ⟨h1, h2, h3⟩ => ?_
      simp only at h1 h2 h3
      subst h2
      exact .prefix h1 h3
    · refine fun ⟨e, as, vs⟩ ⟨e', as', vs'⟩ ⟨h1, h2⟩ => ?_
      simp only at h1 h2
      refine .atom ?_
      unfold Likes at h1 h2
      simp [Like, h1, h2]
  infixOrPostfix := by
    simp only [exprParsers]
    refine P.Sim.orElse (P.Sim.map (tableP_sim h hr infixTable) ?_) (P.Sim.map (tableP_sim h hr postfixTable) ?_)
    · refine fun ⟨op, vs⟩ ⟨op', vs'⟩ ⟨h1, h2⟩ => ?_
      simp only at h1 h2
      subst h1
      exact .infix h2
    · refine fun ⟨op, vs⟩ ⟨op', vs'⟩ ⟨h1, h2⟩ => ?_
      simp only at h1 h2
      subst h1
      exact .postfix h2
  limitedPostfix := tableP_sim h hr limitedTable

theorem shuntingYard_sim (h : SameKinds toks toks') {ps ps' : ExprParsers} (hp : ps.Sim ps') (stmt : Bool) (n : Nat) :
    P.Sim Like (shuntingYard toks ps stmt n) (shuntingYard toks' ps' stmt n) := by
  unfold shuntingYard
  cases stmt with
  | true => exact shuntLoop_sim h hp adaptStatement_sim n ⟨.nil, .nil⟩ _
  | false => exact shuntLoop_sim h hp (fun _ _ => rfl) n ⟨.nil, .nil⟩ _

theorem evalRule_sim (h : SameKinds toks toks') {rec rec' : NT → P (List V)} (hr : ∀ nt, P.Sim Likes (rec nt) (rec' nt)) :
    ∀ r, P.Sim Likes (evalRule toks rec r) (evalRule toks' rec' r)
  | .g g => evalG_sim h hr g
  | .expr stmt => by
      have h2 : loopFuel toks = loopFuel toks' := by simp [loopFuel, h.length]
      unfold evalRule
      rw [← h2]
      exact (shuntingYard_sim h (exprParsers_sim h hr) stmt _).map fun _ _ hv => by
        unfold Like at hv
        simp [Likes, hv]

/-- Every parser function goes the same way on tokens of the same kinds. -/
theorem eval_sim (h : SameKinds toks toks') (n : Nat) (nt : NT) : P.Sim Likes (eval toks n nt) (eval toks' n nt) := by
  induction n generalizing nt with
  | zero => intro a pt; exact .hang
  | succ n ih => exact evalRule_sim h ih (rules nt)

end Verif
