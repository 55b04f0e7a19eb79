import Verif.Proofs.Shape
import Verif.Spec.Place
/-!
# The parser takes the places from the tokens

Two runs of the parser, over tokens that are the same but for their places, give the same trees, but for the places, which
correspond in the same way.
-/

namespace Verif.Place
open Verif Verif.Spec

/-- A point inside of a token that can be cut there. -/
def VPt (toks : List Token) (pt : Pt) : Prop := ∀ n, pt.sub = some n → ∃ t, toks[pt.off]? = some t ∧ (split t n).isSome

theorem VPt.none {toks : List Token} {o : Nat} : VPt toks ⟨o, none⟩ := fun _ h => by cases h

theorem VPt.advance {toks : List Token} {p : Pt} {n : Nat} : VPt toks (p.advanceBy n) := VPt.none

variable {toks toks' : List Token}

/-! ## Results -/

/-- The same progress, with related values, to points that make sense. -/
inductive OutS (toks : List Token) {α β : Type} (R : α → β → Prop) : Out α → Out β → Prop
  | ok {p v w} : VPt toks p → R v w → OutS toks R (.ok p v) (.ok p w)
  | fail {p e} : VPt toks p → OutS toks R (.fail p e) (.fail p e)
  | panic : OutS toks R .panic .panic
  | hang : OutS toks R .hang .hang

structure ResS (toks : List Token) {α β : Type} (R : α → β → Prop) (r : Res α) (s : Res β) : Prop where
  out : OutS toks R r.out s.out
  amb : r.amb = s.amb
  log : r.log = s.log

/-- Parsers that go the same way. -/
def PS (toks : List Token) {α β : Type} (R : α → β → Prop) (p : P α) (q : P β) : Prop :=
  ∀ a pt, VPt toks pt → ResS toks R (p a pt) (q a pt)

/-- The cases of related results. -/
theorem ResS.elim {α β : Type} {R : α → β → Prop} {r : Res α} {s : Res β} (h : ResS toks R r s) :
    (∃ p v w a l, R v w ∧ VPt toks p ∧ r = ⟨.ok p v, a, l⟩ ∧ s = ⟨.ok p w, a, l⟩) ∨
    (∃ p e a l, VPt toks p ∧ r = ⟨.fail p e, a, l⟩ ∧ s = ⟨.fail p e, a, l⟩) ∨
    (∃ a l, r = ⟨.panic, a, l⟩ ∧ s = ⟨.panic, a, l⟩) ∨ (∃ a l, r = ⟨.hang, a, l⟩ ∧ s = ⟨.hang, a, l⟩) := by
  obtain ⟨o, a, l⟩ := r
  obtain ⟨o', a', l'⟩ := s
  obtain ⟨h1, h2, h3⟩ := h
  simp only at h1 h2 h3
  subst h2 h3
  cases h1 with
  | ok hp h => exact .inl ⟨_, _, _, _, _, h, hp, rfl, rfl⟩
  | fail hp => exact .inr (.inl ⟨_, _, _, _, hp, rfl, rfl⟩)
  | panic => exact .inr (.inr (.inl ⟨_, _, rfl, rfl⟩))
  | hang => exact .inr (.inr (.inr ⟨_, _, rfl, rfl⟩))

theorem ResS.ok {α β : Type} {R : α → β → Prop} {p v w a l} (h : R v w) (hp : VPt toks p := by assumption) :
    ResS toks R ⟨.ok p v, a, l⟩ ⟨.ok p w, a, l⟩ := ⟨.ok hp h, rfl, rfl⟩
theorem ResS.fail {α β : Type} {R : α → β → Prop} {p e a l} (hp : VPt toks p := by assumption) :
    ResS toks R ⟨.fail p e, a, l⟩ ⟨.fail p e, a, l⟩ := ⟨.fail hp, rfl, rfl⟩
theorem ResS.panic {α β : Type} {R : α → β → Prop} {a l} : ResS toks R ⟨.panic, a, l⟩ ⟨.panic, a, l⟩ := ⟨.panic, rfl, rfl⟩
theorem ResS.hang {α β : Type} {R : α → β → Prop} {a l} : ResS toks R ⟨.hang, a, l⟩ ⟨.hang, a, l⟩ := ⟨.hang, rfl, rfl⟩

namespace PS
variable {α β α' β' : Type} {R : α → β → Prop} {R' : α' → β' → Prop}

theorem pure {v : α} {w : β} (h : R v w) : PS toks R (P.pure v) (P.pure w) := fun _ _ hV => .ok h

theorem failure {e} : PS toks R (P.failure e) (P.failure e) := fun _ _ hV => .fail

theorem bind {p : P α} {q : P β} {f : α → P α'} {g : β → P β'} (h : PS toks R p q)
    (h' : ∀ v w, R v w → PS toks R' (f v) (g w)) : PS toks R' (p.bind f) (q.bind g) := by
  intro a pt hV
  unfold P.bind
  rcases (h a pt hV).elim with ⟨p', v, w, a', l, hr, hV', h1, h2⟩ | ⟨p', e, a', l, hV', h1, h2⟩ | ⟨a', l, h1, h2⟩ | ⟨a', l, h1, h2⟩ <;> rw [h1, h2]
  · have h3 := h' v w hr a' p' hV'
    exact ⟨h3.out, h3.amb, by simp [h3.log]⟩
  · exact .fail
  · exact .panic
  · exact .hang

theorem map {p : P α} {q : P β} {f : α → α'} {g : β → β'} (h : PS toks R p q)
    (h' : ∀ v w, R v w → R' (f v) (g w)) : PS toks R' (p.map f) (q.map g) := by
  intro a pt hV
  unfold P.map
  rcases (h a pt hV).elim with ⟨p', v, w, a', l, hr, hV', h1, h2⟩ | ⟨p', e, a', l, hV', h1, h2⟩ | ⟨a', l, h1, h2⟩ | ⟨a', l, h1, h2⟩ <;> rw [h1, h2]
  · exact .ok (h' v w hr)
  · exact .fail
  · exact .panic
  · exact .hang

theorem mapErr {p : P α} {q : P β} {e} (h : PS toks R p q) : PS toks R (p.mapErr e) (q.mapErr e) := by
  intro a pt hV
  unfold P.mapErr
  rcases (h a pt hV).elim with ⟨p', v, w, a', l, hr, hV', h1, h2⟩ | ⟨p', e, a', l, hV', h1, h2⟩ | ⟨a', l, h1, h2⟩ | ⟨a', l, h1, h2⟩ <;> rw [h1, h2]
  · exact .ok hr
  · exact .fail
  · exact .panic
  · exact .hang

theorem orElse {p p' : P α} {q q' : P β} (h : PS toks R p q) (h' : PS toks R p' q') : PS toks R (p.orElse p') (q.orElse q') := by
  intro a pt hV
  unfold P.orElse
  rcases (h a pt hV).elim with ⟨p', v, w, a', l, hr, hV', h1, h2⟩ | ⟨p', e, a', l, hV', h1, h2⟩ | ⟨a', l, h1, h2⟩ | ⟨a', l, h1, h2⟩ <;> rw [h1, h2]
  · exact .ok hr
  · have h3 := h' a' pt hV
    exact ⟨h3.out, h3.amb, by simp [h3.log]⟩
  · exact .panic
  · exact .hang

theorem optional {p : P α} {q : P β} (h : PS toks R p q) : PS toks (P.Sim.Opt R) p.optional q.optional := by
  intro a pt hV
  unfold P.optional
  rcases (h a pt hV).elim with ⟨p', v, w, a', l, hr, hV', h1, h2⟩ | ⟨p', e, a', l, hV', h1, h2⟩ | ⟨a', l, h1, h2⟩ | ⟨a', l, h1, h2⟩ <;> rw [h1, h2]
  · exact .ok (.some hr)
  · exact .ok .none
  · exact .panic
  · exact .hang

theorem zeroOrMore {p : P α} {q : P β} (h : PS toks R p q) (n : Nat) : PS toks (P.Sim.All R) (p.zeroOrMore n) (q.zeroOrMore n) := by
  induction n with
  | zero => intro a pt hV; exact .hang
  | succ n ih =>
    intro a pt hV
    unfold P.zeroOrMore
    rcases (h a pt hV).elim with ⟨p', v, w, a', l, hr, hV', h1, h2⟩ | ⟨p', e, a', l, hV', h1, h2⟩ | ⟨a', l, h1, h2⟩ | ⟨a', l, h1, h2⟩ <;>
      simp only [h1, h2]
    · rcases (ih a' p' hV').elim with ⟨p', v, w, a', l, hr', hV', h1, h2⟩ | ⟨p', e, a', l, hV', h1, h2⟩ | ⟨a', l, h1, h2⟩ | ⟨a', l, h1, h2⟩ <;>
        simp only [h1, h2]
      · exact .ok (.cons hr hr')
      · exact .fail
      · exact .panic
      · exact .hang
    · exact .ok .nil
    · exact .panic
    · exact .hang

theorem peek {p : P α} {q : P β} (h : PS toks R p q) : PS toks R p.peek q.peek := by
  intro a pt hV
  unfold P.peek
  rcases (h a pt hV).elim with ⟨p', v, w, a', l, hr, hV', h1, h2⟩ | ⟨p', e, a', l, hV', h1, h2⟩ | ⟨a', l, h1, h2⟩ | ⟨a', l, h1, h2⟩ <;> rw [h1, h2]
  · exact .ok hr
  · exact .fail
  · exact .panic
  · exact .hang

theorem setAmbiguityLevel {p : P α} {q : P β} {lv} (h : PS toks R p q) :
    PS toks R (p.setAmbiguityLevel lv) (q.setAmbiguityLevel lv) := by
  intro a pt hV
  have := h lv pt hV
  exact ⟨this.out, rfl, this.log⟩

/-! ## Lists with separators -/

theorem parseTailed {s : P α'} {s' : P β'} {p : P α} {q : P β} (hs : PS toks R' s s') (h : PS toks R p q) :
    PS toks (P.Sim.TS R) (P.parseTailed s p) (P.parseTailed s' q) := by
  intro a pt hV
  unfold P.parseTailed
  rcases (h a pt hV).elim with ⟨p', v, w, a', l, hr, hV', h1, h2⟩ | ⟨p', e, a', l, hV', h1, h2⟩ | ⟨a', l, h1, h2⟩ | ⟨a', l, h1, h2⟩ <;>
    simp only [h1, h2]
  · rcases (hs a' p' hV').elim with ⟨p', v, w, a', l, hr', hV', h1, h2⟩ | ⟨p', e, a', l, hV', h1, h2⟩ | ⟨a', l, h1, h2⟩ | ⟨a', l, h1, h2⟩ <;>
      simp only [h1, h2]
    · exact .ok (.valueAndSeparator hr)
    · exact .ok (.valueOnly hr)
    · exact .panic
    · exact .hang
  · exact .ok .nothing
  · exact .panic
  · exact .hang

theorem zeroOrMoreTailedAppend {s : P α'} {s' : P β'} {p : P α} {q : P β} (hs : PS toks R' s s') (h : PS toks R p q) (n : Nat) :
    ∀ {t u}, P.Sim.TL R t u → PS toks (P.Sim.TL R) (P.zeroOrMoreTailedAppend s p n t) (P.zeroOrMoreTailedAppend s' q n u) := by
  induction n with
  | zero => intro t u _ a pt _; exact .hang
  | succ n ih =>
    intro t u ht
    unfold P.zeroOrMoreTailedAppend
    refine (parseTailed hs h).bind fun x y hxy => ?_
    cases hxy with
    | nothing => exact .pure ht
    | valueOnly hr => exact .pure ⟨ht.values.append (.cons hr .nil), ht.separatorCount, rfl⟩
    | valueAndSeparator hr =>
      exact ih ⟨ht.values.append (.cons hr .nil), by simp [ht.separatorCount], rfl⟩

theorem zeroOrMoreTailed {s : P α'} {s' : P β'} {p : P α} {q : P β} (hs : PS toks R' s s') (h : PS toks R p q) (n : Nat) :
    PS toks (P.Sim.TL R) (P.zeroOrMoreTailed s p n) (P.zeroOrMoreTailed s' q n) :=
  zeroOrMoreTailedAppend hs h n ⟨.nil, rfl, rfl⟩

theorem oneOrMoreTailed {s : P α'} {s' : P β'} {p : P α} {q : P β} (hs : PS toks R' s s') (h : PS toks R p q) (n : Nat) :
    PS toks (P.Sim.TL R) (P.oneOrMoreTailed s p n) (P.oneOrMoreTailed s' q n) := by
  unfold P.oneOrMoreTailed
  refine (parseTailed hs h).bind fun x y hxy => ?_
  cases hxy with
  | nothing => exact .failure
  | valueOnly hr => exact .pure ⟨.cons hr .nil, rfl, rfl⟩
  | valueAndSeparator hr => exact zeroOrMoreTailedAppend hs h n ⟨.cons hr .nil, rfl, rfl⟩

theorem zeroOrMoreTailedValuesResume {s : P α'} {s' : P β'} {p : P α} {q : P β} (hs : PS toks R' s s') (h : PS toks R p q) (n : Nat) :
    PS toks (P.Sim.All R) (P.zeroOrMoreTailedValuesResume s p n) (P.zeroOrMoreTailedValuesResume s' q n) := by
  intro a pt hV
  unfold P.zeroOrMoreTailedValuesResume
  rcases (hs a pt hV).elim with ⟨p', v, w, a', l, hr, hV', h1, h2⟩ | ⟨p', e, a', l, hV', h1, h2⟩ | ⟨a', l, h1, h2⟩ | ⟨a', l, h1, h2⟩ <;>
    simp only [h1, h2]
  · rcases (oneOrMoreTailed hs h n a' p' hV').elim with
        ⟨p', v, w, a', l, hr', hV', h1, h2⟩ | ⟨p', e, a', l, hV', h1, h2⟩ | ⟨a', l, h1, h2⟩ | ⟨a', l, h1, h2⟩ <;>
      simp only [h1, h2]
    · exact .ok hr'.values
    · exact .ok .nil
    · exact .panic
    · exact .hang
  · exact .ok .nil
  · exact .panic
  · exact .hang

theorem zeroOrMoreImplicitlyTailed {s : P α'} {s' : P β'} {p : P α} {q : P β} {i : α → Bool} {j : β → Bool}
    (hi : ∀ v w, R v w → i v = j w) (hs : PS toks R' s s') (h : PS toks R p q) (n : Nat) :
    ∀ {t u}, P.Sim.TL R t u → PS toks (P.Sim.TL R) (P.zeroOrMoreImplicitlyTailed i s p n t) (P.zeroOrMoreImplicitlyTailed j s' q n u) := by
  induction n with
  | zero => intro t u _ a pt _; exact .hang
  | succ n ih =>
    intro t u ht
    unfold P.zeroOrMoreImplicitlyTailed
    refine (parseTailed hs h).bind fun x y hxy => ?_
    cases hxy with
    | nothing => exact .pure ht
    | valueOnly hr =>
      simp only [hi _ _ hr]
      split
      · exact ih ⟨ht.values.append (.cons hr .nil), by simp [ht.separatorCount], rfl⟩
      · exact .pure ⟨ht.values.append (.cons hr .nil), ht.separatorCount, ht.lastHadSeparator⟩
    | valueAndSeparator hr =>
      exact ih ⟨ht.values.append (.cons hr .nil), by simp [ht.separatorCount], rfl⟩

end PS

variable {φ : Nat → Nat}

def Like (φ : Nat → Nat) (v w : V) : Prop := w = placed φ v
def Likes (φ : Nat → Nat) (vs ws : List V) : Prop := ws = placeds φ vs
/-- Tokens, token lists, extents. -/
def MT (φ : Nat → Nat) (t t' : Token) : Prop := t' = t.placed φ

/-- Where a token can be cut, its characters are put one after another; and so are as many places behind the token before it. -/
structure Fit (φ : Nat → Nat) (ts : List Token) : Prop where
  cut : ∀ (i : Nat) (t : Token) (n : Nat), ts[i]? = some t → (split t n).isSome → ∀ k ≤ n + 1, φ (t.extent.s + k) = φ t.extent.s + k
  prev : ∀ (i : Nat) (u t : Token) (n : Nat), ts[i]? = some u → ts[i + 1]? = some t → (split t n).isSome → ∀ k ≤ n + 1,
    φ (u.extent.e + k) = φ u.extent.e + k

structure MTs (φ : Nat → Nat) (ts ts' : List Token) : Prop where
  eq : ts' = ts.map (·.placed φ)
  fit : Fit φ ts

def ME (φ : Nat → Nat) (e e' : Extent) : Prop := e' = e.placed φ

theorem placeds_map (φ : Nat → Nat) (vs : List V) : placeds φ vs = vs.map (placed φ) := by
  induction vs with
  | nil => rfl
  | cons v vs ih => simp [placeds, ih]

@[simp] theorem placeds_append (vs ws : List V) : placeds φ (vs ++ ws) = placeds φ vs ++ placeds φ ws := by simp [placeds_map]
@[simp] theorem placeds_nil : placeds φ [] = [] := rfl
@[simp] theorem placeds_cons (v : V) (vs : List V) : placeds φ (v :: vs) = placed φ v :: placeds φ vs := rfl
@[simp] theorem placed_ext (e : Extent) : placed φ (.ext e) = .ext (e.placed φ) := rfl
@[simp] theorem placed_bool (b : Bool) : placed φ (.bool b) = .bool b := rfl
@[simp] theorem placed_list (vs : List V) : placed φ (.list vs) = .list (placeds φ vs) := rfl
@[simp] theorem placed_enm (t : Tag) (vs : List V) : placed φ (.enm t vs) = .enm t (placeds φ vs) := rfl
@[simp] theorem placed_node (k : K) (e : Extent) (ws : List Ws) (vs : List V) :
    placed φ (.node k e ws vs) = .node k (e.placed φ) (ws.map (·.placed φ)) (placeds φ vs) := rfl

mutual
theorem shape_placed : ∀ v : V, shape (placed φ v) = shape v
  | .ext _ => rfl
  | .bool _ => rfl
  | .list vs => by simp [shapes_placeds vs]
  | .enm _ vs => by simp [shapes_placeds vs]
  | .node _ _ _ vs => by simp [shapes_placeds vs]
theorem shapes_placeds : ∀ vs : List V, shapes (placeds φ vs) = shapes vs
  | [] => rfl
  | v :: vs => by simp [shape_placed v, shapes_placeds vs]
end

/-! ## Tokens -/

theorem MTs.get {ts ts' : List Token} (h : MTs φ ts ts') (i : Nat) : P.Sim.Opt (MT φ) ts[i]? ts'[i]? := by
  rw [h.eq, List.getElem?_map]
  cases ts[i]? with
  | none => exact .none
  | some t => exact .some rfl

theorem MTs.length {ts ts' : List Token} (h : MTs φ ts ts') : ts.length = ts'.length := by
  rw [h.eq]
  simp

theorem MT.kind {t t' : Token} (h : MT φ t t') : t.kind? = t'.kind? := by
  cases h
  cases t <;> rfl

theorem MT.eof {t t' : Token} (h : MT φ t t') : t.isEOF = t'.isEOF := by
  cases h
  cases t with
  | number n => rfl
  | plain k e => cases k <;> rfl

theorem MT.split {t t' : Token} (h : MT φ t t') (n : Nat)
    (hc : (Verif.split t n).isSome → ∀ k ≤ n + 1, φ (t.extent.s + k) = φ t.extent.s + k) :
    P.Sim.Opt (fun x y => MT φ x.1 y.1 ∧ MT φ x.2 y.2) (split t n) (split t' n) := by
  cases h
  cases t with
  | number m => exact .none
  | plain k e =>
    obtain ⟨s, e⟩ := e
    cases k <;> rcases n with _ | _ | n <;>
      first
      | exact .none
      | (have h1 := hc rfl 1 (by omega)
         simp only [Token.extent] at h1
         first
         | (have h2 := hc rfl 2 (by omega)
            simp only [Token.extent] at h2
            exact .some ⟨by simp [MT, Token.placed, Extent.placed, h1, h2], by simp [MT, Token.placed, Extent.placed, h2]⟩)
         | exact .some ⟨by simp [MT, Token.placed, Extent.placed, h1], by simp [MT, Token.placed, Extent.placed, h1]⟩)

theorem MT.start {t t' : Token} (h : MT φ t t') : t'.extent.s = φ t.extent.s := by
  cases h
  cases t <;> rfl

theorem MT.stop {t t' : Token} (h : MT φ t t') : t'.extent.e = φ t.extent.e := by
  cases h
  cases t <;> rfl

/-- A point inside of a token. -/
theorem Fit.start (h : Fit φ toks) {p : Pt} (hp : VPt toks p) {t : Token} (ht : toks[p.off]? = some t) :
    φ (t.extent.s + p.subw) = φ t.extent.s + p.subw := by
  obtain ⟨o, s⟩ := p
  cases s with
  | none => rfl
  | some n =>
    obtain ⟨t', h1, h2⟩ := hp n rfl
    rw [ht] at h1
    cases h1
    exact h.cut o t n ht h2 _ (Nat.le_refl _)

theorem Fit.stop (h : Fit φ toks) {p : Pt} (hp : VPt toks p) (h0 : 0 < p.off) {u : Token} (hu : toks[p.off - 1]? = some u) :
    φ (u.extent.e + p.subw) = φ u.extent.e + p.subw := by
  obtain ⟨o, s⟩ := p
  cases s with
  | none => rfl
  | some n =>
    obtain ⟨t', h1, h2⟩ := hp n rfl
    simp only at h1 hu h0
    exact h.prev (o - 1) u t' n hu (by rw [Nat.sub_add_cancel h0]; exact h1) h2 _ (Nat.le_refl _)

theorem ex_sim (h : MTs φ toks toks') {p q : Pt} (hp : VPt toks p) (hq : VPt toks q) : P.Sim.Opt (ME φ) (ex toks p q) (ex toks' p q) := by
  unfold ex
  have h0 := h.get p.off
  generalize hx : toks[p.off]? = x at h0
  generalize toks'[p.off]? = y at h0
  have h9 := h.get (q.off - 1)
  generalize hx' : toks[q.off - 1]? = x' at h9
  generalize toks'[q.off - 1]? = y' at h9
  cases h0 with
  | none => exact .none
  | some h1 =>
    have hs := h.fit.start hp hx
    dsimp only
    rw [h1.start]
    split
    · cases h9 with
      | none => exact .none
      | some h2 =>
        dsimp only
        rw [h2.stop]
        exact .some (by simp [ME, Extent.placed, hs, h.fit.stop hq (by omega) hx'])
    · split
      · rename_i he
        have hs' := h.fit.start hq (by rw [← he]; exact hx)
        split
        · exact .some (by simp [ME, Extent.placed, hs, hs'])
        · split
          · exact .some (by simp [ME, Extent.placed, hs])
          · exact .none
      · exact .none

theorem token_sim {α β : Type} {R : α → β → Prop} {f : Token → Option α} {g : Token → Option β} {err}
    (h : MTs φ toks toks') (hf : ∀ t t', MT φ t t' → P.Sim.Opt R (f t) (g t')) :
    PS toks R (token toks f err) (token toks' g err) := by
  intro a pt hV
  have key : ∀ {t t' u u' : Token}, toks[pt.off]? = some t → MT φ t t' → MT φ u u' → ∀ n, ResS toks R
      (match f u with
      | some v => ⟨.ok (pt.advanceBy 1) v, a, []⟩
      | none =>
        match split t n with
        | some (h, _) =>
          match f h with
          | some v => ⟨.ok ⟨pt.off, some n⟩ v, a, []⟩
          | none => ⟨.fail pt err, a, []⟩
        | none => ⟨.fail pt err, a, []⟩)
      (match g u' with
      | some v => ⟨.ok (pt.advanceBy 1) v, a, []⟩
      | none =>
        match split t' n with
        | some (h, _) =>
          match g h with
          | some v => ⟨.ok ⟨pt.off, some n⟩ v, a, []⟩
          | none => ⟨.fail pt err, a, []⟩
        | none => ⟨.fail pt err, a, []⟩) := by
    intro t t' u u' ht0 ht hu n
    have h1 := hf u u' hu
    generalize f u = x at h1
    generalize g u' = y at h1
    cases h1 with
    | some h1 => exact .ok h1 VPt.advance
    | none =>
      have h2 := ht.split n (h.fit.cut _ t n ht0)
      generalize hs : split t n = x at h2
      generalize split t' n = y at h2
      cases h2 with
      | none => exact .fail
      | @some v w h2 =>
        obtain ⟨v1, v2⟩ := v
        obtain ⟨w1, w2⟩ := w
        dsimp only
        have h3 := hf v1 w1 h2.1
        generalize f v1 = x at h3
        generalize g w1 = y at h3
        cases h3 with
        | none => exact .fail
        | some h3 => exact .ok h3 fun m hm => by cases hm; exact ⟨t, ht0, by rw [hs]; rfl⟩
  unfold token
  have h0 := h.get pt.off
  generalize hx : toks[pt.off]? = x at h0
  generalize toks'[pt.off]? = y at h0
  cases h0 with
  | none => exact .fail
  | @some t t' ht =>
    obtain ⟨o, sub⟩ := pt
    cases sub with
    | none => exact key hx ht ht 0
    | some n =>
      dsimp only
      have h2 := ht.split n (h.fit.cut _ t n hx)
      generalize h3 : split t n = x at h2
      generalize h4 : split t' n = y at h2
      cases h2 with
      | none => exact .panic
      | some h2 => exact key hx ht h2.2 (n + 1)

theorem convTK_sim (k : TK) (t t' : Token) (h : MT φ t t') : P.Sim.Opt (ME φ) (convTK k t) (convTK k t') := by
  cases h
  cases t with
  | plain k' e =>
    simp only [convTK, Token.placed]
    split
    · exact .some rfl
    · exact .none
  | number n => exact .none

theorem tok_sim (h : MTs φ toks toks') (k : TK) (err : PErr) :
    PS toks (ME φ) (token toks (convTK k) err) (token toks' (convTK k) err) :=
  token_sim h (convTK_sim k)

theorem convNumber_sim (t t' : Token) (h : MT φ t t') :
    P.Sim.Opt (fun n m => m = n.placed φ) (convNumber t) (convNumber t') := by
  cases h
  cases t
  · exact .none
  · exact .some rfl

theorem number_sim (h : MTs φ toks toks') (err : PErr) : PS toks (fun n m => m = n.placed φ)
    (token toks convNumber err) (token toks' convNumber err) :=
  token_sim h convNumber_sim

theorem convertNumber_sim {n m : Number} (h : m = n.placed φ) : Like φ (convertNumber n) (convertNumber m) := by
  subst h
  have ho : ∀ x : Option Extent, optExt (x.map (·.placed φ)) = placed φ (optExt x) := by
    intro x
    cases x <;> rfl
  unfold Like convertNumber
  obtain ⟨b, e, i, f, x, t, u⟩ := n
  cases b <;> simp [Number.placed, ho]

theorem intoSimple_sim {n m : Number} (h : m = n.placed φ) : P.Sim.Opt (ME φ) n.intoSimple m.intoSimple := by
  subst h
  unfold Number.intoSimple
  obtain ⟨b, e, i, f, x, t, u⟩ := n
  cases b <;> simp only [Number.placed, Option.isNone_map]
  case Decimal =>
    split
    · exact .some rfl
    · exact .none
  all_goals exact .none

theorem fieldNameNumber_sim (h : MTs φ toks toks') : PS toks (Likes φ) (fieldNameNumber toks) (fieldNameNumber toks') := by
  intro a pt hV
  unfold fieldNameNumber
  rcases (number_sim h .ExpectedNumber a pt hV).elim with
    ⟨p', v, w, a', l, hr, hV', h1, h2⟩ | ⟨p', e, a', l, hV', h1, h2⟩ | ⟨a', l, h1, h2⟩ | ⟨a', l, h1, h2⟩ <;> simp only [h1, h2]
  · have h3 := intoSimple_sim hr
    generalize v.intoSimple = x at h3
    generalize w.intoSimple = y at h3
    cases h3 with
    | none => exact .fail
    | some h3 => exact .ok (by cases h3; rfl)
  · exact .fail
  · exact .panic
  · exact .hang

theorem nestedLen_sim {o c : TK} (ts : List Token) (n : Nat) :
    nestedLen (isTK o) (isTK c) n (ts.map (·.placed φ)) = nestedLen (isTK o) (isTK c) n ts := by
  induction ts generalizing n with
  | nil => rfl
  | cons t ts ih =>
    have h1 : MT φ t (t.placed φ) := rfl
    simp only [List.map_cons, nestedLen, ← h1.eof, isTK, ← h1.kind, ih]
    cases n <;> rfl

theorem spanned_sim {α β : Type} {R : α → β → Prop} {p : P α} {q : P β} (h : MTs φ toks toks') (hp : PS toks R p q) :
    PS toks (fun x y => ME φ x.1 y.1 ∧ R x.2 y.2) (P.spanned toks p) (P.spanned toks' q) := by
  intro a pt hV
  unfold P.spanned
  rcases (hp a pt hV).elim with ⟨p', v, w, a', l, hr, hV', h1, h2⟩ | ⟨p', e, a', l, hV', h1, h2⟩ | ⟨a', l, h1, h2⟩ | ⟨a', l, h1, h2⟩ <;>
    simp only [h1, h2]
  · have h3 := ex_sim h hV hV'
    generalize ex toks pt p' = x at h3
    generalize ex toks' pt p' = y at h3
    cases h3 with
    | none => exact .panic
    | some h3 => exact .ok ⟨h3, hr⟩
  · exact .fail
  · exact .panic
  · exact .hang

theorem spannedEmpty_sim {α β : Type} {R : α → β → Prop} {p : P α} {q : P β} (h : MTs φ toks toks') (hp : PS toks R p q) :
    PS toks (fun x y => ME φ x.1 y.1 ∧ R x.2 y.2) (P.spannedEmpty toks p) (P.spannedEmpty toks' q) := by
  intro a pt hV
  unfold P.spannedEmpty
  rcases (hp a pt hV).elim with ⟨p', v, w, a', l, hr, hV', h1, h2⟩ | ⟨p', e, a', l, hV', h1, h2⟩ | ⟨a', l, h1, h2⟩ | ⟨a', l, h1, h2⟩ <;>
    simp only [h1, h2]
  · have h3 := ex_sim h hV hV
    generalize ex toks pt pt = x at h3
    generalize ex toks' pt pt = y at h3
    cases h3 with
    | none => exact .panic
    | some h3 => exact .ok ⟨h3, hr⟩
  · exact .fail
  · exact .panic
  · exact .hang

theorem parseNestedUntil_sim (h : MTs φ toks toks') (o c : TK) :
    PS toks (ME φ) (parseNestedUntil toks (isTK o) (isTK c)) (parseNestedUntil toks' (isTK o) (isTK c)) := by
  intro a pt hV
  unfold parseNestedUntil
  dsimp only
  have hn := nestedLen_sim (φ := φ) (o := o) (c := c) (toks.drop pt.off) 0
  rw [List.map_drop, ← h.eq] at hn
  rw [hn]
  have h3 := ex_sim h hV (VPt.advance (p := pt) (n := nestedLen (isTK o) (isTK c) 0 (toks.drop pt.off)))
  generalize ex toks pt _ = x at h3
  generalize ex toks' pt _ = y at h3
  cases h3 with
  | none => exact .panic
  | some h3 => exact .ok h3 VPt.advance

/-! ## What is built -/

theorem all_flatten {vss wss : List (List V)} (h : P.Sim.All (Likes φ) vss wss) : Likes φ vss.flatten wss.flatten := by
  induction h with
  | nil => rfl
  | cons h _ ih => simp [Likes] at *; rw [h, ih]

theorem extent_placed : ∀ v : V, (placed φ v).extent? = v.extent?.map (·.placed φ)
  | .ext _ => rfl
  | .bool _ => rfl
  | .list _ => rfl
  | .enm _ [] => rfl
  | .enm _ (v :: _) => by simpa [V.extent?] using extent_placed v
  | .node .. => rfl

theorem placeds_isEmpty (vs : List V) : (placeds φ vs).isEmpty = vs.isEmpty := by cases vs <;> rfl

theorem Fn.app_placed (f : Fn) (vs : List V) : f.app (placeds φ vs) = placeds φ (f.app vs) := by
  cases f with
  | wrap t => simp [Fn.app]
  | wrapSecond t => rcases vs with _ | ⟨v, _ | ⟨w, _ | ⟨x, vs⟩⟩⟩ <;> simp [Fn.app]
  | flat =>
    rcases vs with _ | ⟨v, _ | ⟨w, vs⟩⟩ <;> try simp [Fn.app]
    cases v with
    | list ws =>
      rcases ws with _ | ⟨x, _ | ⟨y, ws⟩⟩ <;> try simp [Fn.app]
      cases x <;> simp [Fn.app]
    | _ => simp [Fn.app]
  | some => simp [Fn.app]
  | none => simp [Fn.app]
  | swap => rcases vs with _ | ⟨v, _ | ⟨w, _ | ⟨x, vs⟩⟩⟩ <;> simp [Fn.app]
  | isSome =>
    rcases vs with _ | ⟨v, _ | ⟨w, vs⟩⟩ <;> try simp [Fn.app]
    cases v <;> simp [Fn.app, placeds_isEmpty]
  | append =>
    rcases vs with _ | ⟨v, _ | ⟨w, _ | ⟨x, vs⟩⟩⟩ <;> try simp [Fn.app]
    cases v <;> cases w <;> simp [Fn.app]
  | externAbi =>
    rcases vs with _ | ⟨v, _ | ⟨w, vs⟩⟩ <;> try simp [Fn.app]
    cases v with
    | list ws => rcases ws with _ | ⟨x, _ | ⟨y, _ | ⟨z, ws⟩⟩⟩ <;> simp [Fn.app]
    | _ => simp [Fn.app]
  | ident | lifetime | character | string | byte | byteString =>
    rcases vs with _ | ⟨v, _ | ⟨w, vs⟩⟩ <;> try simp [Fn.app]
    all_goals cases v <;> simp [Fn.app, mkIdent]
  | copyExtent k =>
    rcases vs with _ | ⟨v, _ | ⟨w, vs⟩⟩ <;> try simp [Fn.app]
    rw [extent_placed]
    cases v.extent? <;> simp
  | into =>
    rcases vs with _ | ⟨v, _ | ⟨w, vs⟩⟩ <;> try simp [Fn.app]
    rw [extent_placed]
    cases v.extent? <;> simp [intoExpr, mkAttributed]
  | fieldValue =>
    rcases vs with _ | ⟨v, _ | ⟨w, _ | ⟨x, _ | ⟨y, vs⟩⟩⟩⟩ <;> try simp [Fn.app]
    · cases v with
      | ext e =>
        cases x with
        | list xs =>
          rcases xs with _ | ⟨x, _ | ⟨y, xs⟩⟩
          · cases w with
            | node k e ws vs => cases k <;> simp [Fn.app, intoExpr, mkAttributed, mkPathedIdent]
            | _ => simp [Fn.app]
          · simp [Fn.app]
          · simp [Fn.app]
        | _ => simp [Fn.app]
      | _ => simp [Fn.app]

theorem Fn.app_likes (f : Fn) {vs ws : List V} (h : Likes φ vs ws) : Likes φ (f.app vs) (f.app ws) := by
  cases h
  exact Fn.app_placed f vs

theorem Mk.app_placed (m : Mk) (e : Extent) (vs : List V) : m.app (e.placed φ) (placeds φ vs) = placeds φ (m.app e vs) := by
  cases m with
  | node k => simp [Mk.app]
  | span => simp [Mk.app]
  | tupleBody => rcases vs with _ | ⟨v, _ | ⟨w, _ | ⟨x, vs⟩⟩⟩ <;> simp [Mk.app]
  | paren =>
    rcases vs with _ | ⟨v, _ | ⟨w, vs⟩⟩ <;> try simp [Mk.app]
    cases v with
    | enm t vs => cases t <;> simp [Mk.app]
    | _ => simp [Mk.app]

theorem Mk.app_likes (m : Mk) {e e' : Extent} {vs ws : List V} (he : ME φ e e') (h : Likes φ vs ws) :
    Likes φ (m.app e vs) (m.app e' ws) := by
  cases h; cases he
  exact Mk.app_placed m e vs

theorem Like.shape {v w : V} (h : Like φ v w) : Spec.shape v = Spec.shape w := by
  cases h
  exact (shape_placed v).symm

theorem mayTerminateAttributed_like {v w : V} (h : Like φ v w) : mayTerminateAttributed v = mayTerminateAttributed w :=
  Verif.mayTerminateAttributed_like h.shape

theorem Impl.app_likes (i : Impl) {vs ws : List V} (h : Likes φ vs ws) : i.app vs = i.app ws := by
  cases h
  exact Verif.Impl.app_likes i (shapes_placeds vs).symm

theorem intoExpression_placed (v : V) : intoExpression (placed φ v) = (intoExpression v).map (placed φ) := by
  cases v with
  | enm t vs => rcases vs with _ | ⟨v, _ | ⟨w, vs⟩⟩ <;> cases t <;> rfl
  | _ => rfl

theorem blockLast_placed (vs : List V) :
    (placeds φ vs).getLast?.bind intoExpression = (vs.getLast?.bind intoExpression).map (placed φ) := by
  rw [placeds_map, List.getLast?_map]
  cases vs.getLast? with
  | none => rfl
  | some v => simp [intoExpression_placed]

theorem TailK.out_likes (k : TailK) {t u : P.Tailed (List V)} (h : P.Sim.TL (Likes φ) t u) : Likes φ (k.out t) (k.out u) := by
  have h1 : u.values.flatten = placeds φ t.values.flatten := all_flatten h.values
  cases k with
  | values => simp [TailK.out, Likes, h1]
  | paren =>
    simp only [TailK.out, h.values.length, h.separatorCount, Likes]
    split <;> simp [h1]
  | block =>
    have h2 := blockLast_placed (φ := φ) t.values.flatten
    rw [← h1] at h2
    simp only [TailK.out, h.lastHadSeparator, Likes]
    rw [h2]
    cases t.values.flatten.getLast?.bind intoExpression with
    | none => simp [h1]
    | some x =>
      dsimp only [Option.map]
      split
      · simp [h1]
      · have : u.values.flatten.dropLast = placeds φ t.values.flatten.dropLast := by
          rw [h1, placeds_map, placeds_map, List.map_dropLast]
        simp [this]

/-! ## Grammar expressions -/

theorem evalG_sim (h : MTs φ toks toks') {rec rec' : NT → P (List V)} (hr : ∀ nt, PS toks (Likes φ) (rec nt) (rec' nt)) :
    ∀ g, PS toks (Likes φ) (evalG toks rec g) (evalG toks' rec' g)
  | .eps => .pure rfl
  | .tok k => (tok_sim h k _).map fun _ _ he => by cases he; rfl
  | .number => (number_sim h _).map fun _ _ hn => by have := convertNumber_sim hn; simp [Likes, Like] at *; exact this
  | .simpleNumber => fieldNameNumber_sim h
  | .r n => hr n
  | .seq a b => (evalG_sim h hr a).bind fun _ _ h1 => (evalG_sim h hr b).map fun _ _ h2 => by
      cases h1; cases h2; simp [Likes]
  | .alt a b => (evalG_sim h hr a).orElse (evalG_sim h hr b)
  | .opt a => (evalG_sim h hr a).optional.map fun _ _ h1 => by
      cases h1 with
      | none => rfl
      | some h1 => cases h1; simp [Likes]
  | .many a => by
      have := ((evalG_sim h hr a).zeroOrMore (loopFuel toks)).map (R' := Likes φ) (f := fun vss => [.list vss.flatten])
        (g := fun vss => [.list vss.flatten]) fun _ _ h1 => by have := all_flatten h1; unfold Likes at *; rw [this]; rfl
      simpa only [evalG, loopFuel, ← h.length] using this
  | .tailed k sep a => by
      have := (PS.zeroOrMoreTailed (evalG_sim h hr sep) (evalG_sim h hr a) (loopFuel toks)).map (R' := Likes φ)
        fun _ _ h1 => TailK.out_likes k h1
      simpa only [evalG, loopFuel, ← h.length] using this
  | .tailed1Values sep a => by
      have := (PS.oneOrMoreTailed (evalG_sim h hr sep) (evalG_sim h hr a) (loopFuel toks)).map (R' := Likes φ)
        fun _ _ h1 => TailK.out_likes .values h1
      simpa only [evalG, loopFuel, ← h.length] using this
  | .resume sep a => by
      have := (PS.zeroOrMoreTailedValuesResume (evalG_sim h hr sep) (evalG_sim h hr a) (loopFuel toks)).map (R' := Likes φ)
        (f := fun vss => [.list vss.flatten])
        (g := fun vss => [.list vss.flatten]) fun _ _ h1 => by have := all_flatten h1; unfold Likes at *; rw [this]; rfl
      simpa only [evalG, loopFuel, ← h.length] using this
  | .implTailed k i sep a => by
      have := (PS.zeroOrMoreImplicitlyTailed (R := Likes φ) (fun _ _ h1 => Impl.app_likes i h1)
        (evalG_sim h hr sep) (evalG_sim h hr a) (loopFuel toks)
        (t := {}) (u := {}) ⟨.nil, rfl, rfl⟩).map (R' := Likes φ) fun _ _ h1 => TailK.out_likes k h1
      simpa only [evalG, loopFuel, ← h.length] using this
  | .nested o c => (tok_sim h o _).bind fun _ _ _ => (parseNestedUntil_sim h o c).map fun _ _ he => by cases he; rfl
  | .ext a => (spanned_sim h (evalG_sim h hr a)).map fun x y he => by obtain ⟨e, v⟩ := x; obtain ⟨e', v'⟩ := y; cases he.1; rfl
  | .drop a => (evalG_sim h hr a).map fun _ _ _ => rfl
  | .map f a => (evalG_sim h hr a).map fun _ _ h1 => Fn.app_likes f h1
  | .build m a => (spanned_sim h (evalG_sim h hr a)).map fun _ _ h1 => Mk.app_likes m h1.1 h1.2
  | .nodeEmpty k a => (spannedEmpty_sim h (evalG_sim h hr a)).map fun _ _ h1 => by have := h1.1; have := h1.2; unfold ME Likes at *; simp [*]
  | .mapErr e a => (evalG_sim h hr a).mapErr
  | .peek a => (evalG_sim h hr a).peek
  | .amb level a => (evalG_sim h hr a).setAmbiguityLevel
  | .ifAmbiguous a b => fun am pt hV => by
      simp only [evalG]
      split
      · exact evalG_sim h hr a am pt hV
      · exact evalG_sim h hr b am pt hV
  | .notMaximum a => fun am pt hV => by
      simp only [evalG]
      split
      · exact .fail
      · exact evalG_sim h hr a am pt hV

/-! ## The shunting yard -/

/-- An operator or a value on the stacks, between points that make sense. -/
structure CarS (toks : List Token) {α β : Type} (R : α → β → Prop) (c : Car α) (d : Car β) : Prop where
  value : R c.value d.value
  spt : c.spt = d.spt
  ept : c.ept = d.ept
  vs : VPt toks d.spt
  ve : VPt toks d.ept

inductive SResS (toks : List Token) {α β : Type} (R : α → β → Prop) : SRes α → SRes β → Prop
  | ok {v w} : R v w → SResS toks R (.ok v) (.ok w)
  | err {p e} : VPt toks p → SResS toks R (.err p e) (.err p e)
  | panic : SResS toks R .panic .panic

theorem SResS.bind {α β α' β' : Type} {R : α → β → Prop} {R' : α' → β' → Prop} {x : SRes α} {y : SRes β}
    {f : α → SRes α'} {g : β → SRes β'} (h : SResS toks R x y) (h' : ∀ v w, R v w → SResS toks R' (f v) (g w)) :
    SResS toks R' (x.bind f) (y.bind g) := by
  cases h with
  | ok h => exact h' _ _ h
  | err h => exact .err h
  | panic => exact .panic

inductive OpSim (φ : Nat → Nat) : OpKind → OpKind → Prop
  | pre {e e' as as' op vs vs'} : ME φ e e' → Likes φ as as' → Likes φ vs vs' → OpSim φ (.pre e as op vs) (.pre e' as' op vs')
  | inf {op vs vs'} : Likes φ vs vs' → OpSim φ (.inf op vs) (.inf op vs')
  | post {op vs vs'} : Likes φ vs vs' → OpSim φ (.post op vs) (.post op vs')

structure YardSim (toks : List Token) (φ : Nat → Nat) (y z : Yard) : Prop where
  operators : P.Sim.All (CarS toks (OpSim φ)) y.operators z.operators
  result : P.Sim.All (CarS toks (Like φ)) y.result z.result

theorem exS_sim (h : MTs φ toks toks') {p q : Pt} (hp : VPt toks p) (hq : VPt toks q) : SResS toks (ME φ) (exS toks p q) (exS toks' p q) := by
  have := ex_sim h hp hq
  unfold exS
  generalize ex toks p q = x at this
  generalize ex toks' p q = y at this
  cases this with
  | none => exact .panic
  | some h3 => exact .ok h3

theorem popExpression_sim {rs rs' : List (Car V)} (h : P.Sim.All (CarS toks (Like φ)) rs rs') {l : Pt} (hl : VPt toks l) :
    SResS toks (fun x y => CarS toks (Like φ) x.1 y.1 ∧ P.Sim.All (CarS toks (Like φ)) x.2 y.2) (popExpression rs l) (popExpression rs' l) := by
  cases h with
  | nil => exact .err hl
  | cons h h' => exact .ok ⟨h, h'⟩

theorem PrefixOp.mk_like (op : PrefixOp) {vs vs' : List V} {e e' : Extent} {o o' : Option V} (he : ME φ e e') (h : Likes φ vs vs')
    (ho : P.Sim.Opt (Like φ) o o') : Like φ (op.mk vs e o) (op.mk vs' e' o') := by
  cases h; cases he
  unfold Like
  cases ho with
  | none => cases op <;> simp [PrefixOp.mk]
  | some ho => cases ho; cases op <;> simp [PrefixOp.mk]

theorem InfixOp.mk_like (op : InfixOp) {vs vs' : List V} {e e' : Extent} {l l' : V} {o o' : Option V} (he : ME φ e e')
    (h : Likes φ vs vs') (hl : Like φ l l') (ho : P.Sim.Opt (Like φ) o o') : Like φ (op.mk vs e l o) (op.mk vs' e' l' o') := by
  cases h; cases he; cases hl
  unfold Like
  cases ho with
  | none => cases op <;> simp [InfixOp.mk, intoAttributed, mkAttributed]
  | some ho => cases ho; cases op <;> simp [InfixOp.mk, intoAttributed, mkAttributed]

theorem PostfixOp.mk_like (op : PostfixOp) {vs vs' : List V} {e e' : Extent} {l l' : V} (he : ME φ e e') (h : Likes φ vs vs')
    (hl : Like φ l l') : Like φ (op.mk vs e l) (op.mk vs' e' l') := by
  cases h; cases he; cases hl
  unfold Like
  cases op <;> simp [PostfixOp.mk, intoAttributed, mkAttributed]

theorem mkAttributed_like {e e' : Extent} {as as' : List V} {v v' : V} (he : ME φ e e') (h : Likes φ as as') (hv : Like φ v v') :
    Like φ (mkAttributed e as v) (mkAttributed e' as' v') := by
  cases h; cases he; cases hv
  simp [Like, mkAttributed]

theorem ME.upto {e e' x x' : Extent} (he : ME φ e e') (hx : ME φ x x') : ME φ ⟨e.s, x.e⟩ ⟨e'.s, x'.e⟩ := by
  cases he; cases hx; rfl

abbrev Stack (toks : List Token) (φ : Nat → Nat) := P.Sim.All (CarS toks (Like φ))

theorem applyPrefix_sim (h : MTs φ toks toks') {spt e e' as as' op vs vs' rs rs'} (he : ME φ e e') (ha : Likes φ as as') (hv : Likes φ vs vs')
    (hr : Stack toks φ rs rs') (hs : VPt toks spt) :
    SResS toks (Stack toks φ) (applyPrefix toks spt e as op vs rs) (applyPrefix toks' spt e' as' op vs' rs') := by
  unfold applyPrefix
  refine (popExpression_sim hr hs).bind fun ⟨c, rs⟩ ⟨c', rs'⟩ ⟨hc, hrs⟩ => ?_
  dsimp only at *
  rw [hc.ept]
  split
  · exact .err hs
  · refine (exS_sim h hs hc.ve).bind fun _ _ hx => ?_
    exact .ok (.cons ⟨mkAttributed_like (he.upto hx) ha (PrefixOp.mk_like op hx hv (.some hc.value)), rfl, rfl, hs, hc.ve⟩ hrs)

theorem applyMaybePrefix_sim (h : MTs φ toks toks') {spt ept e e' as as' op vs vs' rs rs'} (he : ME φ e e') (ha : Likes φ as as')
    (hv : Likes φ vs vs') (hr : Stack toks φ rs rs') (hs : VPt toks spt) (hp : VPt toks ept) :
    SResS toks (Stack toks φ) (applyMaybePrefix toks spt ept e as op vs rs) (applyMaybePrefix toks' spt ept e' as' op vs' rs') := by
  unfold applyMaybePrefix
  cases hr with
  | nil =>
    refine (exS_sim h hs hp).bind fun _ _ hx => ?_
    exact .ok (.cons ⟨mkAttributed_like (he.upto hx) ha (PrefixOp.mk_like op hx hv .none), rfl, rfl, hs, hp⟩ .nil)
  | cons h1 h2 => exact applyPrefix_sim h he ha hv (.cons h1 h2) hs

theorem applyInfix_sim (h : MTs φ toks toks') {spt ept op vs vs' rs rs'} (hv : Likes φ vs vs')
    (hr : Stack toks φ rs rs') (hs : VPt toks spt) (hp : VPt toks ept) :
    SResS toks (Stack toks φ) (applyInfix toks spt ept op vs rs) (applyInfix toks' spt ept op vs' rs') := by
  unfold applyInfix
  refine (popExpression_sim hr hp).bind fun ⟨c, rs⟩ ⟨c', rs'⟩ ⟨hc, hrs⟩ => ?_
  refine (popExpression_sim hrs hs).bind fun ⟨b, rs⟩ ⟨b', rs'⟩ ⟨hb, hrs⟩ => ?_
  dsimp only at *
  rw [hc.ept, hb.spt]
  exact (exS_sim h hb.vs hc.ve).bind fun _ _ hx =>
    .ok (.cons ⟨InfixOp.mk_like op hx hv hb.value (.some hc.value), rfl, rfl, hb.vs, hc.ve⟩ hrs)

theorem applyMaybeInfix_sim (h : MTs φ toks toks') {spt ept op vs vs' rs rs'} (hv : Likes φ vs vs')
    (hr : Stack toks φ rs rs') (hs : VPt toks spt) (hp : VPt toks ept) :
    SResS toks (Stack toks φ) (applyMaybeInfix toks spt ept op vs rs) (applyMaybeInfix toks' spt ept op vs' rs') := by
  unfold applyMaybeInfix
  rw [hr.length]
  split
  · refine (popExpression_sim hr hp).bind fun ⟨c, rs⟩ ⟨c', rs'⟩ ⟨hc, hrs⟩ => ?_
    dsimp only at *
    rw [hc.spt]
    exact (exS_sim h hc.vs hp).bind fun _ _ hx =>
      .ok (.cons ⟨InfixOp.mk_like op hx hv hc.value .none, rfl, rfl, hc.vs, hp⟩ hrs)
  · exact applyInfix_sim h hv hr hs hp

theorem applyPostfix_sim (h : MTs φ toks toks') {spt ept op vs vs' rs rs'} (hv : Likes φ vs vs')
    (hr : Stack toks φ rs rs') (hp : VPt toks ept) (hs : VPt toks spt) :
    SResS toks (Stack toks φ) (applyPostfix toks spt ept op vs rs) (applyPostfix toks' spt ept op vs' rs') := by
  unfold applyPostfix
  refine (popExpression_sim hr (by assumption)).bind fun ⟨c, rs⟩ ⟨c', rs'⟩ ⟨hc, hrs⟩ => ?_
  dsimp only at *
  rw [hc.spt]
  exact (exS_sim h hc.vs hp).bind fun _ _ hx =>
    .ok (.cons ⟨PostfixOp.mk_like op hx hv hc.value, rfl, rfl, hc.vs, hp⟩ hrs)

theorem applyOne_sim (h : MTs φ toks toks') {c c' rs rs'} (hc : CarS toks (OpSim φ) c c') (hr : Stack toks φ rs rs') :
    SResS toks (Stack toks φ) (applyOne toks c rs) (applyOne toks' c' rs') := by
  obtain ⟨v, s, e⟩ := c
  obtain ⟨w, s', e'⟩ := c'
  obtain ⟨hv, h1, h2, h3, h4⟩ := hc
  simp only at hv h1 h2 h3 h4
  subst h1 h2
  unfold applyOne
  cases hv with
  | pre he ha hv =>
    dsimp only
    split
    · exact applyMaybePrefix_sim h he ha hv hr h3 h4
    · exact applyPrefix_sim h he ha hv hr h3
  | inf hv =>
    dsimp only
    split
    · exact applyMaybeInfix_sim h hv hr h3 h4
    · exact applyInfix_sim h hv hr h3 h4
  | post hv => exact applyPostfix_sim h hv hr h4 h3

theorem applyWhile_sim (h : MTs φ toks toks') {cond cond' : OpKind → Bool} (hcond : ∀ v w, OpSim φ v w → cond v = cond' w)
    {cs cs'} (hc : P.Sim.All (CarS toks (OpSim φ)) cs cs') :
    ∀ {rs rs'}, Stack toks φ rs rs' → SResS toks (YardSim toks φ) (applyWhile toks cond cs rs) (applyWhile toks' cond' cs' rs') := by
  induction hc with
  | nil => intro rs rs' hr; exact .ok ⟨.nil, hr⟩
  | cons hc hcs ih =>
    intro rs rs' hr
    unfold applyWhile
    rw [hcond _ _ hc.value]
    split
    · exact (applyOne_sim h hc hr).bind fun _ _ hr => ih hr
    · exact .ok ⟨.cons hc hcs, hr⟩

theorem OpSim.shouldPop {o o' t t' : OpKind} (ho : OpSim φ o o') (ht : OpSim φ t t') :
    o.shouldPop t = o'.shouldPop t' := by
  cases ho <;> cases ht <;> rfl

theorem addOperator_sim (h : MTs φ toks toks') {y z : Yard} (hy : YardSim toks φ y z) {o o' : OpKind} (ho : OpSim φ o o') {s e : Pt}
    (hs : VPt toks s) (he : VPt toks e) :
    SResS toks (YardSim toks φ) (y.addOperator toks o s e) (z.addOperator toks' o' s e) :=
  (applyWhile_sim h (fun _ _ ht => ho.shouldPop ht) hy.operators hy.result).bind fun _ _ hy =>
    .ok ⟨.cons ⟨ho, rfl, rfl, hs, he⟩ hy.operators, hy.result⟩

theorem addExpression_sim {y z : Yard} (hy : YardSim toks φ y z) {v w : V} (hv : Like φ v w) {s e : Pt} (hs : VPt toks s) (he : VPt toks e) :
    YardSim toks φ (y.addExpression v s e) (z.addExpression w s e) :=
  ⟨hy.operators, .cons ⟨hv, rfl, rfl, hs, he⟩ hy.result⟩

theorem finish_sim (h : MTs φ toks toks') {y z : Yard} (hy : YardSim toks φ y z) {p : Pt} (hp : VPt toks p) :
    SResS toks (CarS toks (Like φ)) (y.finish toks p) (z.finish toks' p) := by
  unfold Yard.finish
  refine (applyWhile_sim h (fun _ _ _ => rfl) hy.operators hy.result).bind fun y z hy => ?_
  have := hy.result
  generalize y.result = rs at this
  generalize z.result = rs' at this
  cases this with
  | nil => exact .err hp
  | cons h1 h2 =>
    simp only [popExpression]
    cases h2 with
    | nil => exact .ok h1
    | cons => exact .panic

theorem getLast_sim {rs rs' : List (Car V)} (h : Stack toks φ rs rs') : P.Sim.Opt (CarS toks (Like φ)) rs.getLast? rs'.getLast? := by
  induction h with
  | nil => exact .none
  | cons h h' ih =>
    cases h' with
    | nil => exact .some h
    | cons => simpa [List.getLast?_cons_cons] using ih

theorem adaptStatement_sim {y z : Yard} (hy : YardSim toks φ y z) (st : EState) : adaptStatement y st = adaptStatement z st := by
  have h1 : y.operators.isEmpty = z.operators.isEmpty := by
    have := hy.operators
    generalize y.operators = rs at this
    generalize z.operators = rs' at this
    cases this <;> rfl
  have h2 := getLast_sim hy.result
  cases st with
  | Atom =>
    simp only [adaptStatement, h1]
    generalize y.result.getLast? = x at h2
    generalize z.result.getLast? = x' at h2
    cases h2 with
    | none => rfl
    | some h2 => simp only [mayTerminateAttributed_like h2.value]
  | _ => rfl

inductive PASim (φ : Nat → Nat) : PrefixOrAtom → PrefixOrAtom → Prop
  | prefix {e e' as as' op vs vs'} : ME φ e e' → Likes φ as as' → Likes φ vs vs' → PASim φ (.prefix e as op vs) (.prefix e' as' op vs')
  | atom {v w} : Like φ v w → PASim φ (.atom v) (.atom w)

inductive IPSim (φ : Nat → Nat) : InfixOrPostfix → InfixOrPostfix → Prop
  | infix {op vs vs'} : Likes φ vs vs' → IPSim φ (.infix op vs) (.infix op vs')
  | postfix {op vs vs'} : Likes φ vs vs' → IPSim φ (.postfix op vs) (.postfix op vs')

/-- A labelled list of values. -/
def Labelled (φ : Nat → Nat) {α : Type} (x y : α × List V) : Prop := x.1 = y.1 ∧ Likes φ x.2 y.2

structure EPSim (toks : List Token) (φ : Nat → Nat) (p q : ExprParsers) : Prop where
  prefixOrAtom : PS toks (PASim φ) p.prefixOrAtom q.prefixOrAtom
  infixOrPostfix : PS toks (IPSim φ) p.infixOrPostfix q.infixOrPostfix
  limitedPostfix : PS toks (Labelled φ) p.limitedPostfix q.limitedPostfix

inductive StepSim (toks : List Token) (φ : Nat → Nat) : Step → Step → Prop
  | continue {y z st} : YardSim toks φ y z → StepSim toks φ (.continue y st) (.continue z st)
  | stop {r s} : SResS toks (CarS toks (Like φ)) r s → StepSim toks φ (.stop r) (.stop s)

theorem ofYard_sim {st} {y z : SRes Yard} (h : SResS toks (YardSim toks φ) y z) : StepSim toks φ (.ofYard st y) (.ofYard st z) := by
  cases h with
  | ok h => exact .continue h
  | err h => exact .stop (.err h)
  | panic => exact .stop .panic

theorem toOut_sim {r s : SRes (Car V)} (h : SResS toks (CarS toks (Like φ)) r s) : OutS toks (Like φ) r.toOut s.toOut := by
  cases h with
  | ok h => simp only [SRes.toOut, h.ept]; exact .ok h.ve h.value
  | err h => exact .fail h
  | panic => exact .panic

theorem shuntStep_sim (h : MTs φ toks toks') {ps ps' : ExprParsers} (hp : EPSim toks φ ps ps') {y z : Yard} (hy : YardSim toks φ y z) (st : EState) :
    PS toks (StepSim toks φ) (shuntStep toks ps y st) (shuntStep toks' ps' z st) := by
  have key : ∀ (_ : Amb) (pt : Pt) {r s : Res PrefixOrAtom}, VPt toks pt → ResS toks (PASim φ) r s → ResS toks (StepSim toks φ)
      (match r with
        | ⟨.ok pt' (.prefix e attrs op payload), a', l⟩ =>
          ⟨.ok pt' (.ofYard .Prefix (y.addOperator toks (.pre e attrs op payload) pt pt')), a', l⟩
        | ⟨.ok pt' (.atom e), a', l⟩ => ⟨.ok pt' (.continue (y.addExpression e pt pt') .Atom), a', l⟩
        | ⟨.fail q _, a', l⟩ => ⟨.ok q (.stop (y.finish toks q)), a', l⟩
        | ⟨.panic, a', l⟩ => ⟨.panic, a', l⟩
        | ⟨.hang, a', l⟩ => ⟨.hang, a', l⟩ : Res Step)
      (match s with
        | ⟨.ok pt' (.prefix e attrs op payload), a', l⟩ =>
          ⟨.ok pt' (.ofYard .Prefix (z.addOperator toks' (.pre e attrs op payload) pt pt')), a', l⟩
        | ⟨.ok pt' (.atom e), a', l⟩ => ⟨.ok pt' (.continue (z.addExpression e pt pt') .Atom), a', l⟩
        | ⟨.fail q _, a', l⟩ => ⟨.ok q (.stop (z.finish toks' q)), a', l⟩
        | ⟨.panic, a', l⟩ => ⟨.panic, a', l⟩
        | ⟨.hang, a', l⟩ => ⟨.hang, a', l⟩ : Res Step) := by
    intro _ pt r s hV hrs
    rcases hrs.elim with ⟨p', v, w, a', l, hr, hV', h1, h2⟩ | ⟨p', e, a', l, hV', h1, h2⟩ | ⟨a', l, h1, h2⟩ | ⟨a', l, h1, h2⟩ <;>
      simp only [h1, h2]
    · cases hr with
      | «prefix» he ha hv => exact .ok (ofYard_sim (addOperator_sim h hy (.pre he ha hv) hV hV'))
      | atom hv => exact .ok (.continue (addExpression_sim hy hv hV hV'))
    · exact .ok (.stop (finish_sim h hy hV'))
    · exact .panic
    · exact .hang
  have key2 : ∀ a pt, VPt toks pt → ResS toks (StepSim toks φ) (shuntStep toks ps y .Atom a pt) (shuntStep toks' ps' z .Atom a pt) := by
    intro a pt hV
    simp only [shuntStep]
    rcases (hp.infixOrPostfix a pt hV).elim with
        ⟨p', v, w, a', l, hr, hV', h1, h2⟩ | ⟨p', e, a', l, hV', h1, h2⟩ | ⟨a', l, h1, h2⟩ | ⟨a', l, h1, h2⟩ <;>
      simp only [h1, h2]
    · cases hr with
      | «infix» hv => exact .ok (ofYard_sim (addOperator_sim h hy (.inf hv) hV hV'))
      | «postfix» hv => exact .ok (ofYard_sim (addOperator_sim h hy (.post hv) hV hV'))
    · exact .ok (.stop (finish_sim h hy hV'))
    · exact .panic
    · exact .hang
  intro a pt hV
  cases st with
  | «Prefix» => exact key a pt hV (hp.prefixOrAtom a pt hV)
  | «Infix» w =>
    have : ResS toks (PASim φ)
        (if a.isAmbiguous && w then P.maximallyAmbiguous ps.prefixOrAtom a pt else ps.prefixOrAtom a pt)
        (if a.isAmbiguous && w then P.maximallyAmbiguous ps'.prefixOrAtom a pt else ps'.prefixOrAtom a pt) := by
      split
      · exact PS.setAmbiguityLevel hp.prefixOrAtom a pt hV
      · exact hp.prefixOrAtom a pt hV
    exact key a pt hV this
  | «Postfix» => exact key2 a pt hV
  | Atom => exact key2 a pt hV
  | AtomLimitedPostfix =>
    simp only [shuntStep]
    rcases (hp.limitedPostfix a pt hV).elim with
        ⟨p', v, w, a', l, hr, hV', h1, h2⟩ | ⟨p', e, a', l, hV', h1, h2⟩ | ⟨a', l, h1, h2⟩ | ⟨a', l, h1, h2⟩ <;>
      simp only [h1, h2]
    · obtain ⟨o, v⟩ := v
      obtain ⟨o', w⟩ := w
      obtain ⟨ho, hv⟩ := hr
      simp only at ho hv
      subst ho
      exact .ok (ofYard_sim (addOperator_sim h hy (.post hv) hV hV'))
    · exact .ok (.stop (finish_sim h hy hV'))
    · exact .panic
    · exact .hang

theorem shuntLoop_sim (h : MTs φ toks toks') {ps ps' : ExprParsers} (hp : EPSim toks φ ps ps') {adapt : Yard → EState → EState}
    (ha : ∀ {y z : Yard}, YardSim toks φ y z → ∀ st, adapt y st = adapt z st) (n : Nat) :
    ∀ {y z : Yard}, YardSim toks φ y z → ∀ st, PS toks (Like φ) (shuntLoop toks ps adapt n y st) (shuntLoop toks' ps' adapt n z st) := by
  induction n with
  | zero => intro y z _ st a pt _; exact .hang
  | succ n ih =>
    intro y z hy st
    unfold shuntLoop
    refine (shuntStep_sim h hp hy st).bind fun s s' hs => ?_
    cases hs with
    | «continue» hy => dsimp only; rw [ha hy]; exact ih hy _
    | stop hr => exact fun a pt _ => ⟨toOut_sim hr, rfl, rfl⟩

theorem tableP_sim (h : MTs φ toks toks') {rec rec' : NT → P (List V)} (hr : ∀ nt, PS toks (Likes φ) (rec nt) (rec' nt))
    {α : Type} (t : (α × G) × List (α × G)) : PS toks (Labelled φ) (tableP toks rec t) (tableP toks' rec' t) := by
  have one : ∀ x : α × G, PS toks (Labelled φ) ((evalG toks rec x.2).map fun vs => (x.1, vs))
      ((evalG toks' rec' x.2).map fun vs => (x.1, vs)) := fun x => (evalG_sim h hr x.2).map fun _ _ hv => ⟨rfl, hv⟩
  obtain ⟨t, ts⟩ := t
  unfold tableP
  dsimp only
  have : ∀ (p q : P (α × List V)), PS toks (Labelled φ) p q → PS toks (Labelled φ)
      (ts.foldl (fun p x => p.orElse ((evalG toks rec x.2).map fun vs => (x.1, vs))) p)
      (ts.foldl (fun p x => p.orElse ((evalG toks' rec' x.2).map fun vs => (x.1, vs))) q) := by
    induction ts with
    | nil => exact fun p q h => h
    | cons t ts ih => exact fun p q h => ih _ _ (h.orElse (one t))
  exact this _ _ (one t)

theorem attributedP_sim (h : MTs φ toks toks') {rec rec' : NT → P (List V)} (hr : ∀ nt, PS toks (Likes φ) (rec nt) (rec' nt))
    {α β : Type} {R : α → β → Prop} {p : P α} {q : P β} (hp : PS toks R p q) :
    PS toks (fun (x : Extent × List V × α) (y : Extent × List V × β) => ME φ x.1 y.1 ∧ Likes φ x.2.1 y.2.1 ∧ R x.2.2 y.2.2) (attributedP toks rec p) (attributedP toks' rec' q) := by
  unfold attributedP
  have h1 := (hr .attribute).zeroOrMore (loopFuel toks)
  have h2 : loopFuel toks = loopFuel toks' := by simp [loopFuel, h.length]
  rw [← h2]
  exact spanned_sim h (R := fun (x : List V × α) (y : List V × β) => Likes φ x.1 y.1 ∧ R x.2 y.2)
    (h1.bind fun _ _ ha => hp.map fun _ _ hv => ⟨all_flatten ha, hv⟩)

theorem exprParsers_sim (h : MTs φ toks toks') {rec rec' : NT → P (List V)} (hr : ∀ nt, PS toks (Likes φ) (rec nt) (rec' nt)) :
    EPSim toks φ (exprParsers toks rec) (exprParsers toks' rec') where
  prefixOrAtom := by
    simp only [exprParsers]
    refine PS.orElse (PS.map (attributedP_sim h hr (tableP_sim h hr prefixTable)) ?_)
      (PS.map (attributedP_sim h hr (hr .expression_atom)) ?_)
    · refine fun ⟨e, as, op, vs⟩ ⟨e', as', op', vs'⟩ ⟨h0, h1, h2, h3⟩ => ?_
      simp only at h1 h2 h3
      subst h2
      exact .prefix h0 h1 h3
    · refine fun ⟨e, as, vs⟩ ⟨e', as', vs'⟩ ⟨h0, h1, h2⟩ => ?_
      simp only at h1 h2
      refine .atom ?_
      unfold Likes at h1 h2
      unfold ME at h0
      simp only at h0
      simp [Like, h0, h1, h2]
  infixOrPostfix := by
    simp only [exprParsers]
    refine PS.orElse (PS.map (tableP_sim h hr infixTable) ?_) (PS.map (tableP_sim h hr postfixTable) ?_)
    · refine fun ⟨op, vs⟩ ⟨op', vs'⟩ ⟨h1, h2⟩ => ?_
      simp only at h1 h2
      subst h1
      exact .infix h2
    · refine fun ⟨op, vs⟩ ⟨op', vs'⟩ ⟨h1, h2⟩ => ?_
      simp only at h1 h2
      subst h1
      exact .postfix h2
  limitedPostfix := tableP_sim h hr limitedTable

theorem shuntingYard_sim (h : MTs φ toks toks') {ps ps' : ExprParsers} (hp : EPSim toks φ ps ps') (stmt : Bool) (n : Nat) :
    PS toks (Like φ) (shuntingYard toks ps stmt n) (shuntingYard toks' ps' stmt n) := by
  unfold shuntingYard
  cases stmt with
  | true => exact shuntLoop_sim h hp adaptStatement_sim n ⟨.nil, .nil⟩ _
  | false => exact shuntLoop_sim h hp (fun _ _ => rfl) n ⟨.nil, .nil⟩ _

theorem evalRule_sim (h : MTs φ toks toks') {rec rec' : NT → P (List V)} (hr : ∀ nt, PS toks (Likes φ) (rec nt) (rec' nt)) :
    ∀ r, PS toks (Likes φ) (evalRule toks rec r) (evalRule toks' rec' r)
  | .g g => evalG_sim h hr g
  | .expr stmt => by
      have h2 : loopFuel toks = loopFuel toks' := by simp [loopFuel, h.length]
      unfold evalRule
      rw [← h2]
      exact (shuntingYard_sim h (exprParsers_sim h hr) stmt _).map fun _ _ hv => by
        unfold Like at hv
        simp [Likes, hv]

/-- Every parser function goes the same way on tokens that are placed. -/
theorem eval_sim (h : MTs φ toks toks') (n : Nat) (nt : NT) : PS toks (Likes φ) (eval toks n nt) (eval toks' n nt) := by
  induction n generalizing nt with
  | zero => intro a pt hV; exact .hang
  | succ n ih => exact evalRule_sim h ih (rules nt)

/-! ## The loop over the items -/

def _root_.Verif.ParseResult.placed (φ : Nat → Nat) : ParseResult (List V) → ParseResult (List V)
  | .ok its => .ok (placeds φ its)
  | .err l es => .err (φ l) es
  | .panic => .panic
  | .hang => .hang

theorem parseItems_placed (h : MTs φ toks toks') (clear : Bool) (n : Nat) (fails : PFailures) (a : Amb)
    (pt : Pt) (hV : VPt toks pt) : ∀ {items items'}, Likes φ items items' →
    parseItems toks' clear n fails a pt items' = (parseItems toks clear n fails a pt items).placed φ := by
  induction n generalizing fails a pt hV with
  | zero => intro _ _ _; rfl
  | succ n ih =>
    intro items items' hi
    unfold parseItems
    have h0 := h.get pt.off
    generalize toks[pt.off]? = x at h0
    generalize toks'[pt.off]? = y at h0
    cases h0 with
    | none => cases hi; rfl
    | some ht =>
      dsimp only
      rw [ht.eof]
      split
      · cases hi; rfl
      · have h1 : PS toks (Likes φ) (parseItem toks) (parseItem toks') := by
          unfold parseItem
          have h2 : evalFuel toks = evalFuel toks' := by simp [evalFuel, h.length]
          rw [← h2]
          exact evalG_sim h (eval_sim h _) itemG
        rcases (h1 a pt hV).elim with ⟨p', v, w, a', l, hr, hV', h1, h2⟩ | ⟨p', e, a', l, hV', h1, h2⟩ | ⟨a', l, h1, h2⟩ | ⟨a', l, h1, h2⟩ <;>
          simp only [h1, h2]
        · split
          · refine ih _ _ _ hV' ?_
            cases hi; cases hr
            simp [Likes]
          · rfl
        · have h3 := h.get ((fails.addAll l).add p' e).point.off
          generalize toks[((fails.addAll l).add p' e).point.off]? = x at h3
          generalize toks'[((fails.addAll l).add p' e).point.off]? = y at h3
          cases h3 with
          | none => rfl
          | some h3 => dsimp only; rw [h3.start]; rfl
        · rfl
        · rfl

/-- The parser on tokens in other places. -/
theorem parseTokens_placed (hf : Fit φ toks) (clear : Bool) :
    parseTokens (toks.map (·.placed φ)) clear = (parseTokens toks clear).placed φ := by
  unfold parseTokens
  rw [List.length_map]
  exact parseItems_placed ⟨rfl, hf⟩ clear _ _ _ _ VPt.none rfl

end Verif.Place
