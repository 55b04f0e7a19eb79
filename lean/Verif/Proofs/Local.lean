import Verif.Proofs.Loop
/-!
# What a parser looks at

A parser that returns did not look at tokens after the furthest point among: the point it stopped at, the points of the failures it
recovered from.  So if the tokens up to this point are the same, so is the result.  This is not so of single combinators (`peek`, or
the loops that forget a failure), but it is so of the rules: what is forgotten was tried before by an alternative that is remembered.
-/

namespace Verif

/-- The furthest token of the failures recovered from. -/
def Log.reach : Log → Nat
  | [] => 0
  | x :: l => max x.1.off (Log.reach l)

@[simp] theorem Log.reach_nil : Log.reach [] = 0 := rfl
@[simp] theorem Log.reach_cons (x : Pt × PErr) (l : Log) : Log.reach (x :: l) = max x.1.off (Log.reach l) := rfl
@[simp] theorem Log.reach_append (l l' : Log) : Log.reach (l ++ l') = max (Log.reach l) (Log.reach l') := by
  induction l with
  | nil => simp
  | cons x l ih => simp only [List.cons_append, Log.reach_cons, ih]; omega

/-- The furthest token looked at. -/
def Res.reach {α : Type} (r : Res α) : Nat :=
  match r.out with
  | .ok p _ | .fail p _ => max p.off (Log.reach r.log)
  | _ => Log.reach r.log

/-- It did not return. -/
def Res.dead {α : Type} (r : Res α) : Prop :=
  match r.out with
  | .panic | .hang => True
  | _ => False

section
variable {α β : Type}
@[simp] theorem dead_ok (p : Pt) (v : α) (a : Amb) (l : Log) : (⟨.ok p v, a, l⟩ : Res α).dead = False := rfl
@[simp] theorem dead_fail (p : Pt) (e : PErr) (a : Amb) (l : Log) : (⟨.fail p e, a, l⟩ : Res α).dead = False := rfl
@[simp] theorem dead_panic (a : Amb) (l : Log) : (⟨.panic, a, l⟩ : Res α).dead = True := rfl
@[simp] theorem dead_hang (a : Amb) (l : Log) : (⟨.hang, a, l⟩ : Res α).dead = True := rfl
@[simp] theorem reach_ok (p : Pt) (v : α) (a : Amb) (l : Log) : (⟨.ok p v, a, l⟩ : Res α).reach = max p.off l.reach := rfl
@[simp] theorem reach_fail (p : Pt) (e : PErr) (a : Amb) (l : Log) : (⟨.fail p e, a, l⟩ : Res α).reach = max p.off l.reach := rfl
end

/-- If neither hangs, and the first looked at no token after the `n`-th, the results are the same. -/
def Loc {α : Type} (n : Nat) (r r' : Res α) : Prop := ¬ r.dead → ¬ r'.dead → r.reach ≤ n → r' = r

theorem Loc.rfl {α : Type} {n : Nat} {r : Res α} : Loc n r r := fun _ _ _ => Eq.refl _

theorem Loc.step {α β : Type} {n : Nat} {r r' : Res α} {s s' : Res β} (h : Loc n r r') (h1 : r.dead → s.dead)
    (h2 : r'.dead → s'.dead) (h3 : ¬ s.dead → s.reach ≤ n → r.reach ≤ n) (h4 : r' = r → ¬ r.dead → r.reach ≤ n → Loc n s s') :
    Loc n s s' := by
  intro a b c
  have d := h3 a c
  have e : ¬ r.dead := fun h => a (h1 h)
  exact h4 (h e (fun h => b (h2 h)) d) e d a b c

/-- The parser stays within the tokens, and goes forward. -/
def Fwd {α : Type} (toks : List Token) (p : P α) : Prop :=
  ∀ a pt, ValidPt toks pt → Run toks (p a pt) a pt (fun _ _ => True)

/-- The same, for given tokens and a point. -/
def Local {α : Type} (toks : List Token) (n : Nat) (p p' : P α) : Prop :=
  ∀ a pt, ValidPt toks pt → Loc n (p a pt) (p' a pt)

/-- If the parser fails, it has recovered from a failure at least as far. -/
def Tracked {α : Type} (toks : List Token) (p : P α) : Prop :=
  ∀ a pt, ValidPt toks pt → ∀ q e a' l, p a pt = ⟨.fail q e, a', l⟩ → q.off ≤ l.reach

theorem Pt.off_le {toks : List Token} {p q : Pt} (hp : ValidPt toks p) (hq : ValidPt toks q) (h : p.key ≤ q.key) : p.off ≤ q.off := by
  have := hp.subw_le; have := hq.subw_le
  unfold Pt.key at h
  omega

theorem Run.reach {α : Type} {toks : List Token} {r : Res α} {a : Amb} {pt : Pt} {Q : Pt → α → Prop} (hv : ValidPt toks pt)
    (h : Run toks r a pt Q) (hd : ¬ r.dead) : pt.off ≤ r.reach := by
  obtain ⟨out, a', l⟩ := r
  obtain ⟨-, -, h⟩ := h
  cases out with
  | ok q v => have := Pt.off_le hv h.1 h.2.1; simp; omega
  | fail q e => have := Pt.off_le hv h.1 h.2; simp; omega
  | panic => simp at hd
  | hang => simp at hd

namespace Local
variable {α β : Type} {toks : List Token} {n : Nat}

theorem refl {p : P α} : Local toks n p p := fun _ _ _ => .rfl

theorem bind' {p p' : P α} {f f' : α → P β} (h : Local toks n p p') (hp : Fwd toks p)
    (hf : ∀ v a q, ValidPt toks q → ¬ (f v a q).dead → q.off ≤ (f v a q).reach)
    (hl : ∀ v, Local toks n (f v) (f' v)) : Local toks n (p.bind f) (p'.bind f') := by
  intro a pt hv
  unfold P.bind
  have h0 := h a pt hv
  have hr := hp a pt hv
  generalize p a pt = r at *
  generalize p' a pt = r' at *
  refine h0.step ?_ ?_ ?_ ?_
  · rcases r with ⟨_ | _ | _ | _, a', l⟩ <;> simp
  · rcases r' with ⟨_ | _ | _ | _, a', l⟩ <;> simp
  · rcases r with ⟨⟨q, v⟩ | ⟨q, e⟩ | _ | _, a', l⟩ <;> simp only
    · have h1 := hf v a' q hr.2.2.1
      rcases hfv : f v a' q with ⟨⟨q', v'⟩ | ⟨q', e'⟩ | _ | _, a'', l'⟩ <;> rw [hfv] at h1 <;> simp at h1 ⊢ <;> omega
    · exact fun _ h => h
    · simp
    · simp
  · rintro rfl hd hle
    rcases r' with ⟨⟨q, v⟩ | ⟨q, e⟩ | _ | _, a', l⟩
    · have h1 := hl v a' q hr.2.2.1
      dsimp only
      generalize f v a' q = s at *
      generalize f' v a' q = s' at *
      refine h1.step ?_ ?_ ?_ ?_
      · rcases s with ⟨_ | _ | _ | _, a', l⟩ <;> simp
      · rcases s' with ⟨_ | _ | _ | _, a', l⟩ <;> simp
      · rcases s with ⟨_ | _ | _ | _, a', l⟩ <;> simp <;> omega
      · rintro rfl _ _; exact .rfl
    · exact .rfl
    · exact .rfl
    · exact .rfl

theorem bind {p p' : P α} {f f' : α → P β} (h : Local toks n p p') (hp : Fwd toks p) (hf : ∀ v, Fwd toks (f v))
    (hl : ∀ v, Local toks n (f v) (f' v)) : Local toks n (p.bind f) (p'.bind f') :=
  bind' h hp (fun v a q hq => (hf v a q hq).reach hq) hl

theorem map {p p' : P α} {f : α → β} (h : Local toks n p p') : Local toks n (p.map f) (p'.map f) := by
  intro a pt hv
  unfold P.map
  have h0 := h a pt hv
  generalize p a pt = r at *
  generalize p' a pt = r' at *
  refine h0.step ?_ ?_ ?_ ?_
  · rcases r with ⟨_ | _ | _ | _, a', l⟩ <;> simp
  · rcases r' with ⟨_ | _ | _ | _, a', l⟩ <;> simp
  · rcases r with ⟨_ | _ | _ | _, a', l⟩ <;> simp <;> omega
  · rintro rfl _ _; exact .rfl

theorem mapErr {p p' : P α} {e : PErr} (h : Local toks n p p') : Local toks n (p.mapErr e) (p'.mapErr e) := by
  intro a pt hv
  unfold P.mapErr
  have h0 := h a pt hv
  generalize p a pt = r at *
  generalize p' a pt = r' at *
  refine h0.step ?_ ?_ ?_ ?_
  · rcases r with ⟨_ | _ | _ | _, a', l⟩ <;> simp
  · rcases r' with ⟨_ | _ | _ | _, a', l⟩ <;> simp
  · rcases r with ⟨_ | _ | _ | _, a', l⟩ <;> simp <;> omega
  · rintro rfl _ _; exact .rfl

theorem orElse {p p' q q' : P α} (h : Local toks n p p') (hp : Fwd toks p) (hq : Local toks n q q') :
    Local toks n (p.orElse q) (p'.orElse q') := by
  intro a pt hv
  unfold P.orElse
  have h0 := h a pt hv
  have hr := hp a pt hv
  generalize p a pt = r at *
  generalize p' a pt = r' at *
  refine h0.step ?_ ?_ ?_ ?_
  · rcases r with ⟨_ | _ | _ | _, a', l⟩ <;> simp
  · rcases r' with ⟨_ | _ | _ | _, a', l⟩ <;> simp
  · rcases r with ⟨⟨q, v⟩ | ⟨q0, e⟩ | _ | _, a', l⟩ <;> simp only
    · exact fun _ h => h
    · rcases q a' pt with ⟨⟨q', v'⟩ | ⟨q', e'⟩ | _ | _, a'', l'⟩ <;> simp <;> omega
    · simp
    · simp
  · rintro rfl hd hle
    rcases r' with ⟨⟨q0, v⟩ | ⟨q0, e⟩ | _ | _, a', l⟩
    · exact .rfl
    · have h1 := hq a' pt hv
      dsimp only
      generalize q a' pt = s at *
      generalize q' a' pt = s' at *
      refine h1.step ?_ ?_ ?_ ?_
      · rcases s with ⟨_ | _ | _ | _, a', l⟩ <;> simp
      · rcases s' with ⟨_ | _ | _ | _, a', l⟩ <;> simp
      · rcases s with ⟨_ | _ | _ | _, a', l⟩ <;> simp <;> omega
      · rintro rfl _ _; exact .rfl
    · exact .rfl
    · exact .rfl

theorem optional {p p' : P α} (h : Local toks n p p') : Local toks n p.optional p'.optional := by
  intro a pt hv
  unfold P.optional
  have h0 := h a pt hv
  generalize p a pt = r at *
  generalize p' a pt = r' at *
  refine h0.step ?_ ?_ ?_ ?_
  · rcases r with ⟨_ | _ | _ | _, a', l⟩ <;> simp
  · rcases r' with ⟨_ | _ | _ | _, a', l⟩ <;> simp
  · rcases r with ⟨_ | _ | _ | _, a', l⟩ <;> simp <;> omega
  · rintro rfl _ _; exact .rfl

theorem setAmbiguityLevel {p p' : P α} {level : Amb} (h : Local toks n p p') :
    Local toks n (P.setAmbiguityLevel level p) (P.setAmbiguityLevel level p') := by
  intro a pt hv
  unfold P.setAmbiguityLevel
  have h0 := h level pt hv
  generalize p level pt = r at *
  generalize p' level pt = r' at *
  refine h0.step ?_ ?_ ?_ ?_
  · rcases r with ⟨_ | _ | _ | _, a', l⟩ <;> simp
  · rcases r' with ⟨_ | _ | _ | _, a', l⟩ <;> simp
  · rcases r with ⟨_ | _ | _ | _, a', l⟩ <;> simp <;> omega
  · rintro rfl _ _; exact .rfl

theorem _root_.Verif.Fwd.zeroOrMore {p : P α} (hp : Fwd toks p) (m : Nat) : Fwd toks (P.zeroOrMore p m) := fun a pt hv =>
  (Run.star (R := fun _ _ _ => True) (fun pt hv => hp a pt hv) m pt hv).mono fun _ _ _ _ _ => trivial

theorem zeroOrMore {p p' : P α} (h : Local toks n p p') (hp : Fwd toks p) (m m' : Nat) :
    Local toks n (P.zeroOrMore p m) (P.zeroOrMore p' m') := by
  induction m generalizing m' with
  | zero => intro a pt hv hd; exact absurd trivial hd
  | succ m ih =>
    cases m' with
    | zero => intro a pt hv _ hd; exact absurd trivial hd
    | succ m' =>
      intro a pt hv
      unfold P.zeroOrMore
      have h0 := h a pt hv
      have hr := hp a pt hv
      generalize p a pt = r at *
      generalize p' a pt = r' at *
      refine h0.step ?_ ?_ ?_ ?_
      · rcases r with ⟨_ | _ | _ | _, a', l⟩ <;> simp
      · rcases r' with ⟨_ | _ | _ | _, a', l⟩ <;> simp
      · rcases r with ⟨⟨q, v⟩ | ⟨q0, e⟩ | _ | _, a', l⟩ <;> simp only
        · have h1 := hp.zeroOrMore m a' q hr.2.2.1
          rcases hz : P.zeroOrMore p m a' q with ⟨⟨q', v'⟩ | ⟨q', e'⟩ | _ | _, a'', l'⟩ <;> rw [hz] at h1 <;> simp
          · have := Pt.off_le hr.2.2.1 h1.2.2.1 h1.2.2.2.1; omega
          · have := Pt.off_le hr.2.2.1 h1.2.2.1 h1.2.2.2; omega
        · simp; omega
        · simp
        · simp
      · rintro rfl hd hle
        rcases r' with ⟨⟨q0, v⟩ | ⟨q0, e⟩ | _ | _, a', l⟩
        · have h1 := ih m' a' q0 hr.2.2.1
          dsimp only
          generalize P.zeroOrMore p m a' q0 = s at *
          generalize P.zeroOrMore p' m' a' q0 = s' at *
          refine h1.step ?_ ?_ ?_ ?_
          · rcases s with ⟨_ | _ | _ | _, a', l⟩ <;> simp
          · rcases s' with ⟨_ | _ | _ | _, a', l⟩ <;> simp
          · rcases s with ⟨_ | _ | _ | _, a', l⟩ <;> simp <;> omega
          · rintro rfl _ _; exact .rfl
        · exact .rfl
        · exact .rfl
        · exact .rfl

theorem _root_.Verif.Fwd.parseTailed {sep : P β} {f : P α} (hs : Fwd toks sep) (hf : Fwd toks f) : Fwd toks (P.parseTailed sep f) :=
  fun a pt hv => (Run.parseTailed (F := fun _ _ => True) (S := fun _ _ => True) (Qs := fun _ _ => True) (Q1 := fun _ _ => True)
    (fun _ _ _ _ _ => trivial) (fun _ _ _ _ _ => trivial) (hf a pt hv) (fun pt' hv' _ => hs a pt' hv')).mono fun _ _ _ _ _ => trivial

theorem parseTailed {sep sep' : P β} {f f' : P α} (hs : Local toks n sep sep') (hsf : Fwd toks sep) (hf : Local toks n f f')
    (hff : Fwd toks f) : Local toks n (P.parseTailed sep f) (P.parseTailed sep' f') := by
  intro a pt hv
  unfold P.parseTailed
  have h0 := hf a pt hv
  have hr := hff a pt hv
  generalize f a pt = r at *
  generalize f' a pt = r' at *
  refine h0.step ?_ ?_ ?_ ?_
  · rcases r with ⟨_ | _ | _ | _, a', l⟩ <;> simp
  · rcases r' with ⟨_ | _ | _ | _, a', l⟩ <;> simp
  · rcases r with ⟨⟨q, v⟩ | ⟨q0, e⟩ | _ | _, a', l⟩ <;> simp only
    · have h1 := hsf a' q hr.2.2.1
      rcases hz : sep a' q with ⟨⟨q', v'⟩ | ⟨q', e'⟩ | _ | _, a'', l'⟩ <;> rw [hz] at h1 <;> simp
      · have := Pt.off_le hr.2.2.1 h1.2.2.1 h1.2.2.2.1; omega
      · have := Pt.off_le hr.2.2.1 h1.2.2.1 h1.2.2.2; omega
    · exact fun _ h => h
    · simp
    · simp
  · rintro rfl hd hle
    rcases r' with ⟨⟨q0, v⟩ | ⟨q0, e⟩ | _ | _, a', l⟩
    · have h1 := hs a' q0 hr.2.2.1
      dsimp only
      generalize sep a' q0 = s at *
      generalize sep' a' q0 = s' at *
      refine h1.step ?_ ?_ ?_ ?_
      · rcases s with ⟨_ | _ | _ | _, a', l⟩ <;> simp
      · rcases s' with ⟨_ | _ | _ | _, a', l⟩ <;> simp
      · rcases s with ⟨_ | _ | _ | _, a', l⟩ <;> simp <;> omega
      · rintro rfl _ _; exact .rfl
    · exact .rfl
    · exact .rfl
    · exact .rfl

theorem _root_.Verif.Fwd.zeroOrMoreTailedAppend {sep : P β} {f : P α} (hs : Fwd toks sep) (hf : Fwd toks f) (m : Nat) (t : P.Tailed α) :
    Fwd toks (P.zeroOrMoreTailedAppend sep f m t) := fun a pt hv =>
  (Run.tailR (es := false) (er := false) (R := fun _ _ _ => True) (S := fun _ _ => True) nofun nofun
    (fun pt hv => hf a pt hv) (fun pt hv => hs a pt hv) m pt t hv).mono fun _ _ _ _ _ => trivial

theorem _root_.Verif.Fwd.pure {v : α} : Fwd toks (P.pure v) := fun _ _ hv => Run.pure hv trivial
theorem _root_.Verif.Fwd.failure {e : PErr} : Fwd toks (P.failure e : P α) := fun _ _ hv => Run.failure hv

theorem zeroOrMoreTailedAppend {sep sep' : P β} {f f' : P α} (hs : Local toks n sep sep') (hsf : Fwd toks sep) (hf : Local toks n f f')
    (hff : Fwd toks f) (m m' : Nat) (t : P.Tailed α) :
    Local toks n (P.zeroOrMoreTailedAppend sep f m t) (P.zeroOrMoreTailedAppend sep' f' m' t) := by
  induction m generalizing m' t with
  | zero => intro a pt hv hd; exact absurd trivial hd
  | succ m ih =>
    cases m' with
    | zero => intro a pt hv _ hd; exact absurd trivial hd
    | succ m' =>
      unfold P.zeroOrMoreTailedAppend
      refine bind (parseTailed hs hsf hf hff) (hsf.parseTailed hff) ?_ ?_
      · rintro (_ | _ | _)
        · exact .pure
        · exact .pure
        · exact hsf.zeroOrMoreTailedAppend hff _ _
      · rintro (_ | _ | _)
        · exact .refl
        · exact .refl
        · exact ih _ _

theorem _root_.Verif.Fwd.implTailed {impl : α → Bool} {sep : P β} {f : P α} (hs : Fwd toks sep) (hf : Fwd toks f) (m : Nat)
    (t : P.Tailed α) : Fwd toks (P.zeroOrMoreImplicitlyTailed impl sep f m t) := fun a pt hv =>
  (Run.implR (es := false) (er := false) (R := fun _ _ _ => True) (S := fun _ _ => True) nofun nofun
    (fun pt hv => hf a pt hv) (fun pt hv => hs a pt hv) m pt t hv).mono fun _ _ _ _ _ => trivial

theorem implTailed {impl : α → Bool} {sep sep' : P β} {f f' : P α} (hs : Local toks n sep sep') (hsf : Fwd toks sep)
    (hf : Local toks n f f') (hff : Fwd toks f) (m m' : Nat) (t : P.Tailed α) :
    Local toks n (P.zeroOrMoreImplicitlyTailed impl sep f m t) (P.zeroOrMoreImplicitlyTailed impl sep' f' m' t) := by
  induction m generalizing m' t with
  | zero => intro a pt hv hd; exact absurd trivial hd
  | succ m ih =>
    cases m' with
    | zero => intro a pt hv _ hd; exact absurd trivial hd
    | succ m' =>
      unfold P.zeroOrMoreImplicitlyTailed
      refine bind (parseTailed hs hsf hf hff) (hsf.parseTailed hff) ?_ ?_
      · rintro (_ | v | _)
        · exact .pure
        · dsimp only
          split
          · exact hsf.implTailed hff _ _
          · exact .pure
        · exact hsf.implTailed hff _ _
      · rintro (_ | v | _)
        · exact .refl
        · dsimp only
          split
          · exact ih _ _
          · exact .refl
        · exact ih _ _

theorem _root_.Verif.Fwd.oneOrMoreTailed {sep : P β} {f : P α} (hs : Fwd toks sep) (hf : Fwd toks f) (m : Nat) :
    Fwd toks (P.oneOrMoreTailed sep f m) := fun a _ hv =>
  (Run.tailR1 (es := false) (er := false) (R := fun _ _ _ => True) (S := fun _ _ => True) nofun nofun
    (fun pt hv => hf a pt hv) (fun pt hv => hs a pt hv) m hv).mono fun _ _ _ _ _ => trivial

theorem oneOrMoreTailed {sep sep' : P β} {f f' : P α} (hs : Local toks n sep sep') (hsf : Fwd toks sep) (hf : Local toks n f f')
    (hff : Fwd toks f) (m m' : Nat) : Local toks n (P.oneOrMoreTailed sep f m) (P.oneOrMoreTailed sep' f' m') := by
  unfold P.oneOrMoreTailed
  refine bind (parseTailed hs hsf hf hff) (hsf.parseTailed hff) ?_ ?_
  · rintro (_ | _ | _)
    · exact .failure
    · exact .pure
    · exact hsf.zeroOrMoreTailedAppend hff _ _
  · rintro (_ | _ | _)
    · exact .refl
    · exact .refl
    · exact zeroOrMoreTailedAppend hs hsf hf hff _ _ _

end Local

namespace Tracked
variable {α β : Type} {toks : List Token}

theorem never {p : P α} (h : Never p) : Tracked toks p := by
  intro a pt _ q e a' l he
  exact absurd (by rw [he]) (h a pt q e)

theorem bind {p : P α} {f : α → P β} (h : Tracked toks p) (hp : Fwd toks p) (hf : ∀ v, Tracked toks (f v)) :
    Tracked toks (p.bind f) := by
  intro a pt hv q e a' l he
  have h0 := h a pt hv
  have h1 := hp a pt hv
  unfold P.bind at he
  rcases hr : p a pt with ⟨⟨q0, v⟩ | ⟨q0, e0⟩ | _ | _, a0, l0⟩ <;> rw [hr] at he h0 h1 <;> simp only at he
  · have h2 := hf v a0 q0 h1.2.2.1
    rcases hs : f v a0 q0 with ⟨⟨q1, v1⟩ | ⟨q1, e1⟩ | _ | _, a1, l1⟩ <;> rw [hs] at he h2 <;> simp at he
    obtain ⟨⟨rfl, rfl⟩, rfl, rfl⟩ := he
    have := h2 _ _ _ _ rfl
    simp; omega
  · simp at he
    obtain ⟨⟨rfl, rfl⟩, rfl, rfl⟩ := he
    exact h0 _ _ _ _ rfl
  · simp at he
  · simp at he

theorem map {p : P α} {f : α → β} (h : Tracked toks p) : Tracked toks (p.map f) := by
  intro a pt hv q e a' l he
  have h0 := h a pt hv
  unfold P.map at he
  rcases hr : p a pt with ⟨⟨q0, v⟩ | ⟨q0, e0⟩ | _ | _, a0, l0⟩ <;> rw [hr] at he h0 <;> simp at he
  obtain ⟨⟨rfl, rfl⟩, rfl, rfl⟩ := he
  exact h0 _ _ _ _ rfl

theorem mapErr {p : P α} {e : PErr} (h : Tracked toks p) : Tracked toks (p.mapErr e) := by
  intro a pt hv q e a' l he
  have h0 := h a pt hv
  unfold P.mapErr at he
  rcases hr : p a pt with ⟨⟨q0, v⟩ | ⟨q0, e0⟩ | _ | _, a0, l0⟩ <;> rw [hr] at he h0 <;> simp at he
  obtain ⟨⟨rfl, rfl⟩, rfl, rfl⟩ := he
  exact h0 _ _ _ _ rfl

theorem spanned {p : P α} (h : Tracked toks p) : Tracked toks (P.spanned toks p) := by
  intro a pt hv q e a' l he
  have h0 := h a pt hv
  unfold P.spanned at he
  rcases hr : p a pt with ⟨⟨q0, v⟩ | ⟨q0, e0⟩ | _ | _, a0, l0⟩ <;> rw [hr] at he h0 <;> simp only at he
  · split at he <;> simp at he
  · simp at he
    obtain ⟨⟨rfl, rfl⟩, rfl, rfl⟩ := he
    exact h0 _ _ _ _ rfl
  · simp at he
  · simp at he

theorem spannedEmpty {p : P α} (h : Tracked toks p) : Tracked toks (P.spannedEmpty toks p) := by
  intro a pt hv q e a' l he
  have h0 := h a pt hv
  unfold P.spannedEmpty at he
  rcases hr : p a pt with ⟨⟨q0, v⟩ | ⟨q0, e0⟩ | _ | _, a0, l0⟩ <;> rw [hr] at he h0 <;> simp only at he
  · split at he <;> simp at he
  · simp at he
    obtain ⟨⟨rfl, rfl⟩, rfl, rfl⟩ := he
    exact h0 _ _ _ _ rfl
  · simp at he
  · simp at he

theorem setAmbiguityLevel {p : P α} {level : Amb} (h : Tracked toks p) : Tracked toks (P.setAmbiguityLevel level p) := by
  intro a pt hv q e a' l he
  have h0 := h level pt hv
  unfold P.setAmbiguityLevel at he
  rcases hr : p level pt with ⟨⟨q0, v⟩ | ⟨q0, e0⟩ | _ | _, a0, l0⟩ <;> rw [hr] at he h0 <;> simp at he
  obtain ⟨⟨rfl, rfl⟩, rfl, rfl⟩ := he
  exact h0 _ _ _ _ rfl

/-- The failure of the first alternative is remembered. -/
theorem orElse {p q : P α} (hp : Fwd toks p) (h : Tracked toks q ∨ Here q) : Tracked toks (p.orElse q) := by
  intro a pt hv m e a' l he
  have h1 := hp a pt hv
  unfold P.orElse at he
  rcases hr : p a pt with ⟨⟨q0, v⟩ | ⟨q0, e0⟩ | _ | _, a0, l0⟩ <;> rw [hr] at he h1 <;> simp only at he
  · simp at he
  · rcases hs : q a0 pt with ⟨⟨q1, v1⟩ | ⟨q1, e1⟩ | _ | _, a1, l1⟩ <;> rw [hs] at he <;> simp at he
    obtain ⟨⟨rfl, rfl⟩, rfl, rfl⟩ := he
    rcases h with h | h
    · have := h a0 pt hv _ _ _ _ hs
      simp; omega
    · have := h a0 pt _ _ (by rw [hs])
      subst this
      have := Pt.off_le hv h1.2.2.1 h1.2.2.2
      simp; omega
  · simp at he
  · simp at he

theorem parseTailed_never {sep : P β} {f : P α} : Never (P.parseTailed sep f) := Never.parseTailed _ _

theorem oneOrMoreTailed {sep : P β} {f : P α} (h : Tracked toks f) (m : Nat) : Tracked toks (P.oneOrMoreTailed sep f m) := by
  intro a pt hv q e a' l he
  have h0 := h a pt hv
  unfold P.oneOrMoreTailed P.bind P.parseTailed at he
  rcases hr : f a pt with ⟨⟨q0, v⟩ | ⟨q0, e0⟩ | _ | _, a0, l0⟩ <;> rw [hr] at he h0 <;> simp only at he
  · rcases hs : sep a0 q0 with ⟨⟨q1, v1⟩ | ⟨q1, e1⟩ | _ | _, a1, l1⟩ <;> rw [hs] at he <;> simp only at he
    · rcases hz : P.zeroOrMoreTailedAppend sep f m { values := [v], separatorCount := 1 } a1 q1 with
        ⟨⟨q2, v2⟩ | ⟨q2, e2⟩ | _ | _, a2, l2⟩ <;> rw [hz] at he <;> simp at he
      exact absurd (by rw [hz]) (Never.tailed sep f m { values := [v], separatorCount := 1 } a1 q1 q2 e2)
    · simp [P.pure] at he
    · simp at he
    · simp at he
  · simp [P.failure] at he
    obtain ⟨⟨rfl, rfl⟩, rfl, rfl⟩ := he
    exact h0 _ _ _ _ rfl
  · simp at he
  · simp at he

end Tracked

theorem Local.resume {α β : Type} {toks : List Token} {n : Nat} {sep sep' : P β} {f f' : P α} (hs : Local toks n sep sep')
    (hsf : Fwd toks sep) (hf : Local toks n f f') (hff : Fwd toks f) (ht : Tracked toks f) (m m' : Nat) :
    Local toks n (P.zeroOrMoreTailedValuesResume sep f m) (P.zeroOrMoreTailedValuesResume sep' f' m') := by
  intro a pt hv
  unfold P.zeroOrMoreTailedValuesResume
  have h0 := hs a pt hv
  have hr := hsf a pt hv
  generalize sep a pt = r at *
  generalize sep' a pt = r' at *
  refine h0.step ?_ ?_ ?_ ?_
  · rcases r with ⟨_ | _ | _ | _, a', l⟩ <;> simp
  · rcases r' with ⟨_ | _ | _ | _, a', l⟩ <;> simp
  · rcases r with ⟨⟨q, v⟩ | ⟨q0, e⟩ | _ | _, a', l⟩ <;> simp only
    · have h1 := hsf.oneOrMoreTailed hff m a' q hr.2.2.1
      have h2 := ht.oneOrMoreTailed (sep := sep) m a' q hr.2.2.1
      rcases hz : P.oneOrMoreTailed sep f m a' q with ⟨⟨q', v'⟩ | ⟨q', e'⟩ | _ | _, a'', l'⟩ <;> rw [hz] at h1 h2 <;> simp
      · have := Pt.off_le hr.2.2.1 h1.2.2.1 h1.2.2.2.1; omega
      · have := Pt.off_le hr.2.2.1 h1.2.2.1 h1.2.2.2
        have := h2 _ _ _ _ rfl
        omega
    · exact fun _ h => h
    · simp
    · simp
  · rintro rfl hd hle
    rcases r' with ⟨⟨q0, v⟩ | ⟨q0, e⟩ | _ | _, a', l⟩
    · have h1 := Local.oneOrMoreTailed hs hsf hf hff m m' a' q0 hr.2.2.1
      have h2 := ht.oneOrMoreTailed (sep := sep) m a' q0 hr.2.2.1
      dsimp only
      generalize P.oneOrMoreTailed sep f m a' q0 = s at *
      generalize P.oneOrMoreTailed sep' f' m' a' q0 = s' at *
      refine h1.step ?_ ?_ ?_ ?_
      · rcases s with ⟨_ | _ | _ | _, a', l⟩ <;> simp
      · rcases s' with ⟨_ | _ | _ | _, a', l⟩ <;> simp
      · rcases s with ⟨⟨q', v'⟩ | ⟨q', e'⟩ | _ | _, a', l⟩ <;> simp
        · omega
        · have := h2 _ _ _ _ rfl
          omega
      · rintro rfl _ _; exact .rfl
    · exact .rfl
    · exact .rfl
    · exact .rfl

/-! ## Tokens and extents -/

/-- The same tokens up to the `n`-th. -/
def Agree (n : Nat) (toks toks' : List Token) : Prop := ∀ i, i ≤ n → toks'[i]? = toks[i]?

section
variable {toks toks' : List Token} {n : Nat}

theorem Agree.token {α : Type} (h : Agree n toks toks') (conv : Token → Option α) (err : PErr) (a : Amb) (pt : Pt) (hp : pt.off ≤ n) :
    token toks' conv err a pt = token toks conv err a pt := by
  unfold Verif.token
  rw [h _ hp]

theorem token_reach {α : Type} (conv : Token → Option α) (err : PErr) (a : Amb) (pt : Pt) (hd : ¬ (token toks conv err a pt).dead) :
    pt.off ≤ (token toks conv err a pt).reach := by
  revert hd
  unfold Verif.token
  dsimp only
  split
  · simp
  · split
    · simp
    · split
      · simp [Pt.advanceBy]
      · split
        · split <;> simp
        · simp

theorem Local.token {α : Type} (h : Agree n toks toks') (conv : Token → Option α) (err : PErr) :
    Local toks n (token toks conv err) (token toks' conv err) := by
  intro a pt _ hd _ hle
  exact h.token _ _ _ _ (Nat.le_trans (token_reach _ _ _ _ hd) hle)

theorem Local.fieldNameNumber (h : Agree n toks toks') : Local toks n (fieldNameNumber toks) (fieldNameNumber toks') := by
  intro a pt _ hd _ hle
  unfold Verif.fieldNameNumber at *
  have h1 := token_reach (toks := toks) convNumber .ExpectedNumber a pt
  have : pt.off ≤ n := by
    rcases hr : Verif.token toks convNumber .ExpectedNumber a pt with ⟨⟨q, v⟩ | ⟨q, e⟩ | _ | _, a', l⟩ <;>
      rw [hr] at hd hle h1 <;> simp only at hd hle h1
    · split at hle
      · exact Nat.le_trans (h1 (by simp)) hle
      · simp at hle; omega
    · exact Nat.le_trans (h1 (by simp)) hle
    · simp at hd
    · simp at hd
  rw [h.token _ _ _ _ this]

theorem Local.peek_token {α : Type} (h : Agree n toks toks') (conv : Token → Option α) (err : PErr) {β : Type} (f : α → β) :
    Local toks n ((Verif.token toks conv err).map f).peek ((Verif.token toks' conv err).map f).peek := by
  intro a pt _ hd _ hle
  have : pt.off ≤ n := by
    unfold P.peek P.map at hd hle
    rcases hr : Verif.token toks conv err a pt with ⟨⟨q, v⟩ | ⟨q, e⟩ | _ | _, a', l⟩ <;> rw [hr] at hd hle <;> simp at hd hle <;> omega
  unfold P.peek P.map
  rw [h.token _ _ _ _ this]

theorem Agree.ex (h : Agree n toks toks') {p q : Pt} (hp : p.off ≤ n) (hq : q.off ≤ n) : ex toks' p q = ex toks p q := by
  unfold Verif.ex
  rw [h _ hp, h (q.off - 1) (by omega)]

theorem nestedLen_congr {o c : Token → Bool} : ∀ (l l' : List Token) (d : Nat),
    (∀ i, i ≤ nestedLen o c d l → l'[i]? = l[i]?) → nestedLen o c d l' = nestedLen o c d l := by
  intro l
  induction l with
  | nil =>
    intro l' d h
    cases l' with
    | nil => rfl
    | cons t ts => have := h 0 (Nat.zero_le _); simp at this
  | cons t ts ih =>
    intro l' d h
    cases l' with
    | nil => have := h 0 (Nat.zero_le _); simp at this
    | cons t' ts' =>
      have h0 := h 0 (Nat.zero_le _)
      simp at h0
      subst h0
      have key : ∀ d', nestedLen o c d (t' :: ts) = nestedLen o c d' ts + 1 → nestedLen o c d' ts' = nestedLen o c d' ts := by
        intro d' hd
        refine ih ts' d' ?_
        intro i hi
        have := h (i + 1) (by omega)
        simpa using this
      by_cases h1 : t'.isEOF
      · simp [nestedLen, h1]
      · by_cases h2 : o t'
        · have := key (d + 1) (by simp [nestedLen, h1, h2])
          simp [nestedLen, h1, h2, this]
        · by_cases h3 : c t'
          · cases d with
            | zero => simp [nestedLen, h1, h2, h3]
            | succ d =>
              have := key d (by simp [nestedLen, h1, h2, h3])
              simp [nestedLen, h1, h2, h3, this]
          · have := key d (by simp [nestedLen, h1, h2, h3])
            simp [nestedLen, h1, h2, h3, this]

theorem Local.parseNestedUntil (h : Agree n toks toks') (o c : Token → Bool) :
    Local toks n (parseNestedUntil toks o c) (parseNestedUntil toks' o c) := by
  intro a pt _ hd _ hle
  unfold Verif.parseNestedUntil at *
  dsimp only at *
  have h1 : pt.off + nestedLen o c 0 (toks.drop pt.off) ≤ n := by
    split at hle
    · simpa [Pt.advanceBy] using hle
    · rename_i he; rw [he] at hd; simp at hd
  have h2 : nestedLen o c 0 (toks'.drop pt.off) = nestedLen o c 0 (toks.drop pt.off) := by
    apply nestedLen_congr
    intro i hi
    simp only [List.getElem?_drop]
    exact h _ (by omega)
  rw [h2, h.ex (by omega) (by simpa [Pt.advanceBy] using h1)]

theorem Local.spanned {α : Type} (h : Agree n toks toks') {p p' : P α} (hp : Fwd toks p) (hl : Local toks n p p') :
    Local toks n (P.spanned toks p) (P.spanned toks' p') := by
  intro a pt hv
  unfold P.spanned
  have h0 := hl a pt hv
  have hr := hp a pt hv
  generalize p a pt = r at *
  generalize p' a pt = r' at *
  refine h0.step ?_ ?_ ?_ ?_
  · rcases r with ⟨_ | _ | _ | _, a', l⟩ <;> simp
  · rcases r' with ⟨_ | _ | _ | _, a', l⟩ <;> simp
  · rcases r with ⟨_ | _ | _ | _, a', l⟩ <;> simp
    · split <;> simp <;> omega
  · rintro rfl hd hle
    rcases r' with ⟨⟨q, v⟩ | _ | _ | _, a', l⟩
    · have := Pt.off_le hv hr.2.2.1 hr.2.2.2.1
      simp at hle
      dsimp only
      rw [h.ex (p := pt) (q := q) (by omega) (by omega)]
      exact .rfl
    · exact .rfl
    · exact .rfl
    · exact .rfl

theorem Local.spannedEmpty {α : Type} (h : Agree n toks toks') {p p' : P α} (hp : Fwd toks p) (hl : Local toks n p p') :
    Local toks n (P.spannedEmpty toks p) (P.spannedEmpty toks' p') := by
  intro a pt hv
  unfold P.spannedEmpty
  have h0 := hl a pt hv
  have hr := hp a pt hv
  generalize p a pt = r at *
  generalize p' a pt = r' at *
  refine h0.step ?_ ?_ ?_ ?_
  · rcases r with ⟨_ | _ | _ | _, a', l⟩ <;> simp
  · rcases r' with ⟨_ | _ | _ | _, a', l⟩ <;> simp
  · rcases r with ⟨_ | _ | _ | _, a', l⟩ <;> simp
    · split <;> simp <;> omega
  · rintro rfl hd hle
    rcases r' with ⟨⟨q, v⟩ | _ | _ | _, a', l⟩
    · have := Pt.off_le hv hr.2.2.1 hr.2.2.2.1
      simp at hle
      dsimp only
      rw [h.ex (p := pt) (q := pt) (by omega) (by omega)]
      exact .rfl
    · exact .rfl
    · exact .rfl
    · exact .rfl

end

/-! ## Which rules remember their failures -/

/-- These remember every failure, at least as far as where they fail. -/
def NT.tracked : NT → Bool
  | .expression_atom | .ident | .path_component | .pathed_ident | .expr_value | .typ_named_component | .typ_additional | .path_member
  | .path => true
  | _ => false

/-- It remembers every failure, if the nonterminals of the table do. -/
def G.tracked : G → Bool
  | .eps | .opt _ | .many _ | .tailed .. | .resume .. | .implTailed .. => true
  | .tok _ | .number | .simpleNumber | .nested .. | .peek _ | .notMaximum _ => false
  | .r n => n.total || n.tracked
  | .seq a b => a.tracked && b.tracked
  | .alt _ b => b.tracked || b.early
  | .tailed1Values _ a => a.tracked
  | .ext a | .drop a | .map _ a | .build _ a | .nodeEmpty _ a | .mapErr _ a | .amb _ a => a.tracked
  | .ifAmbiguous a b => a.tracked && b.tracked

/-- Only a token is peeked at, and only failures that were remembered are forgotten. -/
def G.local : G → Bool
  | .eps | .tok _ | .number | .simpleNumber | .nested .. | .r _ => true
  | .peek (.tok _) => true
  | .peek _ => false
  | .resume s a => s.local && a.local && a.tracked
  | .seq a b | .alt a b | .tailed _ a b | .tailed1Values a b | .implTailed _ _ a b | .ifAmbiguous a b => a.local && b.local
  | .opt a | .many a | .ext a | .drop a | .map _ a | .build _ a | .nodeEmpty _ a | .mapErr _ a | .amb _ a
  | .notMaximum a => a.local

theorem rules_tracked : ∀ nt, (match rules nt with
    | .g x => (!nt.tracked || x.tracked) && x.local
    | .expr _ => !nt.tracked) = true := by
  have h : NT.all.all (fun nt => match rules nt with
    | .g x => (!nt.tracked || x.tracked) && x.local
    | .expr _ => !nt.tracked) = true := by decide +kernel
  intro nt
  exact List.all_eq_true.mp h nt (NT.mem_all nt)

section
variable {toks toks' : List Token} {n : Nat} {Φ : NT → Rel} {rec rec' : NT → P (List V)}

theorem evalG_fwd (ht : EofLast toks) (hr : RecOK toks Φ rec) {g : G} (hw : g.wf = true) : Fwd toks (evalG toks rec g) :=
  fun a pt hv => (evalG_run ht hr g hw a pt hv).mono fun _ _ _ _ _ => trivial

/-- The tables are right for the given parsers. -/
def RecTracked (toks : List Token) (rec : NT → P (List V)) : Prop := ∀ nt, nt.tracked = true → Tracked toks (rec nt)

theorem Fwd.map {α β : Type} {p : P α} {f : α → β} (h : Fwd toks p) : Fwd toks (p.map f) :=
  fun a pt hv => Run.map ((h a pt hv).mono fun _ _ _ _ _ => trivial)

theorem evalG_tracked (ht : EofLast toks) (hr : RecOK toks Φ rec) (hT : RecTracked toks rec) (g : G) :
    g.wf = true → g.tracked = true → Tracked toks (evalG toks rec g) := by
  induction g with
  | tok | number | simpleNumber | nested | peek | notMaximum => intro _ h; simp [G.tracked] at h
  | eps | opt | many | tailed | resume | implTailed => intro _ _; exact .never (evalG_never hr.early _ rfl)
  | r m =>
    intro _ h
    simp [G.tracked] at h
    rcases h with h | h
    · exact .never (hr.early.total m h)
    · exact hT m h
  | seq a b iha ihb =>
    intro hw h; simp [G.tracked] at h; simp [G.wf] at hw
    exact .bind (iha hw.1 h.1) (evalG_fwd ht hr hw.1) fun _ => .map (ihb hw.2 h.2)
  | alt a b iha ihb =>
    intro hw h; simp [G.tracked] at h; simp [G.wf] at hw
    refine .orElse (evalG_fwd ht hr (by simp [hw])) ?_
    rcases h with h | h
    · exact .inl (ihb (by simp [hw]) h)
    · exact .inr (evalG_here hr.early _ h)
  | tailed1Values s a _ ih => intro hw h; simp [G.wf] at hw; exact .map (.oneOrMoreTailed (ih (by simp [hw]) h) _)
  | ext a ih => intro hw h; exact .map (.spanned (ih hw h))
  | drop a ih => intro hw h; exact .map (ih hw h)
  | map f a ih => intro hw h; exact .map (ih hw h)
  | build m a ih => intro hw h; exact .map (.spanned (ih hw h))
  | nodeEmpty m a ih => intro hw h; exact .map (.spannedEmpty (ih (by simpa [G.wf] using hw) h))
  | mapErr e a ih => intro hw h; exact .mapErr (ih hw h)
  | amb l a ih => intro hw h; exact .setAmbiguityLevel (ih hw h)
  | ifAmbiguous a b iha ihb =>
    intro hw h am pt
    simp [G.tracked] at h; simp [G.wf] at hw
    simp only [evalG]
    split
    · exact iha hw.1 h.1 _ _
    · exact ihb hw.2 h.2 _ _

theorem evalG_local (ht : EofLast toks) (hA : Agree n toks toks') (hr : RecOK toks Φ rec) (hT : RecTracked toks rec)
    (hL : ∀ nt, Local toks n (rec nt) (rec' nt)) (g : G) :
    g.wf = true → g.local = true → Local toks n (evalG toks rec g) (evalG toks' rec' g) := by
  have fwd : ∀ {g : G}, g.wf = true → Fwd toks (evalG toks rec g) := fun h => evalG_fwd ht hr h
  induction g with
  | eps => intro _ _; exact .refl
  | tok k => intro _ _; exact .map (.token hA _ _)
  | number => intro _ _; exact .map (.token hA _ _)
  | simpleNumber => intro _ _; exact .fieldNameNumber hA
  | nested o c =>
    intro hw _
    have hne : o ≠ .EndOfFile := by rintro rfl; simp [G.wf] at hw
    refine .bind' (.token hA _ _) (fun a pt hv => (Run.token ht (convTK_isEOF hne) hv).mono fun _ _ _ _ _ => trivial) ?_
      fun _ => .map (.parseNestedUntil hA _ _)
    intro _ a q _ hd
    revert hd
    unfold P.map parseNestedUntil
    dsimp only
    split <;> (rename_i he; split at he <;> simp at he)
    · obtain ⟨⟨rfl, rfl⟩, rfl, rfl⟩ := he
      simp [Pt.advanceBy]
    · simp
  | r m => intro _ _; exact hL m
  | seq a b iha ihb =>
    intro hw h; simp [G.local] at h; simp [G.wf] at hw
    exact .bind (iha hw.1 h.1) (fwd hw.1) (fun _ => (fwd hw.2).map) fun _ => .map (ihb hw.2 h.2)
  | alt a b iha ihb =>
    intro hw h; simp [G.local] at h; simp [G.wf] at hw
    exact .orElse (iha hw.1 h.1) (fwd hw.1) (ihb hw.2 h.2)
  | opt a ih => intro hw h; exact .map (.optional (ih hw h))
  | many a ih => intro hw h; simp [G.wf] at hw; exact .map (.zeroOrMore (ih (by simp [hw]) h) (fwd (by simp [hw])) _ _)
  | tailed k s a ihs iha =>
    intro hw h; simp [G.wf] at hw; simp [G.local] at h
    exact .map (.zeroOrMoreTailedAppend (ihs (by simp [hw]) h.1) (fwd (by simp [hw])) (iha (by simp [hw]) h.2) (fwd (by simp [hw])) _ _ _)
  | tailed1Values s a ihs iha =>
    intro hw h; simp [G.wf] at hw; simp [G.local] at h
    exact .map (.oneOrMoreTailed (ihs (by simp [hw]) h.1) (fwd (by simp [hw])) (iha (by simp [hw]) h.2) (fwd (by simp [hw])) _ _)
  | resume s a ihs iha =>
    intro hw h; simp [G.wf] at hw; simp [G.local] at h
    exact .map (.resume (ihs (by simp [hw]) h.1.1) (fwd (by simp [hw])) (iha (by simp [hw]) h.1.2) (fwd (by simp [hw]))
      (evalG_tracked ht hr hT a (by simp [hw]) h.2) _ _)
  | implTailed k i s a ihs iha =>
    intro hw h; simp [G.wf] at hw; simp [G.local] at h
    exact .map (.implTailed (ihs (by simp [hw]) h.1) (fwd (by simp [hw])) (iha (by simp [hw]) h.2) (fwd (by simp [hw])) _ _ _)
  | ext a ih => intro hw h; exact .map (.spanned hA (fwd hw) (ih hw h))
  | drop a ih => intro hw h; exact .map (ih hw h)
  | map f a ih => intro hw h; exact .map (ih hw h)
  | build m a ih => intro hw h; exact .map (.spanned hA (fwd hw) (ih hw h))
  | nodeEmpty m a ih =>
    intro hw h
    have hw : a.wf = true := by simpa [G.wf] using hw
    exact .map (.spannedEmpty hA (fwd hw) (ih hw h))
  | mapErr e a ih => intro hw h; exact .mapErr (ih hw h)
  | peek a ih =>
    intro hw h
    cases a <;> simp [G.local] at h
    exact .peek_token hA _ _ _
  | amb l a ih => intro hw h; exact .setAmbiguityLevel (ih hw h)
  | ifAmbiguous a b iha ihb =>
    intro hw h am pt hv
    simp [G.local] at h; simp [G.wf] at hw
    simp only [evalG]
    split
    · exact iha hw.1 h.1 _ _ hv
    · exact ihb hw.2 h.2 _ _ hv
  | notMaximum a ih =>
    intro hw h am pt hv
    simp only [evalG]
    split
    · exact .rfl
    · exact ih hw h _ _ hv

end

/-! ## The shunting yard -/

/-- A car is not beyond a token. -/
def Car.le {α : Type} (m : Nat) (c : Car α) : Prop := c.spt.off ≤ m ∧ c.ept.off ≤ m

/-- Nothing in the yard is beyond a token. -/
def Yard.le (m : Nat) (y : Yard) : Prop := (∀ c ∈ y.operators, c.le m) ∧ ∀ c ∈ y.result, c.le m

theorem Yard.le.mono {m m' : Nat} {y : Yard} (h : y.le m) (hm : m ≤ m') : y.le m' :=
  ⟨fun c hc => ⟨Nat.le_trans (h.1 c hc).1 hm, Nat.le_trans (h.1 c hc).2 hm⟩,
   fun c hc => ⟨Nat.le_trans (h.2 c hc).1 hm, Nat.le_trans (h.2 c hc).2 hm⟩⟩

section
variable {toks toks' : List Token} {n : Nat}

theorem applyPrefix_le {m : Nat} {spt : Pt} {e attrs op payload} {rs rs' : List (Car V)} (hs : spt.off ≤ m)
    (hrs : ∀ c ∈ rs, c.le m) (h : applyPrefix toks spt e attrs op payload rs = .ok rs') : ∀ c ∈ rs', c.le m := by
  unfold applyPrefix popExpression at h
  cases rs with
  | nil => simp [SRes.bind] at h
  | cons c rs =>
    simp only [SRes.bind] at h
    split at h
    · simp at h
    · unfold exS at h
      split at h <;> rename_i he <;> split at he <;> simp at he h
      subst h
      intro d hd
      simp at hd hrs
      rcases hd with rfl | hd
      · exact ⟨hs, hrs.1.2⟩
      · exact hrs.2 _ hd

theorem applyInfix_le {m : Nat} {spt ept : Pt} {op payload} {rs rs' : List (Car V)} 
    (hrs : ∀ c ∈ rs, c.le m) (h : applyInfix toks spt ept op payload rs = .ok rs') : ∀ c ∈ rs', c.le m := by
  unfold applyInfix popExpression at h
  rcases rs with _ | ⟨c, _ | ⟨d, rs⟩⟩
  · simp [SRes.bind] at h
  · simp [SRes.bind] at h
  · simp only [SRes.bind] at h
    unfold exS at h
    split at h <;> rename_i he <;> split at he <;> simp at he h
    subst h
    intro x hx
    simp at hx hrs
    rcases hx with rfl | hx
    · exact ⟨hrs.2.1.1, hrs.1.2⟩
    · exact hrs.2.2 _ hx

theorem applyOne_le {m : Nat} {c : Car OpKind} {rs rs' : List (Car V)} (hc : c.le m)
    (hrs : ∀ c ∈ rs, c.le m) (h : applyOne toks c rs = .ok rs') : ∀ c ∈ rs', c.le m := by
  unfold applyOne at h
  split at h
  · split at h
    · unfold applyMaybePrefix at h
      split at h
      · unfold exS SRes.bind at h
        split at h <;> rename_i he <;> split at he <;> simp at he h
        subst h
        simp
        exact hc
      · exact applyPrefix_le hc.1 hrs h
    · exact applyPrefix_le hc.1 hrs h
  · split at h
    · unfold applyMaybeInfix at h
      split at h
      · unfold popExpression at h
        cases rs with
        | nil => simp [SRes.bind] at h
        | cons d rs =>
          unfold exS at h
          simp only [SRes.bind] at h
          split at h <;> rename_i he <;> split at he <;> simp at he h
          subst h
          intro x hx
          simp at hx hrs
          rcases hx with rfl | hx
          · exact ⟨hrs.1.1, hc.2⟩
          · exact hrs.2 _ hx
      · exact applyInfix_le hrs h
    · exact applyInfix_le hrs h
  · unfold applyPostfix popExpression at h
    cases rs with
    | nil => simp [SRes.bind] at h
    | cons d rs =>
      unfold exS at h
      simp only [SRes.bind] at h
      split at h <;> rename_i he <;> split at he <;> simp at he h
      subst h
      intro x hx
      simp at hx hrs
      rcases hx with rfl | hx
      · exact ⟨hrs.1.1, hc.2⟩
      · exact hrs.2 _ hx

/-- The extents between points up to the `n`-th token are the same. -/
def SameEx (n : Nat) (toks toks' : List Token) : Prop := ∀ (p q : Pt), p.off ≤ n → q.off ≤ n → ex toks' p q = ex toks p q

theorem Agree.sameEx (h : Agree n toks toks') : SameEx n toks toks' := fun _ _ hp hq => h.ex hp hq

theorem SameEx.exS (h : SameEx n toks toks') {p q : Pt} (hp : p.off ≤ n) (hq : q.off ≤ n) : exS toks' p q = exS toks p q := by
  unfold Verif.exS
  rw [h p q hp hq]

theorem SameEx.applyPrefix (h : SameEx n toks toks') {spt : Pt} {e attrs op payload} {rs : List (Car V)} (hs : spt.off ≤ n)
    (hrs : ∀ c ∈ rs, c.le n) : applyPrefix toks' spt e attrs op payload rs = applyPrefix toks spt e attrs op payload rs := by
  unfold Verif.applyPrefix popExpression
  cases rs with
  | nil => rfl
  | cons c rs =>
    simp only [SRes.bind]
    rw [h.exS hs (hrs c (by simp)).2]

theorem SameEx.applyInfix (h : SameEx n toks toks') {spt ept : Pt} {op payload} {rs : List (Car V)}
    (hrs : ∀ c ∈ rs, c.le n) : applyInfix toks' spt ept op payload rs = applyInfix toks spt ept op payload rs := by
  unfold Verif.applyInfix popExpression
  rcases rs with _ | ⟨c, _ | ⟨d, rs⟩⟩
  · rfl
  · rfl
  · simp only [SRes.bind]
    rw [h.exS (hrs d (by simp)).1 (hrs c (by simp)).2]

theorem SameEx.applyOne (h : SameEx n toks toks') {c : Car OpKind} {rs : List (Car V)} (hc : c.le n) (hrs : ∀ c ∈ rs, c.le n) :
    applyOne toks' c rs = applyOne toks c rs := by
  unfold Verif.applyOne applyMaybePrefix applyMaybeInfix applyPostfix
  rw [h.exS hc.1 hc.2]
  cases c.value with
  | pre =>
    dsimp only
    rw [h.applyPrefix hc.1 hrs]
  | inf =>
    dsimp only
    rw [h.applyInfix hrs]
    cases rs with
    | nil => rfl
    | cons d rs =>
      simp only [popExpression, SRes.bind]
      rw [h.exS (hrs d (by simp)).1 hc.2]
  | post =>
    cases rs with
    | nil => rfl
    | cons d rs =>
      simp only [popExpression, SRes.bind]
      rw [h.exS (hrs d (by simp)).1 hc.2]

theorem SameEx.applyWhile (h : SameEx n toks toks') {cond : OpKind → Bool} : ∀ (cs : List (Car OpKind)) (rs : List (Car V)),
    (∀ c ∈ cs, c.le n) → (∀ c ∈ rs, c.le n) → applyWhile toks' cond cs rs = applyWhile toks cond cs rs := by
  intro cs
  induction cs with
  | nil => intros; rfl
  | cons c cs ih =>
    intro rs hc hr
    simp at hc
    unfold Verif.applyWhile
    rw [h.applyOne hc.1 hr]
    split
    · have := fun rs' => applyOne_le (toks := toks) (rs' := rs') hc.1 hr
      cases hx : Verif.applyOne toks c rs with
      | ok rs' => exact ih rs' hc.2 (this _ hx)
      | err => rfl
      | panic => rfl
    · rfl

theorem applyWhile_le {m : Nat} {cond : OpKind → Bool} : ∀ (cs : List (Car OpKind)) (rs : List (Car V)) (y : Yard),
    (∀ c ∈ cs, c.le m) → (∀ c ∈ rs, c.le m) → applyWhile toks cond cs rs = .ok y → y.le m := by
  intro cs
  induction cs with
  | nil => intro rs y _ h he; simp [applyWhile] at he; subst he; exact ⟨by simp, h⟩
  | cons c cs ih =>
    intro rs y hc hr he
    have hc' := hc
    simp at hc
    unfold applyWhile at he
    split at he
    · have := fun rs' => applyOne_le (toks := toks) (rs' := rs') hc.1 hr
      cases hx : applyOne toks c rs with
      | ok rs' => rw [hx] at he; exact ih rs' y hc.2 (this _ hx) he
      | err => rw [hx] at he; simp [SRes.bind] at he
      | panic => rw [hx] at he; simp [SRes.bind] at he
    · simp at he
      subst he
      exact ⟨hc', hr⟩

theorem SameEx.finish (h : SameEx n toks toks') {y : Yard} {q : Pt} (hy : y.le n) : y.finish toks' q = y.finish toks q := by
  unfold Yard.finish
  rw [h.applyWhile _ _ hy.1 hy.2]

theorem SameEx.addOperator (h : SameEx n toks toks') {y : Yard} {op : OpKind} {p q : Pt} (hy : y.le n) :
    y.addOperator toks' op p q = y.addOperator toks op p q := by
  unfold Yard.addOperator
  rw [h.applyWhile _ _ hy.1 hy.2]

theorem Yard.addOperator_le {m : Nat} {y y' : Yard} {op : OpKind} {p q : Pt} (hy : y.le m) (hp : p.off ≤ m) (hq : q.off ≤ m)
    (h : y.addOperator toks op p q = .ok y') : y'.le m := by
  unfold Yard.addOperator at h
  cases hx : applyWhile toks op.shouldPop y.operators y.result with
  | err => rw [hx] at h; simp [SRes.bind] at h
  | panic => rw [hx] at h; simp [SRes.bind] at h
  | ok y1 =>
    have h1 := applyWhile_le _ _ _ hy.1 hy.2 hx
    rw [hx] at h; simp [SRes.bind] at h
    subst h
    refine ⟨?_, h1.2⟩
    intro c hc
    simp at hc
    rcases hc with rfl | hc
    · exact ⟨hp, hq⟩
    · exact h1.1 _ hc

end

/-- One turn of the loop and the turns after it. -/
def turn {α : Type} (p : P α) (F : Pt → α → Step) (fin : Pt → SRes (Car V)) (K : Yard → EState → P V) : P V := fun a pt =>
  match p a pt with
  | ⟨.ok q x, a', l⟩ =>
    match F q x with
    | .continue y st => match K y st a' q with | ⟨r, a'', l'⟩ => ⟨r, a'', l ++ l'⟩
    | .stop r => ⟨r.toOut, a', l⟩
  | ⟨.fail q _, a', l⟩ => ⟨(fin q).toOut, a', l⟩
  | ⟨.panic, a', l⟩ => ⟨.panic, a', l⟩
  | ⟨.hang, a', l⟩ => ⟨.hang, a', l⟩

theorem turn_reach {α : Type} {toks : List Token} {p : P α} {F : Pt → α → Step} {fin : Pt → SRes (Car V)}
    {K : Yard → EState → P V} {a : Amb} {pt : Pt} (hv : ValidPt toks pt) (ht : Tracked toks p)
    (hF : ∀ q x a' l, p a pt = ⟨.ok q x, a', l⟩ → ∃ y st, F q x = .continue y st ∧
      (¬ (K y st a' q).dead → q.off ≤ (K y st a' q).reach)) (hd : ¬ (turn p F fin K a pt).dead) :
    ¬ (p a pt).dead ∧ (p a pt).reach ≤ (turn p F fin K a pt).reach := by
  have h1 := ht a pt hv
  revert hd
  unfold turn
  rcases hr : p a pt with ⟨⟨q, x⟩ | ⟨q, e⟩ | _ | _, a', l⟩
  · obtain ⟨y, st, h2, h3⟩ := hF q x a' l hr
    dsimp only
    rw [h2]
    dsimp only
    rcases hk : K y st a' q with ⟨⟨q', v'⟩ | ⟨q', e'⟩ | _ | _, a'', l'⟩ <;> rw [hk] at h3 <;> simp at h3 ⊢ <;> omega
  · have := h1 _ _ _ _ hr
    dsimp only
    rcases fin q with ⟨c⟩ | ⟨c, e⟩ | _ <;> simp [SRes.toOut] <;> omega
  · simp
  · simp

theorem turn_local {α : Type} {toks : List Token} {n : Nat} {p p' : P α} {F F' : Pt → α → Step} {fin fin' : Pt → SRes (Car V)}
    {K K' : Yard → EState → P V} {a : Amb} {pt : Pt} (hv : ValidPt toks pt) (ht : Tracked toks p)
    (hl : Local toks n p p')
    (hF : ∀ q x a' l, p a pt = ⟨.ok q x, a', l⟩ → ∃ y st, F q x = .continue y st ∧
      (¬ (K y st a' q).dead → q.off ≤ (K y st a' q).reach) ∧
      (q.off ≤ n → F' q x = .continue y st ∧ Loc n (K y st a' q) (K' y st a' q)))
    (hfin : ∀ q e a' l, p a pt = ⟨.fail q e, a', l⟩ → q.off ≤ n → fin' q = fin q) :
    Loc n (turn p F fin K a pt) (turn p' F' fin' K' a pt) := by
  have h0 := hl a pt hv
  have key := fun hd => turn_reach (fin := fin) hv ht (fun q x a' l h => by
    obtain ⟨y, st, h1, h2, -⟩ := hF q x a' l h; exact ⟨y, st, h1, h2⟩) hd
  refine h0.step ?_ ?_ ?_ ?_
  · intro hd; exact Classical.byContradiction fun h => (key h).1 hd
  · unfold turn
    rcases p' a pt with ⟨⟨q, x⟩ | ⟨q, e⟩ | _ | _, a', l⟩ <;> simp
  · intro hd hle; exact Nat.le_trans (key hd).2 hle
  · intro he hd hle
    unfold turn
    rw [he]
    rcases hr : p a pt with ⟨⟨q, x⟩ | ⟨q, e⟩ | _ | _, a', l⟩
    · obtain ⟨y, st, h2, h3, h4⟩ := hF q x a' l hr
      rw [hr] at hle
      obtain ⟨h4, h5⟩ := h4 (by simp at hle; omega)
      dsimp only
      rw [h2, h4]
      dsimp only
      generalize K y st a' q = s at *
      generalize K' y st a' q = s' at *
      refine h5.step ?_ ?_ ?_ ?_
      · rcases s with ⟨_ | _ | _ | _, a', l⟩ <;> simp
      · rcases s' with ⟨_ | _ | _ | _, a', l⟩ <;> simp
      · rcases s with ⟨_ | _ | _ | _, a', l⟩ <;> simp <;> omega
      · rintro rfl _ _; exact .rfl
    · rw [hr] at hle
      dsimp only
      rw [hfin q e a' l hr (by simp at hle; omega)]
      exact .rfl
    · exact .rfl
    · exact .rfl

/-- One turn of the loop. -/
def stepOf {α : Type} (p : P α) (F : Pt → α → Step) (fin : Pt → SRes (Car V)) : P Step := fun a pt =>
  match p a pt with
  | ⟨.ok q x, a', l⟩ => ⟨.ok q (F q x), a', l⟩
  | ⟨.fail q _, a', l⟩ => ⟨.ok q (.stop (fin q)), a', l⟩
  | ⟨.panic, a', l⟩ => ⟨.panic, a', l⟩
  | ⟨.hang, a', l⟩ => ⟨.hang, a', l⟩

theorem shuntLoop_turn {α : Type} {toks : List Token} {ps : ExprParsers} {adapt : Yard → EState → EState} {k : Nat} {y : Yard}
    {st : EState} {a : Amb} {pt : Pt} {p : P α} {F : Pt → α → Step} {fin : Pt → SRes (Car V)}
    (h : shuntStep toks ps y st a pt = stepOf p F fin a pt) : shuntLoop toks ps adapt (k + 1) y st a pt =
      turn p F fin (fun y st => shuntLoop toks ps adapt k y (adapt y st)) a pt := by
  simp only [shuntLoop]
  unfold turn P.bind
  rw [h]
  unfold stepOf
  rcases p a pt with ⟨⟨q, x⟩ | ⟨q, e⟩ | _ | _, a', l⟩
  · dsimp only; cases F q x <;> simp
  · simp
  · rfl
  · rfl

/-- The parsers the loop uses look at no token they do not report. -/
structure PsLocal (toks : List Token) (n : Nat) (ps ps' : ExprParsers) : Prop where
  atom : Local toks n ps.prefixOrAtom ps'.prefixOrAtom
  op : Local toks n ps.infixOrPostfix ps'.infixOrPostfix
  lim : Local toks n ps.limitedPostfix ps'.limitedPostfix
  atomT : Tracked toks ps.prefixOrAtom
  opT : Tracked toks ps.infixOrPostfix
  limT : Tracked toks ps.limitedPostfix

section
variable {toks toks' : List Token} {n : Nat} {Φ : NT → Rel} {stmt : Bool} {a : Amb} {ps ps' : ExprParsers}

/-- The parser that a turn of the loop tries, in the states before an operand. -/
def atomP (ps : ExprParsers) (a : Amb) (st : EState) : P PrefixOrAtom :=
  if (match st with | .Infix wasRange => a.isAmbiguous && wasRange | _ => false) then P.maximallyAmbiguous ps.prefixOrAtom
  else ps.prefixOrAtom

theorem atomP_cases (a : Amb) (st : EState) : (∀ ps, atomP ps a st = P.setAmbiguityLevel .Maximum ps.prefixOrAtom) ∨
    (∀ ps, atomP ps a st = ps.prefixOrAtom) := by
  unfold atomP
  cases (match st with | .Infix wasRange => a.isAmbiguous && wasRange | _ => false)
  · exact .inr fun _ => rfl
  · exact .inl fun _ => rfl

def atomF (toks : List Token) (y : Yard) (pt : Pt) (q : Pt) : PrefixOrAtom → Step
  | .prefix e attrs op payload => .ofYard .Prefix (y.addOperator toks (.pre e attrs op payload) pt q)
  | .atom e => .continue (y.addExpression e pt q) .Atom

def opF (toks : List Token) (y : Yard) (pt : Pt) (q : Pt) : InfixOrPostfix → Step
  | .infix op payload => .ofYard (.Infix op.isRange) (y.addOperator toks (.inf op payload) pt q)
  | .postfix op payload => .ofYard .Postfix (y.addOperator toks (.post op payload) pt q)

def limF (toks : List Token) (y : Yard) (pt : Pt) (q : Pt) (x : PostfixOp × List V) : Step :=
  .ofYard .Postfix (y.addOperator toks (.post x.1 x.2) pt q)

theorem shuntStep_atom (toks : List Token) (ps : ExprParsers) (y : Yard) {st : EState} (a : Amb) (pt : Pt)
    (hst : st = .Prefix ∨ ∃ w, st = .Infix w) :
    shuntStep toks ps y st a pt = stepOf (atomP ps a st) (atomF toks y pt) (y.finish toks) a pt := by
  have e : atomP ps a st a pt = if (match st with | .Infix wasRange => a.isAmbiguous && wasRange | _ => false) then
      P.maximallyAmbiguous ps.prefixOrAtom a pt else ps.prefixOrAtom a pt := by
    unfold atomP
    cases (match st with | .Infix wasRange => a.isAmbiguous && wasRange | _ => false) <;> rfl
  have : shuntStep toks ps y st a pt =
      match (if (match st with | .Infix wasRange => a.isAmbiguous && wasRange | _ => false) then
        P.maximallyAmbiguous ps.prefixOrAtom a pt else ps.prefixOrAtom a pt) with
      | ⟨.ok pt' (.prefix e attrs op payload), a', l⟩ =>
        ⟨.ok pt' (.ofYard .Prefix (y.addOperator toks (.pre e attrs op payload) pt pt')), a', l⟩
      | ⟨.ok pt' (.atom e), a', l⟩ => ⟨.ok pt' (.continue (y.addExpression e pt pt') .Atom), a', l⟩
      | ⟨.fail q _, a', l⟩ => ⟨.ok q (.stop (y.finish toks q)), a', l⟩
      | ⟨.panic, a', l⟩ => ⟨.panic, a', l⟩
      | ⟨.hang, a', l⟩ => ⟨.hang, a', l⟩ := by
    rcases hst with rfl | ⟨w, rfl⟩ <;> rfl
  rw [this, ← e]
  unfold stepOf
  rcases atomP ps a st a pt with ⟨⟨q, _ | _⟩ | ⟨q, e⟩ | _ | _, a', l⟩ <;> rfl

theorem shuntStep_op (toks : List Token) (ps : ExprParsers) (y : Yard) {st : EState} (a : Amb) (pt : Pt)
    (hst : st = .Postfix ∨ st = .Atom) :
    shuntStep toks ps y st a pt = stepOf ps.infixOrPostfix (opF toks y pt) (y.finish toks) a pt := by
  rcases hst with rfl | rfl <;> unfold shuntStep stepOf <;> dsimp only <;>
    rcases ps.infixOrPostfix a pt with ⟨⟨q, _ | _⟩ | ⟨q, e⟩ | _ | _, a', l⟩ <;> rfl

theorem shuntStep_lim (toks : List Token) (ps : ExprParsers) (y : Yard) (a : Amb) (pt : Pt) :
    shuntStep toks ps y .AtomLimitedPostfix a pt = stepOf ps.limitedPostfix (limF toks y pt) (y.finish toks) a pt := by
  unfold shuntStep stepOf
  dsimp only
  rcases ps.limitedPostfix a pt with ⟨⟨q, x⟩ | ⟨q, e⟩ | _ | _, a', l⟩ <;> rfl

/-- What is shown of the loop: it does not go beyond what it reports, and its result is determined by the tokens up to there. -/
def LoopLoc (toks toks' : List Token) (n : Nat) (ps ps' : ExprParsers) (stmt : Bool) (a : Amb) (k : Nat) (y : Yard) (st : EState)
    (pt : Pt) : Prop :=
  (¬ (shuntLoop toks ps (if stmt then adaptStatement else fun _ s => s) k y st a pt).dead →
    pt.off ≤ (shuntLoop toks ps (if stmt then adaptStatement else fun _ s => s) k y st a pt).reach) ∧
  ∀ k', Loc n (shuntLoop toks ps (if stmt then adaptStatement else fun _ s => s) k y st a pt)
    (shuntLoop toks' ps' (if stmt then adaptStatement else fun _ s => s) k' y st a pt)

theorem LoopLoc.turn {α : Type} {p p' : P α} {F F' : Pt → α → Step} {k : Nat} {y : Yard} {st : EState} {p0 pt : Pt}
    (hA : Agree n toks toks')
    (hinf : ∀ {p q op payload}, TableR toks Φ infixTable a p q op payload → p.key < q.key)
    (hp : ParsersOK toks Φ ps) (hf : Fwd toks p) (ht : Tracked toks p) (hl : Local toks n p p')
    (ih : ∀ y st pt, YInv toks Φ stmt a p0 st y pt → Btw toks p0 pt → y.le pt.off → LoopLoc toks toks' n ps ps' stmt a k y st pt)
    (h : YInv toks Φ stmt a p0 st y pt) (hb : Btw toks p0 pt) (hy : y.le pt.off)
    (e : shuntStep toks ps y st a pt = stepOf p F (y.finish toks) a pt)
    (e' : shuntStep toks' ps' y st a pt = stepOf p' F' (y.finish toks') a pt)
    (hF : ∀ q x, pt.off ≤ q.off → ∃ y' st', F q x = .continue y' st' ∧ y'.le q.off ∧ (q.off ≤ n → F' q x = .continue y' st')) :
    LoopLoc toks toks' n ps ps' stmt a (k + 1) y st pt := by
  have hv := hb.right
  have hs := shuntStep_run hinf hp h hb
  have hr := hf a pt hv
  have key : ∀ q x a' l, p a pt = ⟨.ok q x, a', l⟩ → ∃ y' st', F q x = .continue y' st' ∧
      LoopLoc toks toks' n ps ps' stmt a k y' ((if stmt then adaptStatement else fun _ s => s) y' st') q ∧ a' = a ∧
      (q.off ≤ n → F' q x = .continue y' st') := by
    intro q x a' l hpq
    rw [hpq] at hr
    obtain ⟨y', st', h1, h2, h3⟩ := hF q x (Pt.off_le hv hr.2.2.1 hr.2.2.2.1)
    refine ⟨y', st', h1, ?_, hr.1, h3⟩
    rw [e] at hs
    unfold stepOf at hs
    rw [hpq] at hs
    dsimp only at hs
    rw [h1] at hs
    exact ih _ _ _ (hs.2.2.2.2 _ rfl) ⟨hb.left, hr.2.2.1, Nat.le_trans hb.le hr.2.2.2.1⟩ h2
  constructor
  · intro hd
    rw [shuntLoop_turn e] at hd ⊢
    have := turn_reach hv ht (fun q x a' l hpq => by
      obtain ⟨y', st', h1, h2, rfl, -⟩ := key q x a' l hpq
      exact ⟨y', st', h1, h2.1⟩) hd
    exact Nat.le_trans (hr.reach hv this.1) this.2
  · intro k'
    cases k' with
    | zero => exact fun _ h => absurd trivial h
    | succ k' =>
      rw [shuntLoop_turn e, shuntLoop_turn e']
      refine turn_local hv ht hl ?_ ?_
      · intro q x a' l hpq
        obtain ⟨y', st', h1, h2, rfl, h3⟩ := key q x a' l hpq
        exact ⟨y', st', h1, h2.1, fun hq => ⟨h3 hq, h2.2 k'⟩⟩
      · intro q _ _ _ hpq hq
        rw [hpq] at hr
        exact hA.sameEx.finish (hy.mono (Nat.le_trans (Pt.off_le hv hr.2.2.1 hr.2.2.2) hq))

theorem Fwd.setAmbiguityLevel {α : Type} {p : P α} {level : Amb} (h : Fwd toks p) : Fwd toks (P.setAmbiguityLevel level p) :=
  fun _ pt hv => Run.setAmbiguityLevel (h level pt hv)

theorem shuntLoop_local (hA : Agree n toks toks')
    (hinf : ∀ {p q op payload}, TableR toks Φ infixTable a p q op payload → p.key < q.key)
    (hp : ParsersOK toks Φ ps) (hl : PsLocal toks n ps ps') {p0 : Pt} (k : Nat) :
    ∀ y st pt, YInv toks Φ stmt a p0 st y pt → Btw toks p0 pt → y.le pt.off → LoopLoc toks toks' n ps ps' stmt a k y st pt := by
  induction k with
  | zero => intro y st pt _ _ _; exact ⟨fun h => absurd trivial h, fun _ h => absurd trivial h⟩
  | succ k ih =>
    intro y st pt h hb hy
    have add : ∀ {op : OpKind} {st' : EState} {q : Pt}, (∀ x, op.shouldPop x = true) →
        (st = .Postfix ∨ st = .Atom ∨ st = .AtomLimitedPostfix) → pt.off ≤ q.off →
        ∃ y', Step.ofYard st' (y.addOperator toks op pt q) = .continue y' st' ∧ y'.le q.off ∧
          (q.off ≤ n → Step.ofYard st' (y.addOperator toks' op pt q) = .continue y' st') := by
      intro op st' q hop hst hq
      obtain ⟨v, -, -, h6⟩ := h.flush hop hst
      have h7 : ∃ y', y.addOperator toks op pt q = .ok y' := by
        unfold Yard.addOperator
        rw [h6]
        exact ⟨_, rfl⟩
      obtain ⟨y', h7⟩ := h7
      refine ⟨y', by rw [h7]; rfl, Yard.addOperator_le (hy.mono hq) hq (Nat.le_refl _) h7, fun hn => ?_⟩
      rw [hA.sameEx.addOperator (hy.mono (Nat.le_trans hq hn)), h7]
      rfl
    have opcase : (st = .Postfix ∨ st = .Atom) → LoopLoc toks toks' n ps ps' stmt a (k + 1) y st pt := by
      intro hst
      refine .turn hA hinf hp (fun a pt hv => (hp.infixOrPostfix a pt hv).mono fun _ _ _ _ _ => trivial) hl.opT hl.op ih h hb hy
        (shuntStep_op toks ps y a pt hst) (shuntStep_op toks' ps' y a pt hst) ?_
      rintro q (⟨op, payload⟩ | ⟨op, payload⟩) hq
      · obtain ⟨y', h1, h2, h3⟩ := add (st' := .Infix op.isRange) (shouldPop_inf op payload) (by grind) hq
        exact ⟨y', _, h1, h2, h3⟩
      · obtain ⟨y', h1, h2, h3⟩ := add (st' := .Postfix) (shouldPop_post op payload) (by grind) hq
        exact ⟨y', _, h1, h2, h3⟩
    have atomcase : (st = .Prefix ∨ ∃ w, st = .Infix w) → LoopLoc toks toks' n ps ps' stmt a (k + 1) y st pt := by
      intro hst
      have f : Fwd toks ps.prefixOrAtom := fun a pt hv => (hp.prefixOrAtom a pt hv).mono fun _ _ _ _ _ => trivial
      have h1 : Fwd toks (atomP ps a st) ∧ Tracked toks (atomP ps a st) ∧ Local toks n (atomP ps a st) (atomP ps' a st) := by
        rcases atomP_cases a st with h | h <;> rw [h, h]
        · exact ⟨f.setAmbiguityLevel, hl.atomT.setAmbiguityLevel, hl.atom.setAmbiguityLevel⟩
        · exact ⟨f, hl.atomT, hl.atom⟩
      refine .turn hA hinf hp h1.1 h1.2.1 h1.2.2 ih h hb hy (shuntStep_atom toks ps y a pt hst) (shuntStep_atom toks' ps' y a pt hst) ?_
      rintro q (⟨e, attrs, op, payload⟩ | v) hq
      · refine ⟨⟨⟨.pre e attrs op payload, pt, q⟩ :: y.operators, y.result⟩, .Prefix,
          by simp only [atomF, addOperator_pre, Step.ofYard], ?_, fun _ => by simp only [atomF, addOperator_pre, Step.ofYard]⟩
        refine ⟨?_, (hy.mono hq).2⟩
        intro c hc
        simp at hc
        rcases hc with rfl | hc
        · exact ⟨hq, Nat.le_refl _⟩
        · exact (hy.mono hq).1 _ hc
      · refine ⟨_, .Atom, rfl, ?_, fun _ => rfl⟩
        refine ⟨(hy.mono hq).1, ?_⟩
        intro c hc
        simp [Yard.addExpression] at hc
        rcases hc with rfl | hc
        · exact ⟨hq, Nat.le_refl _⟩
        · exact (hy.mono hq).2 _ hc
    cases st with
    | Prefix => exact atomcase (.inl rfl)
    | Infix w => exact atomcase (.inr ⟨w, rfl⟩)
    | Postfix => exact opcase (.inl rfl)
    | Atom => exact opcase (.inr rfl)
    | AtomLimitedPostfix =>
      refine .turn hA hinf hp (fun a pt hv => (hp.limitedPostfix a pt hv).mono fun _ _ _ _ _ => trivial) hl.limT hl.lim ih h hb hy
        (shuntStep_lim toks ps y a pt) (shuntStep_lim toks' ps' y a pt) ?_
      rintro q ⟨op, payload⟩ hq
      obtain ⟨y', h1, h2, h3⟩ := add (st' := .Postfix) (shouldPop_post op payload) (by grind) hq
      exact ⟨y', _, h1, h2, h3⟩

end

/-! ## The parser -/

section
variable {toks toks' : List Token} {n : Nat} {Φ : NT → Rel} {rec rec' : NT → P (List V)}

theorem tableP_fwd {α : Type} (ht : EofLast toks) (hr : RecOK toks Φ rec) {t : (α × G) × List (α × G)}
    (hw : ∀ x ∈ t.1 :: t.2, x.2.wf = true) : Fwd toks (tableP toks rec t) :=
  fun a pt hv => (tableP_run ht hr t hw a pt hv).mono fun _ _ _ _ _ => trivial

theorem tableP_concat {α : Type} (x y : α × G) (l : List (α × G)) :
    tableP toks rec (x, l ++ [y]) = (tableP toks rec (x, l)).orElse ((evalG toks rec y.2).map fun vs => (y.1, vs)) := by
  simp [tableP]

theorem tableP_local {α : Type} (ht : EofLast toks) (hA : Agree n toks toks') (hr : RecOK toks Φ rec) (hT : RecTracked toks rec)
    (hL : ∀ nt, Local toks n (rec nt) (rec' nt)) {x : α × G} {l : List (α × G)} (hw : ∀ y ∈ x :: l, y.2.wf = true)
    (hl : ∀ y ∈ x :: l, y.2.local = true) : Local toks n (tableP toks rec (x, l)) (tableP toks' rec' (x, l)) := by
  obtain ⟨k, hk⟩ : ∃ k, k = l.length := ⟨_, rfl⟩
  induction k generalizing l with
  | zero =>
    have : l = [] := List.eq_nil_of_length_eq_zero hk.symm
    subst this
    exact .map (evalG_local ht hA hr hT hL _ (hw x (by simp)) (hl x (by simp)))
  | succ k ih =>
    obtain ⟨l', y, rfl⟩ : ∃ l' y, l = l' ++ [y] :=
      ⟨l.dropLast, l.getLast (by intro h; simp [h] at hk), (List.dropLast_concat_getLast _).symm⟩
    rw [tableP_concat, tableP_concat]
    have hw' : ∀ z ∈ x :: l', z.2.wf = true := fun z hz => hw z (by simp at hz ⊢; grind)
    have hl' : ∀ z ∈ x :: l', z.2.local = true := fun z hz => hl z (by simp at hz ⊢; grind)
    exact .orElse (ih hw' hl' (by simpa using hk)) (tableP_fwd ht hr hw')
      (.map (evalG_local ht hA hr hT hL _ (hw y (by simp)) (hl y (by simp))))

theorem tableP_tracked {α : Type} (ht : EofLast toks) (hr : RecOK toks Φ rec) {x y : α × G} {l : List (α × G)}
    (hw : ∀ z ∈ x :: l, z.2.wf = true) (hy : y.2.early = true) : Tracked toks (tableP toks rec (x, l ++ [y])) := by
  rw [tableP_concat]
  exact .orElse (tableP_fwd ht hr hw) (.inr (.map _ (evalG_here hr.early _ hy)))

theorem attributedP_local {α : Type} (hA : Agree n toks toks') (hr : RecOK toks Φ rec)
    (hL : ∀ nt, Local toks n (rec nt) (rec' nt)) {p p' : P α} (hf : Fwd toks p) (hl : Local toks n p p') :
    Local toks n (attributedP toks rec p) (attributedP toks' rec' p') := by
  have h1 : Fwd toks (P.zeroOrMore (rec .attribute) (loopFuel toks)) :=
    Fwd.zeroOrMore (fun a pt hv => (hr.run .attribute a pt hv).mono fun _ _ _ _ _ => trivial) _
  refine .spanned hA ?_ (.bind (.zeroOrMore (hL .attribute) (fun a pt hv => (hr.run .attribute a pt hv).mono fun _ _ _ _ _ => trivial) _ _)
    h1 (fun _ => hf.map) fun _ => .map hl)
  intro a pt hv
  exact Run.bind ((h1 a pt hv).mono fun q _ hq _ _ => hf.map a q hq)

theorem attributedP_tracked {α : Type} (hr : RecOK toks Φ rec) {p : P α} (ht : Tracked toks p) :
    Tracked toks (attributedP toks rec p) := by
  have h1 : Fwd toks (P.zeroOrMore (rec .attribute) (loopFuel toks)) :=
    Fwd.zeroOrMore (fun a pt hv => (hr.run .attribute a pt hv).mono fun _ _ _ _ _ => trivial) _
  exact .spanned (.bind (.never (.zeroOrMore _ _)) h1 fun _ => .map ht)

theorem attributedP_fwd {α : Type} (hr : RecOK toks Φ rec) {p : P α} (hf : Fwd toks p) : Fwd toks (attributedP toks rec p) :=
  fun a pt hv => (attributedP_run hr (R := fun _ _ _ => True) (fun pt hv => hf a pt hv) pt hv).mono fun _ _ _ _ _ => trivial

theorem prefixTable_local : ∀ x ∈ prefixTable.1 :: prefixTable.2, x.2.local = true := by decide +kernel
theorem infixTable_local : ∀ x ∈ infixTable.1 :: infixTable.2, x.2.local = true := by decide +kernel
theorem postfixTable_local : ∀ x ∈ postfixTable.1 :: postfixTable.2, x.2.local = true := by decide +kernel
theorem limitedTable_local : ∀ x ∈ limitedTable.1 :: limitedTable.2, x.2.local = true := by decide +kernel

theorem postfixTable_tracked (ht : EofLast toks) (hr : RecOK toks Φ rec) : Tracked toks (tableP toks rec postfixTable) := by
  have e : postfixTable = (postfixTable.1, postfixTable.2.dropLast ++ [(.Try, .d .QuestionMark)]) := rfl
  rw [e]
  exact tableP_tracked ht hr (by decide +kernel) rfl

theorem limitedTable_tracked (ht : EofLast toks) (hr : RecOK toks Φ rec) : Tracked toks (tableP toks rec limitedTable) := by
  have e : limitedTable = (limitedTable.1, [] ++ [(.Try, .d .QuestionMark)]) := rfl
  rw [e]
  exact tableP_tracked ht hr (by decide +kernel) rfl

attribute [local irreducible] tableP attributedP

theorem exprParsers_local (ht : EofLast toks) (hA : Agree n toks toks') (hr : RecOK toks Φ rec) (hT : RecTracked toks rec)
    (hL : ∀ nt, Local toks n (rec nt) (rec' nt)) : PsLocal toks n (exprParsers toks rec) (exprParsers toks' rec') where
  atom := .orElse (.map (attributedP_local hA hr hL (tableP_fwd ht hr prefixTable_wf)
      (tableP_local ht hA hr hT hL prefixTable_wf prefixTable_local)))
    (attributedP_fwd hr (tableP_fwd ht hr prefixTable_wf)).map
    (.map (attributedP_local hA hr hL (fun a pt hv => (hr.run .expression_atom a pt hv).mono fun _ _ _ _ _ => trivial)
      (hL .expression_atom)))
  op := .orElse (.map (tableP_local ht hA hr hT hL infixTable_wf infixTable_local)) (tableP_fwd ht hr infixTable_wf).map
    (.map (tableP_local ht hA hr hT hL postfixTable_wf postfixTable_local))
  lim := tableP_local ht hA hr hT hL limitedTable_wf limitedTable_local
  atomT := .orElse (attributedP_fwd hr (tableP_fwd ht hr prefixTable_wf)).map
    (.inl (.map (attributedP_tracked hr (hT .expression_atom rfl))))
  opT := .orElse (tableP_fwd ht hr infixTable_wf).map (.inl (.map (postfixTable_tracked ht hr)))
  limT := limitedTable_tracked ht hr

theorem eval_tracked (ht : EofLast toks) (m : Nat) : RecTracked toks (eval toks m) := by
  induction m with
  | zero => intro nt _ a pt _ q e a' l h; simp [eval] at h
  | succ m ih =>
    intro nt h
    have h1 := rules_tracked nt
    have h2 := rules_wf nt
    unfold eval evalRule
    split
    · rename_i g hg
      rw [hg] at h1 h2
      simp [h] at h1
      exact evalG_tracked ht (eval_consumes ht m) ih g h2 h1.1
    · rename_i hg; rw [hg] at h1; simp [h] at h1

theorem eval_local (ht : EofLast toks) (hA : Agree n toks toks') (m : Nat) :
    ∀ m' nt, Local toks n (eval toks m nt) (eval toks' m' nt) := by
  induction m with
  | zero => intro m' nt a pt hv h; exact absurd trivial h
  | succ m ih =>
    intro m' nt
    cases m' with
    | zero => intro a pt hv _ h; exact absurd trivial h
    | succ m' =>
      have hrec := eval_consumes ht m
      have h1 := rules_tracked nt
      have h2 := rules_wf nt
      unfold eval
      generalize rules nt = r at h1 h2
      cases r with
      | g x =>
        simp at h1
        exact evalG_local ht hA hrec (eval_tracked ht m) (ih m') x h2 h1.2
      | expr stmt =>
        refine .map ?_
        intro a pt hv
        exact (shuntLoop_local hA (fun h => TableR.lt (fun _ _ _ _ _ h => h.1) infixTable_null h) (exprParsers_ok ht hrec)
          (exprParsers_local ht hA hrec (eval_tracked ht m) (ih m')) (loopFuel toks) {} .Prefix pt (.pre .nil) (.refl hv)
          ⟨by simp, by simp⟩).2 (loopFuel toks')

theorem parseItem_local (ht : EofLast toks) (hA : Agree n toks toks') : Local toks n (parseItem toks) (parseItem toks') :=
  evalG_local ht hA (eval_consumes ht _) (eval_tracked ht _) (eval_local ht hA _ _) itemG itemG_wf (by decide +kernel)

end

/-! ## The loop over the items -/

section
variable {toks toks' : List Token} {n : Nat}

theorem PFailures.addAll_reach {l : Log} : ∀ {f : PFailures}, ValidPt toks f.point → (∀ x ∈ l, ValidPt toks x.1) →
    f.point.off ≤ (f.addAll l).point.off ∧ Log.reach l ≤ (f.addAll l).point.off := by
  induction l with
  | nil => intro f _ _; exact ⟨Nat.le_refl _, Nat.zero_le _⟩
  | cons x l ih =>
    intro f hf hl
    have hx := hl x (by simp)
    have h1 := PFailures.add_spec (e := x.2) hf hx
    have h2 := (FailsOK.add ⟨hf⟩ (e := x.2) hx).valid
    have h3 := ih h2 (fun y hy => hl y (by simp [hy]))
    have h4 := Pt.off_le hx h2 h1.1
    have h5 := Pt.off_le hf h2 h1.2.1
    simp only [PFailures.addAll, Log.reach_cons]
    omega

/-- When failures are kept, nothing before was looked at beyond the error reported. -/
theorem parseItems_reach (ht : EofLast toks) {loc : Nat} {errs : List PErr}
    (hle : ∀ i t, toks[i]? = some t → t.extent.s = loc → i ≤ n) (k : Nat) :
    ∀ f a pt items, ValidPt toks pt → ValidPt toks f.point → parseItems toks false k f a pt items = .err loc errs →
      f.point.off ≤ n ∧ pt.off ≤ n ∧ (parseItem toks a pt).reach ≤ n ∧ ¬ (parseItem toks a pt).dead := by
  induction k with
  | zero => intro f a pt items _ _ h; simp [parseItems] at h
  | succ k ih =>
    intro f a pt items hv hf h
    unfold parseItems at h
    split at h
    · simp at h
    · split at h
      · simp at h
      · have hr := evalG_run ht (eval_consumes ht (evalFuel toks)) itemG itemG_wf a pt hv
        change Run toks (parseItem toks a pt) _ _ _ at hr
        split at h
        · rename_i q vs a' l hp
          rw [hp] at hr ⊢
          have hlog : ∀ x ∈ l, ValidPt toks x.1 := fun x hx => (hr.2.1 x hx).1
          split at h
          · have h2 := PFailures.addAll_reach hf hlog
            have h1 := ih _ a' q _ hr.2.2.1 ((FailsOK.mk hf).addAll hlog).valid h
            have := Pt.off_le hv hr.2.2.1 hr.2.2.2.1
            simp
            omega
          · simp at h
        · rename_i q e a' l hp
          rw [hp] at hr ⊢
          dsimp only at h
          have hlog : ∀ x ∈ l, ValidPt toks x.1 := fun x hx => (hr.2.1 x hx).1
          have h5 := ((FailsOK.mk hf).addAll hlog)
          have h2 := PFailures.addAll_reach hf hlog
          have h6 := (h5.add (e := e) hr.2.2.1).valid
          have h7 := PFailures.add_spec (e := e) h5.valid hr.2.2.1
          have h8 := Pt.off_le hr.2.2.1 h6 h7.1
          have h9 := Pt.off_le h5.valid h6 h7.2.1
          have := Pt.off_le hv hr.2.2.1 hr.2.2.2
          split at h
          · rename_i t' ht'
            simp at h
            have := hle _ _ ht' h.1
            simp
            omega
          · simp at h
        · simp at h
        · simp at h

/-- The rest of the tokens does not matter. -/
theorem parseItems_local (ht : EofLast toks) (ht' : EofLast toks') (hA : Agree n toks toks') {loc : Nat} {errs0 errs : List PErr}
    {clear : Bool} (hle : ∀ i t, toks[i]? = some t → t.extent.s = loc → i ≤ n) (k : Nat) :
    ∀ k' f0 f pt items0 items, ValidPt toks pt → ValidPt toks f0.point → ValidPt toks f.point → toks'.length < k' + pt.off →
      parseItems toks false k f0 .Unambiguous pt items0 = .err loc errs0 →
      parseItems toks clear k f .Unambiguous pt items = .err loc errs →
      parseItems toks' clear k' f .Unambiguous pt items = .err loc errs := by
  induction k with
  | zero => intro k' f0 f pt items0 items _ _ _ _ h; simp [parseItems] at h
  | succ k ih =>
    intro k' f0 f pt items0 items hv hf0 hf hk h0 h
    have h1 := parseItems_reach ht hle _ _ _ _ _ hv hf0 h0
    have hv' : ValidPt toks' pt := by
      obtain ⟨t, h2, h3⟩ := hv
      exact ⟨t, by rw [hA _ h1.2.1]; exact h2, h3⟩
    have h2 : parseItem toks' .Unambiguous pt = parseItem toks .Unambiguous pt := by
      refine parseItem_local ht hA _ _ hv h1.2.2.2 ?_ h1.2.2.1
      have hr := evalG_run ht' (eval_consumes ht' (evalFuel toks')) itemG itemG_wf .Unambiguous pt hv'
      change Run toks' (parseItem toks' .Unambiguous pt) _ _ _ at hr
      have hh := parseItem_noHang ht' .Unambiguous pt hv'
      generalize parseItem toks' .Unambiguous pt = r at hr hh
      rcases r with ⟨_ | _ | _ | _, _, _⟩
      · simp
      · simp
      · exact absurd hr.2.2 id
      · exact absurd hh id
    cases k' with
    | zero => have := hv'.off_lt; omega
    | succ k' =>
      have hr := evalG_run ht (eval_consumes ht (evalFuel toks)) itemG itemG_wf .Unambiguous pt hv
      change Run toks (parseItem toks .Unambiguous pt) _ _ _ at hr
      unfold parseItems at h0 h ⊢
      rw [hA _ h1.2.1, h2]
      obtain ⟨t, h3, -⟩ := id hv
      rw [h3] at h0 h ⊢
      dsimp only at h0 h ⊢
      split at h
      · simp at h
      · rename_i h4
        rw [if_neg h4] at h0 ⊢
        rcases hp : parseItem toks .Unambiguous pt with ⟨⟨q, vs⟩ | ⟨q, e⟩ | _ | _, a', l⟩ <;> rw [hp] at h h0 hr <;> dsimp only at h h0 ⊢
        · split at h
          · rename_i h5
            rw [if_pos h5] at h0 ⊢
            have h6 : a' = .Unambiguous := hr.1
            subst h6
            refine ih _ _ _ q _ _ hr.2.2.1 ((FailsOK.mk hf0).addAll (fun x hx => (hr.2.1 x hx).1)).valid ?_ (by omega) h0 h
            split
            · exact ValidPt.of_none ht.pos
            · exact ((FailsOK.mk hf).addAll (fun x hx => (hr.2.1 x hx).1)).valid
          · simp at h
        · have h5 : (((f.addAll l).add q e).point).off ≤ n := by
            split at h
            · rename_i t' ht'
              simp at h
              exact hle _ _ ht' h.1
            · simp at h
          rw [hA _ h5]
          exact h
        · simp at h
        · simp at h

/-- The rest of the tokens does not matter. -/
theorem parseTokens_local (ht : EofLast toks) (ht' : EofLast toks') (hA : Agree n toks toks') {loc : Nat} {errs0 errs : List PErr}
    {clear : Bool} (hle : ∀ i t, toks[i]? = some t → t.extent.s = loc → i ≤ n)
    (h0 : parseTokens toks false = .err loc errs0) (h : parseTokens toks clear = .err loc errs) :
    parseTokens toks' clear = .err loc errs :=
  parseItems_local ht ht' hA hle _ _ _ _ _ _ _ (ValidPt.of_none ht.pos) (ValidPt.of_none ht.pos) (ValidPt.of_none ht.pos)
    (by simp [Pt.zero]) h0 h

end

end Verif
