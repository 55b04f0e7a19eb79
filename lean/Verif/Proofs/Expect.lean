import Verif.Proofs.Local
/-!
# What is said to be expected

Two lists of tokens that are the same before the `n`-th, and what happens if on neither of them a parser looks at a token after the
`n`-th: the results are the same, and no failure at the `n`-th token says that a token was expected of the kind the second list has
there.  For a parser that expects this token would have read it, and so would have gone further.
-/

namespace Verif

section
variable {α β : Type}

/-- No failure at the `n`-th token is `e0`. -/
def CleanLog (n : Nat) (e0 : PErr) (l : Log) : Prop := ∀ x ∈ l, x.1.off = n → x.2 ≠ e0

/-- Neither a failure recovered from nor the one returned is `e0` at the `n`-th token. -/
def Res.clean (n : Nat) (e0 : PErr) (r : Res α) : Prop :=
  CleanLog n e0 r.log ∧ ∀ q e, r.out = .fail q e → q.off = n → e ≠ e0

variable {n : Nat} {e0 : PErr}

@[simp] theorem cleanLog_nil : CleanLog n e0 [] := by simp [CleanLog]
@[simp] theorem cleanLog_cons {x : Pt × PErr} {l : Log} : CleanLog n e0 (x :: l) ↔ (x.1.off = n → x.2 ≠ e0) ∧ CleanLog n e0 l := by
  simp [CleanLog]
@[simp] theorem cleanLog_append {l l' : Log} : CleanLog n e0 (l ++ l') ↔ CleanLog n e0 l ∧ CleanLog n e0 l' := by
  simp only [CleanLog, List.mem_append]
  grind
@[simp] theorem clean_ok {p : Pt} {v : α} {a : Amb} {l : Log} : (⟨.ok p v, a, l⟩ : Res α).clean n e0 ↔ CleanLog n e0 l := by
  simp [Res.clean]
@[simp] theorem clean_fail {p : Pt} {e : PErr} {a : Amb} {l : Log} :
    (⟨.fail p e, a, l⟩ : Res α).clean n e0 ↔ CleanLog n e0 l ∧ (p.off = n → e ≠ e0) := by
  simp [Res.clean]
@[simp] theorem clean_panic {a : Amb} {l : Log} : (⟨.panic, a, l⟩ : Res α).clean n e0 ↔ CleanLog n e0 l := by simp [Res.clean]
@[simp] theorem clean_hang {a : Amb} {l : Log} : (⟨.hang, a, l⟩ : Res α).clean n e0 ↔ CleanLog n e0 l := by simp [Res.clean]

/-- If both return, having looked at no token after the `n`-th, the results are the same and clean. -/
def Exp (n : Nat) (e0 : PErr) (r r' : Res α) : Prop :=
  ¬ r.dead → ¬ r'.dead → r.reach ≤ n → r'.reach ≤ n → r' = r ∧ r.clean n e0

/-- The second result comes from the first one, going as least as far. -/
def Sub (r : Res α) (s : Res β) : Prop := ¬ s.dead → ¬ r.dead ∧ r.reach ≤ s.reach

theorem Exp.same {r : Res α} (h : r.clean n e0) : Exp n e0 r r := fun _ _ _ _ => ⟨rfl, h⟩

theorem Exp.step {r r' : Res α} {s s' : Res β} (h : Exp n e0 r r') (h1 : Sub r s) (h2 : Sub r' s')
    (h3 : r' = r → r.clean n e0 → ¬ r.dead → r.reach ≤ n → Exp n e0 s s') : Exp n e0 s s' := by
  intro a b c d
  have a' := h1 a
  have b' := h2 b
  have hr := h a'.1 b'.1 (Nat.le_trans a'.2 c) (Nat.le_trans b'.2 d)
  exact h3 hr.1 hr.2 a'.1 (Nat.le_trans a'.2 c) a b c d

/-- A result after failures recovered from. -/
def Res.after (l : Log) (r : Res α) : Res α := ⟨r.out, r.amb, l ++ r.log⟩

@[simp] theorem after_dead {l : Log} {r : Res α} : (r.after l).dead = r.dead := rfl

theorem after_reach {l : Log} {r : Res α} : (r.after l).reach = max l.reach r.reach := by
  rcases r with ⟨_ | _ | _ | _, a, l'⟩ <;> simp [Res.after, Res.reach] <;> omega

theorem after_clean {l : Log} {r : Res α} (h : CleanLog n e0 l) (h' : r.clean n e0) : (r.after l).clean n e0 := by
  exact ⟨by simp [Res.after, h, h'.1], h'.2⟩

theorem Sub.after {l : Log} {r : Res α} : Sub r (r.after l) := by
  intro h
  rw [after_reach]
  exact ⟨by simpa using h, by omega⟩

theorem Exp.after {l : Log} {r r' : Res α} (h : Exp n e0 r r') (hl : CleanLog n e0 l) : Exp n e0 (r.after l) (r'.after l) :=
  h.step .after .after fun he hc _ _ => by rw [he]; exact .same (after_clean hl hc)

end

/-- The same for two parsers. -/
def Two {α : Type} (toks toks' : List Token) (n : Nat) (e0 : PErr) (p p' : P α) : Prop :=
  ∀ a pt, ValidPt toks pt → ValidPt toks' pt → Exp n e0 (p a pt) (p' a pt)

section
variable {α β : Type} {toks : List Token}

theorem bind_eq (p : P α) (f : α → P β) (a : Amb) (pt : Pt) : p.bind f a pt =
    match p a pt with
    | ⟨.ok q v, a', l⟩ => (f v a' q).after l
    | ⟨.fail q e, a', l⟩ => ⟨.fail q e, a', l⟩
    | ⟨.panic, a', l⟩ => ⟨.panic, a', l⟩
    | ⟨.hang, a', l⟩ => ⟨.hang, a', l⟩ := by
  unfold P.bind
  generalize p a pt = r at *
  rcases r with ⟨_ | _ | _ | _, a', l⟩ <;> rfl

theorem Sub.bind' {p : P α} {f : α → P β} {a : Amb} {pt : Pt} (hv : ValidPt toks pt) (hp : Fwd toks p)
    (hf : ∀ v a q, ValidPt toks q → ¬ (f v a q).dead → q.off ≤ (f v a q).reach) : Sub (p a pt) (p.bind f a pt) := by
  have hr := hp a pt hv
  rw [bind_eq]
  generalize p a pt = r at *
  rcases r with ⟨⟨q, v⟩ | ⟨q, e⟩ | _ | _, a', l⟩
  · intro hd
    have := hf v a' q hr.2.2.1 (by simpa using hd)
    simp [after_reach]
    omega
  · exact fun _ => ⟨by simp, Nat.le_refl _⟩
  · intro h; simp at h
  · intro h; simp at h

theorem Sub.map {p : P α} {f : α → β} {a : Amb} {pt : Pt} : Sub (p a pt) (p.map f a pt) := by
  unfold P.map Sub
  generalize p a pt = r at *
  rcases r with ⟨_ | _ | _ | _, a', l⟩ <;> simp

theorem Sub.mapErr {p : P α} {e : PErr} {a : Amb} {pt : Pt} : Sub (p a pt) (p.mapErr e a pt) := by
  unfold P.mapErr Sub
  generalize p a pt = r at *
  rcases r with ⟨_ | _ | _ | _, a', l⟩ <;> simp

theorem orElse_eq (p q : P α) (a : Amb) (pt : Pt) : p.orElse q a pt =
    match p a pt with
    | ⟨.fail q0 e, a', l⟩ => ⟨(q a' pt).out, (q a' pt).amb, l ++ (q a' pt).log ++ [(q0, e)]⟩
    | r => r := by
  unfold P.orElse
  generalize p a pt = r at *
  rcases r with ⟨_ | _ | _ | _, a', l⟩ <;> rfl

theorem Sub.orElse {p q : P α} {a : Amb} {pt : Pt} : Sub (p a pt) (p.orElse q a pt) := by
  unfold Sub
  rw [orElse_eq]
  generalize p a pt = r at *
  rcases r with ⟨_ | ⟨q0, e⟩ | _ | _, a', l⟩ <;> simp
  rcases q a' pt with ⟨_ | _ | _ | _, a'', l'⟩ <;> simp <;> omega

theorem Sub.optional {p : P α} {a : Amb} {pt : Pt} : Sub (p a pt) (p.optional a pt) := by
  unfold P.optional Sub
  generalize p a pt = r at *
  rcases r with ⟨_ | _ | _ | _, a', l⟩ <;> simp <;> omega

theorem Sub.setAmbiguityLevel {p : P α} {level : Amb} {a : Amb} {pt : Pt} : Sub (p level pt) (P.setAmbiguityLevel level p a pt) := by
  unfold P.setAmbiguityLevel Sub
  generalize p level pt = r at *
  rcases r with ⟨_ | _ | _ | _, a', l⟩ <;> simp

/-- One turn of `zero_or_more`, and the rest. -/
theorem zeroOrMore_eq (p : P α) (m : Nat) (a : Amb) (pt : Pt) : P.zeroOrMore p (m + 1) a pt =
    match p a pt with
    | ⟨.ok q v, a', l⟩ => ((P.zeroOrMore p m).map (v :: ·) a' q).after l
    | ⟨.fail q e, a', l⟩ => ⟨.ok pt [], a', l ++ [(q, e)]⟩
    | ⟨.panic, a', l⟩ => ⟨.panic, a', l⟩
    | ⟨.hang, a', l⟩ => ⟨.hang, a', l⟩ := by
  rw [P.zeroOrMore]
  dsimp only
  generalize p a pt = r
  rcases r with ⟨⟨q, v⟩ | _ | _ | _, a', l⟩ <;> try rfl
  unfold P.map
  dsimp only
  rcases P.zeroOrMore p m a' q with ⟨_ | _ | _ | _, a'', l'⟩ <;> rfl

theorem Sub.zeroOrMore {p : P α} {m : Nat} {a : Amb} {pt : Pt} (hv : ValidPt toks pt) (hp : Fwd toks p) :
    Sub (p a pt) (P.zeroOrMore p (m + 1) a pt) := by
  have hr := hp a pt hv
  rw [zeroOrMore_eq]
  generalize p a pt = r at *
  rcases r with ⟨⟨q, v⟩ | ⟨q, e⟩ | _ | _, a', l⟩
  · intro hd
    have := ((hp.zeroOrMore m).map (f := (v :: ·)) a' q hr.2.2.1).reach hr.2.2.1 (by simpa using hd)
    simp [after_reach]
    omega
  · intro _; simp; omega
  · intro h; simp at h
  · intro h; simp at h

/-- `parse_tailed` of a separator. -/
def sepOpt (sep : P β) : P Bool := fun a pt =>
  match sep a pt with
  | ⟨.ok q _, a', l⟩ => ⟨.ok q true, a', l⟩
  | ⟨.fail q _, a', l⟩ => ⟨.ok q false, a', l⟩
  | ⟨.panic, a', l⟩ => ⟨.panic, a', l⟩
  | ⟨.hang, a', l⟩ => ⟨.hang, a', l⟩

theorem Fwd.sepOpt {sep : P β} (h : Fwd toks sep) : Fwd toks (sepOpt sep) := by
  intro a pt hv
  have hr := h a pt hv
  unfold Verif.sepOpt
  generalize sep a pt = r at *
  rcases r with ⟨⟨q, v⟩ | ⟨q, e⟩ | _ | _, a', l⟩
  · exact ⟨hr.1, hr.2.1, hr.2.2.1, hr.2.2.2.1, trivial⟩
  · exact ⟨hr.1, hr.2.1, hr.2.2.1, hr.2.2.2, trivial⟩
  · exact ⟨hr.1, hr.2.1, hr.2.2⟩
  · exact ⟨hr.1, hr.2.1, hr.2.2⟩

theorem Sub.sepOpt {sep : P β} {a : Amb} {pt : Pt} : Sub (sep a pt) (sepOpt sep a pt) := by
  unfold Verif.sepOpt Sub
  generalize sep a pt = r at *
  rcases r with ⟨_ | _ | _ | _, a', l⟩ <;> simp

theorem parseTailed_eq (sep : P β) (f : P α) (a : Amb) (pt : Pt) : P.parseTailed sep f a pt =
    match f a pt with
    | ⟨.ok q v, a', l⟩ => ((sepOpt sep).map (fun b => if b then .valueAndSeparator v else .valueOnly v) a' q).after l
    | ⟨.fail q e, a', l⟩ => ⟨.ok q (.nothing e), a', l⟩
    | ⟨.panic, a', l⟩ => ⟨.panic, a', l⟩
    | ⟨.hang, a', l⟩ => ⟨.hang, a', l⟩ := by
  unfold P.parseTailed
  generalize f a pt = r at *
  rcases r with ⟨⟨q, v⟩ | _ | _ | _, a', l⟩ <;> try rfl
  unfold P.map sepOpt
  dsimp only
  rcases sep a' q with ⟨_ | _ | _ | _, a'', l'⟩ <;> rfl

theorem Sub.parseTailed {sep : P β} {f : P α} {a : Amb} {pt : Pt} (hv : ValidPt toks pt) (hs : Fwd toks sep) (hf : Fwd toks f) :
    Sub (f a pt) (P.parseTailed sep f a pt) := by
  have hr := hf a pt hv
  rw [parseTailed_eq]
  generalize f a pt = r at *
  rcases r with ⟨⟨q, v⟩ | ⟨q, e⟩ | _ | _, a', l⟩
  · intro hd
    have := (hs.sepOpt.map a' q hr.2.2.1).reach hr.2.2.1 (by simpa using hd)
    simp [after_reach]
    omega
  · intro _; simp
  · intro h; simp at h
  · intro h; simp at h

theorem oneOrMoreTailed_eq (sep : P β) (f : P α) (m : Nat) : P.oneOrMoreTailed sep f m =
    f.bind fun v => (sepOpt sep).bind fun b =>
      if b then P.zeroOrMoreTailedAppend sep f m { values := [v], separatorCount := 1 } else .pure { values := [v] } := by
  funext a pt
  unfold P.oneOrMoreTailed P.bind P.parseTailed sepOpt
  generalize f a pt = r at *
  rcases r with ⟨⟨q, v⟩ | _ | _ | _, a', l⟩
  · dsimp only
    rcases sep a' q with ⟨⟨q', v'⟩ | _ | _ | _, a'', l'⟩
    · simp
    · simp [P.pure]
    · rfl
    · rfl
  · simp [P.failure]
  · rfl
  · rfl

theorem Sub.resume {sep : P β} {f : P α} {m : Nat} {a : Amb} {pt : Pt} (hv : ValidPt toks pt) (hs : Fwd toks sep) (hf : Fwd toks f)
    (ht : Tracked toks f) : Sub (sep a pt) (P.zeroOrMoreTailedValuesResume sep f m a pt) := by
  have hr := hs a pt hv
  unfold P.zeroOrMoreTailedValuesResume
  generalize sep a pt = r at *
  rcases r with ⟨⟨q, v⟩ | ⟨q0, e⟩ | _ | _, a', l⟩
  · have h1 := hs.oneOrMoreTailed hf m a' q hr.2.2.1
    have h2 := ht.oneOrMoreTailed (sep := sep) m a' q hr.2.2.1
    dsimp only
    rcases hz : P.oneOrMoreTailed sep f m a' q with ⟨⟨q', v'⟩ | ⟨q', e'⟩ | _ | _, a'', l'⟩ <;> rw [hz] at h1 h2 <;> intro hd <;> simp at hd ⊢
    · have := Pt.off_le hr.2.2.1 h1.2.2.1 h1.2.2.2.1; omega
    · have := Pt.off_le hr.2.2.1 h1.2.2.1 h1.2.2.2
      have := h2 _ _ _ _ rfl
      omega
  · intro _; simp
  · intro h; simp at h
  · intro h; simp at h

end

namespace Two
variable {α β : Type} {toks toks' : List Token} {n : Nat} {e0 : PErr}

theorem refl {p : P α} (h : ∀ a pt, (p a pt).clean n e0) : Two toks toks' n e0 p p := fun a pt _ _ => .same (h a pt)

theorem pure {v : α} : Two toks toks' n e0 (P.pure v) (P.pure v) := refl fun _ _ => by simp [P.pure]

theorem bind' {p p' : P α} {f f' : α → P β} (h : Two toks toks' n e0 p p') (hp : Fwd toks p) (hp' : Fwd toks' p')
    (hf : ∀ v a q, ValidPt toks q → ¬ (f v a q).dead → q.off ≤ (f v a q).reach)
    (hf' : ∀ v a q, ValidPt toks' q → ¬ (f' v a q).dead → q.off ≤ (f' v a q).reach)
    (hl : ∀ v, Two toks toks' n e0 (f v) (f' v)) : Two toks toks' n e0 (p.bind f) (p'.bind f') := by
  intro a pt hv hv'
  refine (h a pt hv hv').step (Sub.bind' hv hp hf) (Sub.bind' hv' hp' hf') ?_
  intro he hc _ _
  have hr := hp a pt hv
  have hr' := hp' a pt hv'
  rw [bind_eq, bind_eq, he]
  rw [he] at hr'
  generalize p a pt = r at *
  rcases r with ⟨⟨q, v⟩ | ⟨q, e⟩ | _ | _, a', l⟩
  · exact (hl v a' q hr.2.2.1 hr'.2.2.1).after (by simpa using hc)
  · exact .same (by simpa using hc)
  · exact .same (by simpa using hc)
  · exact .same (by simpa using hc)

theorem bind {p p' : P α} {f f' : α → P β} (h : Two toks toks' n e0 p p') (hp : Fwd toks p) (hp' : Fwd toks' p')
    (hf : ∀ v, Fwd toks (f v)) (hf' : ∀ v, Fwd toks' (f' v))
    (hl : ∀ v, Two toks toks' n e0 (f v) (f' v)) : Two toks toks' n e0 (p.bind f) (p'.bind f') :=
  bind' h hp hp' (fun v a q hq => (hf v a q hq).reach hq) (fun v a q hq => (hf' v a q hq).reach hq) hl

theorem map {p p' : P α} {f : α → β} (h : Two toks toks' n e0 p p') : Two toks toks' n e0 (p.map f) (p'.map f) := by
  intro a pt hv hv'
  refine (h a pt hv hv').step .map .map ?_
  intro he hc _ _
  unfold P.map
  rw [he]
  generalize p a pt = r at *
  rcases r with ⟨⟨q, v⟩ | ⟨q, e⟩ | _ | _, a', l⟩ <;> exact .same (by simpa using hc)

/-- An error is replaced by itself. -/
theorem mapErr {p p' : P α} {e : PErr} (h : Two toks toks' n e0 p p') (hp : ∀ a pt q e1 a' l, p a pt = ⟨.fail q e1, a', l⟩ → e1 = e) :
    Two toks toks' n e0 (p.mapErr e) (p'.mapErr e) := by
  intro a pt hv hv'
  refine (h a pt hv hv').step .mapErr .mapErr ?_
  intro he hc _ _
  unfold P.mapErr
  have := hp a pt
  rw [he]
  generalize p a pt = r at *
  rcases r with ⟨⟨q, v⟩ | ⟨q, e⟩ | _ | _, a', l⟩
  · exact .same (by simpa using hc)
  · have := this _ _ _ _ rfl
    subst this
    exact .same (by simpa using hc)
  · exact .same (by simpa using hc)
  · exact .same (by simpa using hc)

theorem orElse {p p' q q' : P α} (h : Two toks toks' n e0 p p') (hq : Two toks toks' n e0 q q') :
    Two toks toks' n e0 (p.orElse q) (p'.orElse q') := by
  intro a pt hv hv'
  refine (h a pt hv hv').step .orElse .orElse ?_
  intro he hc _ hle
  rw [orElse_eq, orElse_eq, he]
  generalize p a pt = r at *
  rcases r with ⟨⟨q0, v⟩ | ⟨q0, e⟩ | _ | _, a', l⟩
  · exact .same (by simpa using hc)
  · have h1 := hq a' pt hv hv'
    simp at hc
    dsimp only
    generalize q a' pt = s at *
    generalize q' a' pt = s' at *
    refine h1.step ?_ ?_ ?_
    · rcases s with ⟨_ | _ | _ | _, a', l⟩ <;> simp [Sub] <;> omega
    · rcases s' with ⟨_ | _ | _ | _, a', l⟩ <;> simp [Sub] <;> omega
    · rintro rfl hc' _ _
      refine .same ⟨?_, hc'.2⟩
      have := hc'.1
      simp only [cleanLog_append, cleanLog_cons, cleanLog_nil, and_true]
      exact ⟨⟨hc.1, this⟩, hc.2⟩
  · exact .same (by simpa using hc)
  · exact .same (by simpa using hc)

theorem optional {p p' : P α} (h : Two toks toks' n e0 p p') : Two toks toks' n e0 p.optional p'.optional := by
  intro a pt hv hv'
  refine (h a pt hv hv').step .optional .optional ?_
  intro he hc _ _
  unfold P.optional
  rw [he]
  generalize p a pt = r at *
  rcases r with ⟨⟨q, v⟩ | ⟨q, e⟩ | _ | _, a', l⟩ <;> exact .same (by simpa using hc)

theorem setAmbiguityLevel {p p' : P α} {level : Amb} (h : Two toks toks' n e0 p p') :
    Two toks toks' n e0 (P.setAmbiguityLevel level p) (P.setAmbiguityLevel level p') := by
  intro a pt hv hv'
  refine (h level pt hv hv').step .setAmbiguityLevel .setAmbiguityLevel ?_
  intro he hc _ _
  unfold P.setAmbiguityLevel
  rw [he]
  generalize p level pt = r at *
  rcases r with ⟨⟨q, v⟩ | ⟨q, e⟩ | _ | _, a', l⟩ <;> exact .same (by simpa using hc)

theorem zeroOrMore {p p' : P α} (h : Two toks toks' n e0 p p') (hp : Fwd toks p) (hp' : Fwd toks' p') (m m' : Nat) :
    Two toks toks' n e0 (P.zeroOrMore p m) (P.zeroOrMore p' m') := by
  induction m generalizing m' with
  | zero => intro a pt _ _ hd; exact absurd trivial hd
  | succ m ih =>
    cases m' with
    | zero => intro a pt _ _ _ hd; exact absurd trivial hd
    | succ m' =>
      intro a pt hv hv'
      refine (h a pt hv hv').step (.zeroOrMore hv hp) (.zeroOrMore hv' hp') ?_
      intro he hc _ _
      have hr := hp a pt hv
      have hr' := hp' a pt hv'
      rw [zeroOrMore_eq, zeroOrMore_eq, he]
      rw [he] at hr'
      generalize p a pt = r at *
      rcases r with ⟨⟨q, v⟩ | ⟨q, e⟩ | _ | _, a', l⟩
      · exact ((ih m').map a' q hr.2.2.1 hr'.2.2.1).after (by simpa using hc)
      · exact .same (by simpa using hc)
      · exact .same (by simpa using hc)
      · exact .same (by simpa using hc)

theorem sepOpt {sep sep' : P β} (h : Two toks toks' n e0 sep sep') : Two toks toks' n e0 (sepOpt sep) (sepOpt sep') := by
  intro a pt hv hv'
  refine (h a pt hv hv').step .sepOpt .sepOpt ?_
  intro he hc _ _
  unfold Verif.sepOpt
  rw [he]
  generalize sep a pt = r at *
  rcases r with ⟨⟨q, v⟩ | ⟨q, e⟩ | _ | _, a', l⟩ <;> simp at hc <;> exact .same (by simp [hc])

theorem parseTailed {sep sep' : P β} {f f' : P α} (hs : Two toks toks' n e0 sep sep') (hsf : Fwd toks sep) (hsf' : Fwd toks' sep')
    (hf : Two toks toks' n e0 f f') (hff : Fwd toks f) (hff' : Fwd toks' f') :
    Two toks toks' n e0 (P.parseTailed sep f) (P.parseTailed sep' f') := by
  intro a pt hv hv'
  refine (hf a pt hv hv').step (.parseTailed hv hsf hff) (.parseTailed hv' hsf' hff') ?_
  intro he hc _ _
  have hr := hff a pt hv
  have hr' := hff' a pt hv'
  rw [parseTailed_eq, parseTailed_eq, he]
  rw [he] at hr'
  generalize f a pt = r at *
  rcases r with ⟨⟨q, v⟩ | ⟨q, e⟩ | _ | _, a', l⟩
  · exact (hs.sepOpt.map a' q hr.2.2.1 hr'.2.2.1).after (by simpa using hc)
  · simp at hc; exact .same (by simp [hc])
  · exact .same (by simpa using hc)
  · exact .same (by simpa using hc)

theorem zeroOrMoreTailedAppend {sep sep' : P β} {f f' : P α} (h : Two toks toks' n e0 (P.parseTailed sep f) (P.parseTailed sep' f'))
    (hsf : Fwd toks sep) (hsf' : Fwd toks' sep') (hff : Fwd toks f) (hff' : Fwd toks' f') (m m' : Nat) (t : P.Tailed α) :
    Two toks toks' n e0 (P.zeroOrMoreTailedAppend sep f m t) (P.zeroOrMoreTailedAppend sep' f' m' t) := by
  induction m generalizing m' t with
  | zero => intro a pt _ _ hd; exact absurd trivial hd
  | succ m ih =>
    cases m' with
    | zero => intro a pt _ _ _ hd; exact absurd trivial hd
    | succ m' =>
      unfold P.zeroOrMoreTailedAppend
      refine bind h (hsf.parseTailed hff) (hsf'.parseTailed hff') ?_ ?_ ?_
      · rintro (_ | _ | _)
        · exact .pure
        · exact .pure
        · exact hsf.zeroOrMoreTailedAppend hff _ _
      · rintro (_ | _ | _)
        · exact .pure
        · exact .pure
        · exact hsf'.zeroOrMoreTailedAppend hff' _ _
      · rintro (_ | _ | _)
        · exact pure
        · exact pure
        · exact ih _ _

theorem implTailed {impl : α → Bool} {sep sep' : P β} {f f' : P α}
    (h : Two toks toks' n e0 (P.parseTailed sep f) (P.parseTailed sep' f'))
    (hsf : Fwd toks sep) (hsf' : Fwd toks' sep') (hff : Fwd toks f) (hff' : Fwd toks' f') (m m' : Nat) (t : P.Tailed α) :
    Two toks toks' n e0 (P.zeroOrMoreImplicitlyTailed impl sep f m t) (P.zeroOrMoreImplicitlyTailed impl sep' f' m' t) := by
  induction m generalizing m' t with
  | zero => intro a pt _ _ hd; exact absurd trivial hd
  | succ m ih =>
    cases m' with
    | zero => intro a pt _ _ _ hd; exact absurd trivial hd
    | succ m' =>
      unfold P.zeroOrMoreImplicitlyTailed
      refine bind h (hsf.parseTailed hff) (hsf'.parseTailed hff') ?_ ?_ ?_
      · rintro (_ | v | _)
        · exact .pure
        · dsimp only
          split
          · exact hsf.implTailed hff _ _
          · exact .pure
        · exact hsf.implTailed hff _ _
      · rintro (_ | v | _)
        · exact .pure
        · dsimp only
          split
          · exact hsf'.implTailed hff' _ _
          · exact .pure
        · exact hsf'.implTailed hff' _ _
      · rintro (_ | v | _)
        · exact pure
        · dsimp only
          split
          · exact ih _ _
          · exact pure
        · exact ih _ _

theorem _root_.Verif.Fwd.bind {toks : List Token} {p : P α} {f : α → P β} (hp : Fwd toks p) (hf : ∀ v, Fwd toks (f v)) :
    Fwd toks (p.bind f) :=
  fun a pt hv => Run.bind ((hp a pt hv).mono fun q v hq _ _ => hf v a q hq)

theorem oneOrMoreTailed {sep sep' : P β} {f f' : P α} (hs : Two toks toks' n e0 sep sep') (hsf : Fwd toks sep) (hsf' : Fwd toks' sep')
    (hf : Two toks toks' n e0 f f') (hff : Fwd toks f) (hff' : Fwd toks' f') (m m' : Nat) :
    Two toks toks' n e0 (P.oneOrMoreTailed sep f m) (P.oneOrMoreTailed sep' f' m') := by
  rw [oneOrMoreTailed_eq, oneOrMoreTailed_eq]
  have g : ∀ {toks : List Token} {sep : P β} {f : P α} {m : Nat}, Fwd toks sep → Fwd toks f → ∀ (v : α) (b : Bool), Fwd toks
      (if b then P.zeroOrMoreTailedAppend sep f m { values := [v], separatorCount := 1 } else .pure { values := [v] } : P (P.Tailed α)) := by
    intro toks sep f m hs hf v b
    split
    · exact hs.zeroOrMoreTailedAppend hf _ _
    · exact .pure
  refine bind hf hff hff' (fun v => .bind hsf.sepOpt (g hsf hff v)) (fun v => .bind hsf'.sepOpt (g hsf' hff' v)) ?_
  intro v
  refine bind hs.sepOpt hsf.sepOpt hsf'.sepOpt (g hsf hff v) (g hsf' hff' v) ?_
  rintro (_ | _)
  · exact pure
  · exact zeroOrMoreTailedAppend (parseTailed hs hsf hsf' hf hff hff') hsf hsf' hff hff' _ _ _

theorem resume {sep sep' : P β} {f f' : P α} (hs : Two toks toks' n e0 sep sep') (hsf : Fwd toks sep) (hsf' : Fwd toks' sep')
    (hf : Two toks toks' n e0 f f') (hff : Fwd toks f) (hff' : Fwd toks' f') (ht : Tracked toks f) (ht' : Tracked toks' f') (m m' : Nat) :
    Two toks toks' n e0 (P.zeroOrMoreTailedValuesResume sep f m) (P.zeroOrMoreTailedValuesResume sep' f' m') := by
  intro a pt hv hv'
  refine (hs a pt hv hv').step (.resume hv hsf hff ht) (.resume hv' hsf' hff' ht') ?_
  intro he hc _ _
  have hr := hsf a pt hv
  have hr' := hsf' a pt hv'
  unfold P.zeroOrMoreTailedValuesResume
  rw [he]
  rw [he] at hr'
  generalize sep a pt = r at *
  rcases r with ⟨⟨q0, v⟩ | ⟨q0, e⟩ | _ | _, a', l⟩
  · have h1 := oneOrMoreTailed hs hsf hsf' hf hff hff' m m' a' q0 hr.2.2.1 hr'.2.2.1
    have h2 := ht.oneOrMoreTailed (sep := sep) m a' q0 hr.2.2.1
    have h2' := ht'.oneOrMoreTailed (sep := sep') m' a' q0 hr'.2.2.1
    simp at hc
    dsimp only
    generalize P.oneOrMoreTailed sep f m a' q0 = s at *
    generalize P.oneOrMoreTailed sep' f' m' a' q0 = s' at *
    refine h1.step ?_ ?_ ?_
    · rcases s with ⟨⟨q', v'⟩ | ⟨q', e'⟩ | _ | _, a', l⟩ <;> simp [Sub]
      · omega
      · have := h2 _ _ _ _ rfl
        omega
    · rcases s' with ⟨⟨q', v'⟩ | ⟨q', e'⟩ | _ | _, a', l⟩ <;> simp [Sub]
      · omega
      · have := h2' _ _ _ _ rfl
        omega
    · rintro rfl hc' _ _
      rcases s' with ⟨⟨q', v'⟩ | ⟨q', e'⟩ | _ | _, a', l⟩ <;> simp at hc' <;> exact .same (by simp [hc, hc'])
  · simp at hc; exact .same (by simp [hc])
  · exact .same (by simpa using hc)
  · exact .same (by simpa using hc)

end Two

/-! ## Tokens and extents -/

/-- The same tokens before the `n`-th.  The `n`-th tokens may differ; the second one is what `e0` asks for. -/
structure Hole (toks toks' : List Token) (n : Nat) (e0 : PErr) (t u : Token) : Prop where
  lt : ∀ i, i < n → toks'[i]? = toks[i]?
  left : toks[n]? = some t
  right : toks'[n]? = some u
  start : u.extent.s = t.extent.s
  whole : ∀ m, split t m = none
  whole' : ∀ m, split u m = none
  tok : ∀ k, e0 = .Expected k → ∃ e, u = .plain k e
  number : e0 = .ExpectedNumber → ∃ m, u = .number m ∧ m.intoSimple.isSome
  expression : e0 ≠ .ExpectedExpression
  block : e0 ≠ .BlockNotAllowedHere

section
variable {α β : Type} {toks toks' : List Token} {n : Nat} {e0 : PErr} {t u : Token}

theorem Hole.sameEx (H : Hole toks toks' n e0 t u) : SameEx n toks toks' := by
  intro p q hp hq
  have h1 : (p.off < q.off → toks'[q.off - 1]? = toks[q.off - 1]?) := fun h => H.lt _ (by omega)
  rcases Nat.lt_or_eq_of_le hp with hp | hp
  · unfold ex
    rw [H.lt _ hp]
    cases toks[p.off]? with
    | none => rfl
    | some x =>
      dsimp only
      split
      · rename_i h; rw [h1 h]
      · rfl
  · unfold ex
    rw [hp, H.left, H.right]
    dsimp only
    rw [H.start, if_neg (Nat.not_lt.mpr hq), if_neg (Nat.not_lt.mpr hq)]

theorem sub_none (h : toks[n]? = some t) (hw : ∀ m, split t m = none) {pt : Pt} (hv : ValidPt toks pt) (hp : pt.off = n) :
    pt.sub = none := by
  obtain ⟨x, h1, h2⟩ := hv
  rw [hp, h] at h1
  cases h1
  cases hs : pt.sub with
  | none => rfl
  | some m => have := h2 m hs; rw [hw] at this; simp at this

theorem token_at (h : toks[n]? = some t) (hw : ∀ m, split t m = none) (conv : Token → Option α) (err : PErr) (a : Amb) {pt : Pt}
    (hv : ValidPt toks pt) (hp : pt.off = n) : token toks conv err a pt =
      match conv t with
      | some v => ⟨.ok (pt.advanceBy 1) v, a, []⟩
      | none => ⟨.fail pt err, a, []⟩ := by
  unfold token
  rw [hp, h, sub_none h hw hv hp]
  dsimp only
  cases conv t with
  | some v => rfl
  | none => simp [hw]

theorem token_clean_lt (conv : Token → Option α) (err : PErr) (a : Amb) {pt : Pt} (hp : pt.off < n) :
    (token toks conv err a pt).clean n e0 := by
  have : pt.off ≠ n := by omega
  unfold token
  dsimp only
  split
  · simp [this]
  · split
    · simp
    · split
      · simp
      · split
        · split <;> simp [this]
        · simp [this]

theorem Two.token (H : Hole toks toks' n e0 t u) (conv : Token → Option α) (err : PErr) (hc : err = e0 → (conv u).isSome) :
    Two toks toks' n e0 (token toks conv err) (token toks' conv err) := by
  intro a pt hv hv' hd hd' hle hle'
  have hp := Nat.le_trans (token_reach _ _ _ _ hd) hle
  rcases Nat.lt_or_eq_of_le hp with hp | hp
  · refine ⟨?_, token_clean_lt _ _ _ hp⟩
    unfold Verif.token
    rw [H.lt _ hp]
  · rw [token_at H.left H.whole _ _ _ hv hp] at hle ⊢
    rw [token_at H.right H.whole' _ _ _ hv' hp] at hle' ⊢
    cases h : conv t with
    | some v => rw [h] at hle; simp [Pt.advanceBy] at hle; omega
    | none =>
      cases h' : conv u with
      | some v => rw [h'] at hle'; simp [Pt.advanceBy] at hle'; omega
      | none =>
        refine ⟨rfl, ?_⟩
        simp
        intro _ he
        have := hc he
        simp [h'] at this

theorem Hole.tk (H : Hole toks toks' n e0 t u) (k : TK) : PErr.Expected k = e0 → (convTK k u).isSome := by
  intro h
  obtain ⟨e, rfl⟩ := H.tok k h.symm
  simp [convTK]

theorem Hole.num (H : Hole toks toks' n e0 t u) : PErr.ExpectedNumber = e0 → (convNumber u).isSome := by
  intro h
  obtain ⟨e, rfl, -⟩ := H.number h.symm
  simp [convNumber]

theorem Two.fieldNameNumber (H : Hole toks toks' n e0 t u) : Two toks toks' n e0 (fieldNameNumber toks) (fieldNameNumber toks') := by
  intro a pt hv hv' hd hd' hle hle'
  have hp : pt.off ≤ n := by
    unfold Verif.fieldNameNumber at hd hle
    have h1 := token_reach (toks := toks) convNumber .ExpectedNumber a pt
    rcases hr : Verif.token toks convNumber .ExpectedNumber a pt with ⟨⟨q, v⟩ | ⟨q, e⟩ | _ | _, a', l⟩ <;>
      rw [hr] at hd hle h1 <;> simp only at hd hle h1
    · split at hle
      · exact Nat.le_trans (h1 (by simp)) hle
      · simp at hle; omega
    · exact Nat.le_trans (h1 (by simp)) hle
    · simp at hd
    · simp at hd
  rcases Nat.lt_or_eq_of_le hp with hp | hp
  · have h1 : Verif.token toks' convNumber .ExpectedNumber a pt = Verif.token toks convNumber .ExpectedNumber a pt := by
      unfold Verif.token
      rw [H.lt _ hp]
    have h2 := token_clean_lt (toks := toks) (e0 := e0) convNumber .ExpectedNumber a hp
    have : pt.off ≠ n := by omega
    unfold Verif.fieldNameNumber
    rw [h1]
    refine ⟨rfl, ?_⟩
    rcases hr : Verif.token toks convNumber .ExpectedNumber a pt with ⟨⟨q, v⟩ | ⟨q, e⟩ | _ | _, a', l⟩ <;> rw [hr] at h2 <;> simp at h2
    · dsimp only
      split <;> simp
      · exact h2
      · exact ⟨h2, by omega⟩
    · simpa using h2
    · simpa using h2
    · simpa using h2
  · have res : ∀ {toks : List Token} {t : Token}, toks[n]? = some t → (∀ m, split t m = none) → ValidPt toks pt →
        (Verif.fieldNameNumber toks a pt).reach ≤ n →
          Verif.fieldNameNumber toks a pt = ⟨.fail pt .ExpectedNumber, a, []⟩ ∧ ∀ m, t = .number m → m.intoSimple = none := by
      intro toks t h1 h2 hv hle
      unfold Verif.fieldNameNumber at hle ⊢
      rw [token_at h1 h2 _ _ _ hv hp] at hle ⊢
      cases t with
      | plain k e => exact ⟨rfl, nofun⟩
      | number m =>
        simp only [convNumber] at hle ⊢
        cases h3 : m.intoSimple with
        | none => exact ⟨rfl, fun m' h => by cases h; exact h3⟩
        | some e => rw [h3] at hle; simp [Pt.advanceBy] at hle; omega
    have r1 := res H.left H.whole hv hle
    have r2 := res H.right H.whole' hv' hle'
    rw [r1.1, r2.1]
    refine ⟨rfl, ?_⟩
    simp
    intro _ he
    obtain ⟨m, h1, h2⟩ := H.number he.symm
    rw [r2.2 m h1] at h2
    simp at h2

theorem nestedLen_two {o c : Token → Bool} {l l' : List Token} {d m : Nat} (h : ∀ i, i < m → l'[i]? = l[i]?)
    (h1 : nestedLen o c d l ≤ m) (h2 : nestedLen o c d l' ≤ m) : nestedLen o c d l' = nestedLen o c d l := by
  rcases Nat.lt_or_eq_of_le h1 with h3 | h3
  · exact nestedLen_congr l l' d fun i hi => h i (by omega)
  · rcases Nat.lt_or_eq_of_le h2 with h4 | h4
    · exact (nestedLen_congr l' l d fun i hi => (h i (by omega)).symm).symm
    · omega

theorem Two.parseNestedUntil (H : Hole toks toks' n e0 t u) (o c : Token → Bool) :
    Two toks toks' n e0 (parseNestedUntil toks o c) (parseNestedUntil toks' o c) := by
  intro a pt _ _ hd hd' hle hle'
  unfold Verif.parseNestedUntil at *
  dsimp only at *
  have h1 : pt.off + nestedLen o c 0 (toks.drop pt.off) ≤ n := by
    split at hle
    · simpa [Pt.advanceBy] using hle
    · rename_i he; rw [he] at hd; simp at hd
  have h1' : pt.off + nestedLen o c 0 (toks'.drop pt.off) ≤ n := by
    split at hle'
    · simpa [Pt.advanceBy] using hle'
    · rename_i he; rw [he] at hd'; simp at hd'
  have h2 : nestedLen o c 0 (toks'.drop pt.off) = nestedLen o c 0 (toks.drop pt.off) := by
    refine nestedLen_two (m := n - pt.off) ?_ (by omega) (by omega)
    intro i hi
    simp only [List.getElem?_drop]
    exact H.lt _ (by omega)
  rw [h2, H.sameEx _ _ (by omega) (by simpa [Pt.advanceBy] using h1)]
  refine ⟨rfl, ?_⟩
  split <;> simp

theorem Sub.spanned {p : P α} {a : Amb} {pt : Pt} : Sub (p a pt) (P.spanned toks p a pt) := by
  unfold P.spanned Sub
  rcases p a pt with ⟨_ | _ | _ | _, a', l⟩ <;> simp
  split <;> simp

theorem Sub.spannedEmpty {p : P α} {a : Amb} {pt : Pt} : Sub (p a pt) (P.spannedEmpty toks p a pt) := by
  unfold P.spannedEmpty Sub
  rcases p a pt with ⟨_ | _ | _ | _, a', l⟩ <;> simp
  split <;> simp

theorem Two.spanned (H : Hole toks toks' n e0 t u) {p p' : P α} (hp : Fwd toks p) (h : Two toks toks' n e0 p p') :
    Two toks toks' n e0 (P.spanned toks p) (P.spanned toks' p') := by
  intro a pt hv hv'
  refine (h a pt hv hv').step .spanned .spanned ?_
  intro he hc _ hle
  have hr := hp a pt hv
  unfold P.spanned
  rw [he]
  generalize p a pt = r at *
  rcases r with ⟨⟨q, v⟩ | ⟨q, e⟩ | _ | _, a', l⟩
  · have := Pt.off_le hv hr.2.2.1 hr.2.2.2.1
    simp at hle
    dsimp only
    rw [H.sameEx pt q (by omega) (by omega)]
    refine .same ?_
    split <;> simpa using hc
  · exact .same (by simpa using hc)
  · exact .same (by simpa using hc)
  · exact .same (by simpa using hc)

theorem Two.spannedEmpty (H : Hole toks toks' n e0 t u) {p p' : P α} (hp : Fwd toks p) (h : Two toks toks' n e0 p p') :
    Two toks toks' n e0 (P.spannedEmpty toks p) (P.spannedEmpty toks' p') := by
  intro a pt hv hv'
  refine (h a pt hv hv').step .spannedEmpty .spannedEmpty ?_
  intro he hc _ hle
  have hr := hp a pt hv
  unfold P.spannedEmpty
  rw [he]
  generalize p a pt = r at *
  rcases r with ⟨⟨q, v⟩ | ⟨q, e⟩ | _ | _, a', l⟩
  · have := Pt.off_le hv hr.2.2.1 hr.2.2.2.1
    simp at hle
    dsimp only
    rw [H.sameEx pt pt (by omega) (by omega)]
    refine .same ?_
    split <;> simpa using hc
  · exact .same (by simpa using hc)
  · exact .same (by simpa using hc)
  · exact .same (by simpa using hc)

/-! ## The empty statement

It peeks at a `;`: it does not report this token.  But the block reads it next. -/

/-- The parser stops before the `n`-th token, which is a `;`. -/
def AtSemi (toks : List Token) (n : Nat) (r : Res α) : Prop :=
  (∃ v, r.out = .ok ⟨n, none⟩ v) ∧ ∃ e, toks[n]? = some (.plain .Semicolon e)

/-- The results are the same, unless one of the parsers stops before a `;`. -/
def TwoS (toks toks' : List Token) (n : Nat) (e0 : PErr) (p p' : P α) : Prop :=
  ∀ a pt, ValidPt toks pt → ValidPt toks' pt → ¬ (p a pt).dead → ¬ (p' a pt).dead → (p a pt).reach ≤ n → (p' a pt).reach ≤ n →
    (p' a pt = p a pt ∧ (p a pt).clean n e0) ∨ AtSemi toks n (p a pt) ∨ AtSemi toks' n (p' a pt)

theorem TwoS.peek (H : Hole toks toks' n e0 t u) {f : Extent → β} :
    TwoS toks toks' n e0 ((token toks (convTK .Semicolon) (.Expected .Semicolon)).map f).peek
      ((token toks' (convTK .Semicolon) (.Expected .Semicolon)).map f).peek := by
  intro a pt hv hv' hd hd' hle hle'
  have hp : pt.off ≤ n := by
    unfold P.peek P.map at hd hle
    rcases hr : Verif.token toks (convTK .Semicolon) (.Expected .Semicolon) a pt with ⟨⟨q, v⟩ | ⟨q, e⟩ | _ | _, a', l⟩ <;>
      rw [hr] at hd hle <;> simp at hd hle <;> omega
  rcases Nat.lt_or_eq_of_le hp with hp | hp
  · have h1 : Verif.token toks' (convTK .Semicolon) (.Expected .Semicolon) a pt =
        Verif.token toks (convTK .Semicolon) (.Expected .Semicolon) a pt := by
      unfold Verif.token
      rw [H.lt _ hp]
    have h2 := token_clean_lt (toks := toks) (e0 := e0) (convTK .Semicolon) (.Expected .Semicolon) a hp
    have : pt.off ≠ n := by omega
    refine .inl ?_
    unfold P.peek P.map
    rw [h1]
    refine ⟨rfl, ?_⟩
    rcases hr : Verif.token toks (convTK .Semicolon) (.Expected .Semicolon) a pt with ⟨⟨q, v⟩ | ⟨q, e⟩ | _ | _, a', l⟩ <;>
      rw [hr] at h2 <;> simp at h2 ⊢
    · exact h2
    · exact ⟨h2.1, by omega⟩
    · exact h2
    · exact h2
  · have s := sub_none H.left H.whole hv hp
    have e : pt = ⟨n, none⟩ := by cases pt; simp at hp s; simp [hp, s]
    have semi : ∀ {x : Token} {v}, convTK .Semicolon x = some v → x = .plain .Semicolon v := by
      intro x v h
      cases x <;> simp [convTK] at h
      rw [h.1, h.2]
    unfold P.peek P.map
    rw [token_at H.left H.whole _ _ _ hv hp, token_at H.right H.whole' _ _ _ hv' hp]
    cases h : convTK .Semicolon t with
    | some v => exact .inr (.inl ⟨⟨f v, by simp [e]⟩, v, by rw [H.left, semi h]⟩)
    | none =>
      cases h' : convTK .Semicolon u with
      | some v => exact .inr (.inr ⟨⟨f v, by simp [e]⟩, v, by rw [H.right, semi h']⟩)
      | none =>
        refine .inl ⟨rfl, ?_⟩
        simp
        intro _ he
        have := H.tk _ he
        simp [h'] at this

theorem TwoS.of_two {p p' : P α} (h : Two toks toks' n e0 p p') : TwoS toks toks' n e0 p p' :=
  fun a pt hv hv' h1 h2 h3 h4 => .inl (h a pt hv hv' h1 h2 h3 h4)

theorem TwoS.step {p p' : P α} {s s' : P β} (h : TwoS toks toks' n e0 p p') (h1 : ∀ a pt, Sub (p a pt) (s a pt))
    (h2 : ∀ a pt, Sub (p' a pt) (s' a pt))
    (h3 : ∀ a pt, ValidPt toks pt → ValidPt toks' pt → p' a pt = p a pt → (p a pt).clean n e0 → ¬ (p a pt).dead →
      (p a pt).reach ≤ n → Exp n e0 (s a pt) (s' a pt))
    (h4 : ∀ a pt, ¬ (s a pt).dead → AtSemi toks n (p a pt) → AtSemi toks n (s a pt))
    (h5 : ∀ a pt, ¬ (s' a pt).dead → AtSemi toks' n (p' a pt) → AtSemi toks' n (s' a pt)) : TwoS toks toks' n e0 s s' := by
  intro a pt hv hv' hd hd' hle hle'
  have a1 := h1 a pt hd
  have a2 := h2 a pt hd'
  rcases h a pt hv hv' a1.1 a2.1 (Nat.le_trans a1.2 hle) (Nat.le_trans a2.2 hle') with h | h | h
  · exact .inl (h3 a pt hv hv' h.1 h.2 a1.1 (Nat.le_trans a1.2 hle) hd hd' hle hle')
  · exact .inr (.inl (h4 a pt hd h))
  · exact .inr (.inr (h5 a pt hd' h))

theorem AtSemi.map {p : P α} {f : α → β} {a : Amb} {pt : Pt} (h : AtSemi toks n (p a pt)) : AtSemi toks n (p.map f a pt) := by
  obtain ⟨⟨v, h⟩, h'⟩ := h
  refine ⟨⟨f v, ?_⟩, h'⟩
  unfold P.map
  rcases hr : p a pt with ⟨⟨q, x⟩ | ⟨q, e⟩ | _ | _, a', l⟩ <;> rw [hr] at h <;> simp at h ⊢
  exact ⟨h.1, by rw [h.2]⟩

theorem AtSemi.spanned {p : P α} {a : Amb} {pt : Pt} (hd : ¬ (P.spanned toks p a pt).dead) (h : AtSemi toks n (p a pt)) :
    AtSemi toks n (P.spanned toks p a pt) := by
  obtain ⟨⟨v, h⟩, h'⟩ := h
  refine ⟨?_, h'⟩
  revert hd
  unfold P.spanned
  rcases hr : p a pt with ⟨⟨q, x⟩ | ⟨q, e⟩ | _ | _, a', l⟩ <;> rw [hr] at h <;> simp at h ⊢
  obtain ⟨rfl, rfl⟩ := h
  split <;> simp

theorem TwoS.map {p p' : P α} {f : α → β} (h : TwoS toks toks' n e0 p p') : TwoS toks toks' n e0 (p.map f) (p'.map f) := by
  refine h.step (fun _ _ => .map) (fun _ _ => .map) ?_ (fun _ _ _ h => h.map) (fun _ _ _ h => h.map)
  intro a pt hv hv' he hc _ _
  unfold P.map
  rw [he]
  generalize p a pt = r at *
  rcases r with ⟨⟨q, v⟩ | ⟨q, e⟩ | _ | _, a', l⟩ <;> exact .same (by simpa using hc)

theorem TwoS.spanned (H : Hole toks toks' n e0 t u) {p p' : P α} (hp : Fwd toks p) (h : TwoS toks toks' n e0 p p') :
    TwoS toks toks' n e0 (P.spanned toks p) (P.spanned toks' p') := by
  refine h.step (fun _ _ => .spanned) (fun _ _ => .spanned) ?_ (fun _ _ hd h => h.spanned hd) (fun _ _ hd h => h.spanned hd)
  intro a pt hv hv' he hc _ hle
  have hr := hp a pt hv
  unfold P.spanned
  rw [he]
  generalize p a pt = r at *
  rcases r with ⟨⟨q, v⟩ | ⟨q, e⟩ | _ | _, a', l⟩
  · have := Pt.off_le hv hr.2.2.1 hr.2.2.2.1
    simp at hle
    dsimp only
    rw [H.sameEx pt q (by omega) (by omega)]
    refine .same ?_
    split <;> simpa using hc
  · exact .same (by simpa using hc)
  · exact .same (by simpa using hc)
  · exact .same (by simpa using hc)

theorem TwoS.orElse {p p' q q' : P α} (h : Two toks toks' n e0 p p') (hq : TwoS toks toks' n e0 q q') :
    TwoS toks toks' n e0 (p.orElse q) (p'.orElse q') := by
  intro a pt hv hv' hd hd' hle hle'
  have a1 := Sub.orElse (q := q) hd
  have a2 := Sub.orElse (q := q') hd'
  obtain ⟨he, hc⟩ := h a pt hv hv' a1.1 a2.1 (Nat.le_trans a1.2 hle) (Nat.le_trans a2.2 hle')
  rw [orElse_eq] at hd hd' hle hle'
  rw [orElse_eq, orElse_eq]
  rw [he] at hd' hle' ⊢
  generalize p a pt = r at *
  rcases r with ⟨⟨q0, v⟩ | ⟨q0, e⟩ | _ | _, a', l⟩
  · exact .inl ⟨rfl, hc⟩
  · have h1 := hq a' pt hv hv'
    simp at hc
    dsimp only at *
    generalize q a' pt = s at *
    generalize q' a' pt = s' at *
    have b1 : s.reach ≤ n := by rcases s with ⟨_ | _ | _ | _, a', l⟩ <;> simp [Res.reach] at hle ⊢ <;> omega
    have b2 : s'.reach ≤ n := by rcases s' with ⟨_ | _ | _ | _, a', l⟩ <;> simp [Res.reach] at hle' ⊢ <;> omega
    rcases h1 hd hd' b1 b2 with ⟨rfl, hc'⟩ | h1 | h1
    · refine .inl ⟨rfl, ?_, hc'.2⟩
      have := hc'.1
      simp only [cleanLog_append, cleanLog_cons, cleanLog_nil, and_true]
      exact ⟨⟨hc.1, this⟩, hc.2⟩
    · exact .inr (.inl h1)
    · exact .inr (.inr h1)
  · exact .inl ⟨rfl, hc⟩
  · exact .inl ⟨rfl, hc⟩

/-- A statement and its `;`. -/
theorem Two.parseTailed_semi (H : Hole toks toks' n e0 t u) {f f' : P α} {g : Extent → β} (hf : TwoS toks toks' n e0 f f')
    (hs : Fwd toks ((Verif.token toks (convTK .Semicolon) (.Expected .Semicolon)).map g))
    (hs' : Fwd toks' ((Verif.token toks' (convTK .Semicolon) (.Expected .Semicolon)).map g)) (hff : Fwd toks f) (hff' : Fwd toks' f') :
    Two toks toks' n e0 (P.parseTailed ((Verif.token toks (convTK .Semicolon) (.Expected .Semicolon)).map g) f)
      (P.parseTailed ((Verif.token toks' (convTK .Semicolon) (.Expected .Semicolon)).map g) f') := by
  have no : ∀ {toks : List Token} {f : P α} {a : Amb} {pt : Pt}, AtSemi toks n (f a pt) →
      ¬ (P.parseTailed ((Verif.token toks (convTK .Semicolon) (.Expected .Semicolon)).map g) f a pt).reach ≤ n := by
    intro toks f a pt ⟨⟨v, h1⟩, e, h2⟩
    rw [parseTailed_eq]
    rcases hr : f a pt with ⟨⟨q, x⟩ | ⟨q, e⟩ | _ | _, a', l⟩ <;> rw [hr] at h1 <;> simp at h1
    obtain ⟨rfl, rfl⟩ := h1
    dsimp only
    rw [after_reach]
    have hv : ValidPt toks ⟨n, none⟩ := ⟨_, h2, nofun⟩
    unfold P.map Verif.sepOpt
    dsimp only
    rw [token_at h2 (fun m => by simp [split]) _ _ _ hv rfl]
    simp [convTK, Pt.advanceBy]
    omega
  intro a pt hv hv' hd hd' hle hle'
  have a1 := Sub.parseTailed (a := a) hv hs hff hd
  have a2 := Sub.parseTailed (a := a) hv' hs' hff' hd'
  rcases hf a pt hv hv' a1.1 a2.1 (Nat.le_trans a1.2 hle) (Nat.le_trans a2.2 hle') with ⟨he, hc⟩ | h | h
  · have hr := hff a pt hv
    have hr' := hff' a pt hv'
    rw [parseTailed_eq] at hd hd' hle hle' ⊢
    rw [parseTailed_eq]
    rw [he] at hr' hd' hle' ⊢
    generalize f a pt = r at *
    rcases r with ⟨⟨q, v⟩ | ⟨q, e⟩ | _ | _, a', l⟩
    · exact ((Two.map (Two.token H _ _ (H.tk _))).sepOpt.map a' q hr.2.2.1 hr'.2.2.1).after (by simpa using hc) hd hd' hle hle'
    · simp at hc; exact ⟨rfl, by simp [hc]⟩
    · exact ⟨rfl, by simpa using hc⟩
    · exact ⟨rfl, by simpa using hc⟩
  · exact absurd hle (no h)
  · exact absurd hle' (no h)

end

end Verif
