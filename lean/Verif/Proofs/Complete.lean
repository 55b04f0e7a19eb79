import Verif.Proofs.Shape
import Verif.Proofs.Terminate
/-!
# When the parser succeeds

Rules to show that a grammar expression succeeds, or fails, at a point.  Running out of fuel is left open in all of them; it is
excluded by `Proofs/Terminate.lean`.
-/

namespace Verif
open Spec

namespace Res
variable {α β γ : Type} {am a' : Amb} {p q : Pt}

/-- Success with a value `Q` at `q`, or out of fuel. -/
def Ok (r : Res α) (am : Amb) (q : Pt) (Q : α → Prop) : Prop :=
  r.out = .hang ∨ (r.amb = am ∧ ∃ v, r.out = .ok q v ∧ Q v)

/-- Failure at a point `W`, or out of fuel. -/
def No (r : Res α) (am : Amb) (W : Pt → Prop) : Prop :=
  r.out = .hang ∨ (r.amb = am ∧ ∃ p e, r.out = .fail p e ∧ W p)

theorem Ok.mono {r : Res α} {Q Q' : α → Prop} (h : r.Ok am q Q) (hQ : ∀ v, Q v → Q' v) : r.Ok am q Q' :=
  h.imp id fun ⟨h1, v, h2, h3⟩ => ⟨h1, v, h2, hQ v h3⟩

theorem No.mono {r : Res α} {W W' : Pt → Prop} (h : r.No am W) (hW : ∀ p, W p → W' p) : r.No am W' :=
  h.imp id fun ⟨h1, v, e, h2, h3⟩ => ⟨h1, v, e, h2, hW v h3⟩

theorem Ok.elim {r : Res α} {Q : α → Prop} (h : r.Ok am q Q) {C : Res α → Prop}
    (hang : ∀ a l, C ⟨.hang, a, l⟩) (ok : ∀ v l, Q v → C ⟨.ok q v, am, l⟩) : C r := by
  obtain ⟨out, a, l⟩ := r
  rcases h with h | ⟨h1, v, h2, h3⟩
  · dsimp only at h; subst h; exact hang a l
  · dsimp only at h1 h2; subst h1 h2; exact ok v l h3

theorem No.elim {r : Res α} {W : Pt → Prop} (h : r.No am W) {C : Res α → Prop}
    (hang : ∀ a l, C ⟨.hang, a, l⟩) (no : ∀ p e l, W p → C ⟨.fail p e, am, l⟩) : C r := by
  obtain ⟨out, a, l⟩ := r
  rcases h with h | ⟨h1, v, e, h2, h3⟩
  · dsimp only at h; subst h; exact hang a l
  · dsimp only at h1 h2; subst h1 h2; exact no v e l h3

theorem Ok.hang {a l} {Q : α → Prop} : Ok ⟨.hang, a, l⟩ am q Q := .inl rfl
theorem Ok.ok {v l} {Q : α → Prop} (h : Q v) : Ok ⟨.ok q v, am, l⟩ am q Q := .inr ⟨rfl, v, rfl, h⟩
theorem No.hang {a l} {W : Pt → Prop} : No (α := α) ⟨.hang, a, l⟩ am W := .inl rfl
theorem No.fail {p e l} {W : Pt → Prop} (h : W p) : No (α := α) ⟨.fail p e, am, l⟩ am W := .inr ⟨rfl, p, e, rfl, h⟩

end Res

namespace P
open Res
variable {α β γ : Type} {am : Amb} {p m q : Pt}

theorem ok_pure {v : α} {Q : α → Prop} (h : Q v) : Res.Ok (P.pure v am p) am p Q := .ok h

theorem ok_bind {f : P α} {g : α → P β} {Q : α → Prop} {R : β → Prop} (h : (f am p).Ok am m Q)
    (h' : ∀ v, Q v → (g v am m).Ok am q R) : ((f.bind g) am p).Ok am q R := by
  unfold P.bind
  refine h.elim (C := fun r => Res.Ok (match r with
    | ⟨.ok pt' v, a', l⟩ => match g v a' pt' with | ⟨r, a'', l'⟩ => ⟨r, a'', l ++ l'⟩
    | ⟨.fail pt' e, a', l⟩ => ⟨.fail pt' e, a', l⟩
    | ⟨.panic, a', l⟩ => ⟨.panic, a', l⟩
    | ⟨.hang, a', l⟩ => ⟨.hang, a', l⟩) am q R) (fun _ _ => .hang) fun v l hv => ?_
  dsimp only
  refine (h' v hv).elim (C := fun r => Res.Ok (match r with | ⟨r, a'', l'⟩ => ⟨r, a'', l ++ l'⟩) am q R)
    (fun _ _ => .hang) fun _ _ h => .ok h

theorem no_bind {f : P α} {g : α → P β} {W : Pt → Prop} (h : (f am p).No am W) : ((f.bind g) am p).No am W := by
  unfold P.bind
  generalize f am p = r at h
  exact h.elim (C := fun r => Res.No (match r with
    | ⟨.ok pt' v, a', l⟩ => match g v a' pt' with | ⟨r, a'', l'⟩ => ⟨r, a'', l ++ l'⟩
    | ⟨.fail pt' e, a', l⟩ => ⟨.fail pt' e, a', l⟩
    | ⟨.panic, a', l⟩ => ⟨.panic, a', l⟩
    | ⟨.hang, a', l⟩ => ⟨.hang, a', l⟩) am W) (fun _ _ => .hang) fun _ _ _ h => .fail h

theorem no_bind_right {f : P α} {g : α → P β} {Q : α → Prop} {W : Pt → Prop} (h : (f am p).Ok am m Q)
    (h' : ∀ v, Q v → (g v am m).No am W) : ((f.bind g) am p).No am W := by
  unfold P.bind
  refine h.elim (C := fun r => Res.No (match r with
    | ⟨.ok pt' v, a', l⟩ => match g v a' pt' with | ⟨r, a'', l'⟩ => ⟨r, a'', l ++ l'⟩
    | ⟨.fail pt' e, a', l⟩ => ⟨.fail pt' e, a', l⟩
    | ⟨.panic, a', l⟩ => ⟨.panic, a', l⟩
    | ⟨.hang, a', l⟩ => ⟨.hang, a', l⟩) am W) (fun _ _ => .hang) fun v l hv => ?_
  dsimp only
  exact (h' v hv).elim (C := fun r => Res.No (match r with | ⟨r, a'', l'⟩ => ⟨r, a'', l ++ l'⟩) am W)
    (fun _ _ => .hang) fun _ _ _ h => .fail h

theorem ok_map {f : P α} {g : α → β} {Q : α → Prop} {R : β → Prop} (h : (f am p).Ok am q Q)
    (h' : ∀ v, Q v → R (g v)) : ((f.map g) am p).Ok am q R := by
  unfold P.map
  exact h.elim (C := fun r => Res.Ok (match r with
    | ⟨.ok pt' v, a', l⟩ => ⟨.ok pt' (g v), a', l⟩
    | ⟨.fail pt' e, a', l⟩ => ⟨.fail pt' e, a', l⟩
    | ⟨.panic, a', l⟩ => ⟨.panic, a', l⟩
    | ⟨.hang, a', l⟩ => ⟨.hang, a', l⟩) am q R) (fun _ _ => .hang) fun v l hv => .ok (h' v hv)

theorem no_map {f : P α} {g : α → β} {W : Pt → Prop} (h : (f am p).No am W) : ((f.map g) am p).No am W := by
  unfold P.map
  exact h.elim (C := fun r => Res.No (match r with
    | ⟨.ok pt' v, a', l⟩ => ⟨.ok pt' (g v), a', l⟩
    | ⟨.fail pt' e, a', l⟩ => ⟨.fail pt' e, a', l⟩
    | ⟨.panic, a', l⟩ => ⟨.panic, a', l⟩
    | ⟨.hang, a', l⟩ => ⟨.hang, a', l⟩) am W) (fun _ _ => .hang) fun _ _ _ h => .fail h

theorem ok_mapErr {f : P α} {e : PErr} {Q : α → Prop} (h : (f am p).Ok am q Q) : ((f.mapErr e) am p).Ok am q Q := by
  unfold P.mapErr
  exact h.elim (C := fun r => Res.Ok (match r with
    | ⟨.fail pt' _, a', l⟩ => ⟨.fail pt' e, a', l⟩
    | r => r) am q Q) (fun _ _ => .hang) fun v l hv => .ok hv

theorem no_mapErr {f : P α} {e : PErr} {W : Pt → Prop} (h : (f am p).No am W) : ((f.mapErr e) am p).No am W := by
  unfold P.mapErr
  exact h.elim (C := fun r => Res.No (match r with
    | ⟨.fail pt' _, a', l⟩ => ⟨.fail pt' e, a', l⟩
    | r => r) am W) (fun _ _ => .hang) fun _ _ _ h => .fail h

theorem ok_orElse_left {f g : P α} {Q : α → Prop} (h : (f am p).Ok am q Q) : ((f.orElse g) am p).Ok am q Q := by
  unfold P.orElse
  exact h.elim (C := fun r => Res.Ok (match r with
    | ⟨.fail pt' e, a', l⟩ => match g a' p with | ⟨r, a'', l'⟩ => ⟨r, a'', l ++ l' ++ [(pt', e)]⟩
    | r => r) am q Q) (fun _ _ => .hang) fun v l hv => .ok hv

theorem ok_orElse_right {f g : P α} {W : Pt → Prop} {Q : α → Prop} (h : (f am p).No am W) (h' : (g am p).Ok am q Q) :
    ((f.orElse g) am p).Ok am q Q := by
  unfold P.orElse
  refine h.elim (C := fun r => Res.Ok (match r with
    | ⟨.fail pt' e, a', l⟩ => match g a' p with | ⟨r, a'', l'⟩ => ⟨r, a'', l ++ l' ++ [(pt', e)]⟩
    | r => r) am q Q) (fun _ _ => .hang) fun pt' e l hw => ?_
  dsimp only
  exact h'.elim (C := fun r => Res.Ok (match r with | ⟨r, a'', l'⟩ => ⟨r, a'', l ++ l' ++ [(pt', e)]⟩) am q Q)
    (fun _ _ => .hang) fun v l hv => .ok hv

theorem no_orElse {f g : P α} {W W' : Pt → Prop} (h : (f am p).No am W) (h' : (g am p).No am W') :
    ((f.orElse g) am p).No am W' := by
  unfold P.orElse
  refine h.elim (C := fun r => Res.No (match r with
    | ⟨.fail pt' e, a', l⟩ => match g a' p with | ⟨r, a'', l'⟩ => ⟨r, a'', l ++ l' ++ [(pt', e)]⟩
    | r => r) am W') (fun _ _ => .hang) fun pt' e l hw => ?_
  dsimp only
  exact h'.elim (C := fun r => Res.No (match r with | ⟨r, a'', l'⟩ => ⟨r, a'', l ++ l' ++ [(pt', e)]⟩) am W')
    (fun _ _ => .hang) fun _ _ _ h => .fail h

theorem ok_optional {f : P α} {Q : α → Prop} (h : (f am p).Ok am q Q) :
    ((f.optional) am p).Ok am q (fun o => ∃ v, o = some v ∧ Q v) := by
  unfold P.optional
  exact h.elim (C := fun r => Res.Ok (match r with
    | ⟨.ok pt' v, a', l⟩ => ⟨.ok pt' (some v), a', l⟩
    | ⟨.fail pt' e, a', l⟩ => ⟨.ok p none, a', l ++ [(pt', e)]⟩
    | ⟨.panic, a', l⟩ => ⟨.panic, a', l⟩
    | ⟨.hang, a', l⟩ => ⟨.hang, a', l⟩) am q _) (fun _ _ => .hang) fun v l hv => .ok ⟨v, rfl, hv⟩

theorem ok_optional_none {f : P α} {W : Pt → Prop} (h : (f am p).No am W) :
    ((f.optional) am p).Ok am p (fun o => o = none) := by
  unfold P.optional
  exact h.elim (C := fun r => Res.Ok (match r with
    | ⟨.ok pt' v, a', l⟩ => ⟨.ok pt' (some v), a', l⟩
    | ⟨.fail pt' e, a', l⟩ => ⟨.ok p none, a', l ++ [(pt', e)]⟩
    | ⟨.panic, a', l⟩ => ⟨.panic, a', l⟩
    | ⟨.hang, a', l⟩ => ⟨.hang, a', l⟩) am p _) (fun _ _ => .hang) fun _ _ _ _ => .ok rfl

theorem ok_peek {f : P α} {Q : α → Prop} (h : (f am p).Ok am q Q) : ((f.peek) am p).Ok am p Q := by
  unfold P.peek
  exact h.elim (C := fun r => Res.Ok (match r with
    | ⟨.ok _ v, a', l⟩ => ⟨.ok p v, a', l⟩
    | ⟨.fail _ e, a', l⟩ => ⟨.fail p e, a', l⟩
    | r => r) am p Q) (fun _ _ => .hang) fun v l hv => .ok hv

theorem no_peek {f : P α} {W : Pt → Prop} (h : (f am p).No am W) : ((f.peek) am p).No am (· = p) := by
  unfold P.peek
  exact h.elim (C := fun r => Res.No (match r with
    | ⟨.ok _ v, a', l⟩ => ⟨.ok p v, a', l⟩
    | ⟨.fail _ e, a', l⟩ => ⟨.fail p e, a', l⟩
    | r => r) am (· = p)) (fun _ _ => .hang) fun _ _ _ _ => .fail rfl

theorem ok_amb {f : P α} {level : Amb} {Q : α → Prop} (h : (f level p).Ok level q Q) :
    ((setAmbiguityLevel level f) am p).Ok am q Q := by
  unfold setAmbiguityLevel
  exact h.elim (C := fun r => Res.Ok (match r with | ⟨r, _, l⟩ => ⟨r, am, l⟩) am q Q) (fun _ _ => .hang) fun v l hv => .ok hv

theorem no_amb {f : P α} {level : Amb} {W : Pt → Prop} (h : (f level p).No level W) :
    ((setAmbiguityLevel level f) am p).No am W := by
  unfold setAmbiguityLevel
  exact h.elim (C := fun r => Res.No (match r with | ⟨r, _, l⟩ => ⟨r, am, l⟩) am W) (fun _ _ => .hang)
    fun _ _ _ h => .fail h

theorem ok_spanned {toks : List Token} {f : P α} {Q : α → Prop} (hb : Btw toks p q) (h : (f am p).Ok am q Q) :
    ((spanned toks f) am p).Ok am q (fun x => Q x.2) := by
  unfold spanned
  obtain ⟨e, he⟩ := ex_isSome hb
  refine h.elim (C := fun r => Res.Ok (match r with
  | ⟨.ok pt v, a', l⟩ =>
    match ex toks p pt with
    | some e => ⟨.ok pt (e, v), a', l⟩
    | none => ⟨.panic, a', l⟩
  | ⟨.fail pt e, a', l⟩ => ⟨.fail pt e, a', l⟩
  | ⟨.panic, a', l⟩ => ⟨.panic, a', l⟩
  | ⟨.hang, a', l⟩ => ⟨.hang, a', l⟩) am q _) (fun _ _ => .hang) fun v l hv => ?_
  dsimp only
  rw [he]
  exact .ok hv

theorem no_spanned {toks : List Token} {f : P α} {W : Pt → Prop} (h : (f am p).No am W) :
    ((spanned toks f) am p).No am W := by
  unfold spanned
  exact h.elim (C := fun r => Res.No (match r with
  | ⟨.ok pt v, a', l⟩ =>
    match ex toks p pt with
    | some e => ⟨.ok pt (e, v), a', l⟩
    | none => ⟨.panic, a', l⟩
  | ⟨.fail pt e, a', l⟩ => ⟨.fail pt e, a', l⟩
  | ⟨.panic, a', l⟩ => ⟨.panic, a', l⟩
  | ⟨.hang, a', l⟩ => ⟨.hang, a', l⟩) am W) (fun _ _ => .hang) fun _ _ _ h => .fail h

theorem ok_spannedEmpty {toks : List Token} {f : P α} {Q : α → Prop} (hb : ValidPt toks p) (h : (f am p).Ok am q Q) :
    ((spannedEmpty toks f) am p).Ok am q (fun x => Q x.2) := by
  unfold spannedEmpty
  obtain ⟨e, he⟩ := ex_isSome (.refl hb)
  refine h.elim (C := fun r => Res.Ok (match r with
  | ⟨.ok pt v, a', l⟩ =>
    match ex toks p p with
    | some e => ⟨.ok pt (e, v), a', l⟩
    | none => ⟨.panic, a', l⟩
  | ⟨.fail pt e, a', l⟩ => ⟨.fail pt e, a', l⟩
  | ⟨.panic, a', l⟩ => ⟨.panic, a', l⟩
  | ⟨.hang, a', l⟩ => ⟨.hang, a', l⟩) am q _) (fun _ _ => .hang) fun v l hv => ?_
  dsimp only
  rw [he]
  exact .ok hv

theorem no_spannedEmpty {toks : List Token} {f : P α} {W : Pt → Prop} (h : (f am p).No am W) :
    ((spannedEmpty toks f) am p).No am W := by
  unfold spannedEmpty
  exact h.elim (C := fun r => Res.No (match r with
  | ⟨.ok pt v, a', l⟩ =>
    match ex toks p p with
    | some e => ⟨.ok pt (e, v), a', l⟩
    | none => ⟨.panic, a', l⟩
  | ⟨.fail pt e, a', l⟩ => ⟨.fail pt e, a', l⟩
  | ⟨.panic, a', l⟩ => ⟨.panic, a', l⟩
  | ⟨.hang, a', l⟩ => ⟨.hang, a', l⟩) am W) (fun _ _ => .hang) fun _ _ _ h => .fail h

/-! ## Lists -/

theorem ok_zeroOrMore_nil {f : P α} {W : Pt → Prop} (h : (f am p).No am W) (n : Nat) :
    ((zeroOrMore f n) am p).Ok am p (· = []) := by
  cases n with
  | zero => exact .hang
  | succ n =>
    unfold zeroOrMore
    exact h.elim (C := fun r => Res.Ok (match r with
    | ⟨.ok pt' v, a', l⟩ =>
      match zeroOrMore f n a' pt' with
      | ⟨.ok pt'' vs, a'', l'⟩ => ⟨.ok pt'' (v :: vs), a'', l ++ l'⟩
      | ⟨r, a'', l'⟩ => ⟨r, a'', l ++ l'⟩
    | ⟨.fail pt' e, a', l⟩ => ⟨.ok p [], a', l ++ [(pt', e)]⟩
    | ⟨.panic, a', l⟩ => ⟨.panic, a', l⟩
    | ⟨.hang, a', l⟩ => ⟨.hang, a', l⟩) am p _) (fun _ _ => .hang) fun _ _ _ _ => .ok rfl

theorem ok_zeroOrMore_cons {f : P α} {Q : α → Prop} {R : List α → Prop} (h : (f am p).Ok am m Q)
    (h' : ∀ n, ((zeroOrMore f n) am m).Ok am q R) (n : Nat) :
    ((zeroOrMore f n) am p).Ok am q (fun vs => ∃ v ws, vs = v :: ws ∧ Q v ∧ R ws) := by
  cases n with
  | zero => exact .hang
  | succ n =>
    unfold zeroOrMore
    refine h.elim (C := fun r => Res.Ok (match r with
    | ⟨.ok pt' v, a', l⟩ =>
      match zeroOrMore f n a' pt' with
      | ⟨.ok pt'' vs, a'', l'⟩ => ⟨.ok pt'' (v :: vs), a'', l ++ l'⟩
      | ⟨r, a'', l'⟩ => ⟨r, a'', l ++ l'⟩
    | ⟨.fail pt' e, a', l⟩ => ⟨.ok p [], a', l ++ [(pt', e)]⟩
    | ⟨.panic, a', l⟩ => ⟨.panic, a', l⟩
    | ⟨.hang, a', l⟩ => ⟨.hang, a', l⟩) am q _) (fun _ _ => .hang) fun v l hv => ?_
    dsimp only
    exact (h' n).elim (C := fun r => Res.Ok (match r with
      | ⟨.ok pt'' vs, a'', l'⟩ => ⟨.ok pt'' (v :: vs), a'', l ++ l'⟩
      | ⟨r, a'', l'⟩ => ⟨r, a'', l ++ l'⟩) am q _) (fun _ _ => .hang) fun w l hw => .ok ⟨v, w, rfl, hv, hw⟩

theorem ok_parseTailed_nothing {sep : P β} {f : P α} {W : Pt → Prop} (h : (f am p).No am W) :
    (parseTailed sep f am p).out = .hang ∨ (parseTailed sep f am p).amb = am ∧
      ∃ q e, (parseTailed sep f am p).out = .ok q (.nothing e) ∧ W q := by
  unfold parseTailed
  exact h.elim (C := fun r =>
    (fun s : Res (TailedState α) => s.out = .hang ∨ s.amb = am ∧ ∃ q e, s.out = .ok q (.nothing e) ∧ W q) (match r with
    | ⟨.fail pt' e, a', l⟩ => ⟨.ok pt' (.nothing e), a', l⟩
    | ⟨.ok pt' v, a', l⟩ =>
      match sep a' pt' with
      | ⟨.fail pt'' _, a'', l'⟩ => ⟨.ok pt'' (.valueOnly v), a'', l ++ l'⟩
      | ⟨.ok pt'' _, a'', l'⟩ => ⟨.ok pt'' (.valueAndSeparator v), a'', l ++ l'⟩
      | ⟨.panic, a'', l'⟩ => ⟨.panic, a'', l ++ l'⟩
      | ⟨.hang, a'', l'⟩ => ⟨.hang, a'', l ++ l'⟩
    | ⟨.panic, a', l⟩ => ⟨.panic, a', l⟩
    | ⟨.hang, a', l⟩ => ⟨.hang, a', l⟩)) (fun _ _ => .inl rfl) fun p e l hw => .inr ⟨rfl, p, e, rfl, hw⟩

theorem ok_parseTailed_nothing' {sep : P β} {f : P α} (h : (f am p).No am (· = p)) :
    (parseTailed sep f am p).Ok am p (fun s => ∃ e, s = .nothing e) := by
  rcases ok_parseTailed_nothing (sep := sep) h with h | ⟨h1, q, e, h2, rfl⟩
  · exact .inl h
  · exact .inr ⟨h1, _, h2, e, rfl⟩

theorem ok_parseTailed_value {sep : P β} {f : P α} {Q : α → Prop} (h : (f am p).Ok am m Q)
    (hs : (sep am m).No am (· = m)) : (parseTailed sep f am p).Ok am m (fun s => ∃ v, s = TailedState.valueOnly v ∧ Q v) := by
  unfold parseTailed
  refine h.elim (C := fun r => Res.Ok (match r with
    | ⟨.fail pt' e, a', l⟩ => ⟨.ok pt' (TailedState.nothing e), a', l⟩
    | ⟨.ok pt' v, a', l⟩ =>
      match sep a' pt' with
      | ⟨.fail pt'' _, a'', l'⟩ => ⟨.ok pt'' (TailedState.valueOnly v), a'', l ++ l'⟩
      | ⟨.ok pt'' _, a'', l'⟩ => ⟨.ok pt'' (TailedState.valueAndSeparator v), a'', l ++ l'⟩
      | ⟨.panic, a'', l'⟩ => ⟨.panic, a'', l ++ l'⟩
      | ⟨.hang, a'', l'⟩ => ⟨.hang, a'', l ++ l'⟩
    | ⟨.panic, a', l⟩ => ⟨.panic, a', l⟩
    | ⟨.hang, a', l⟩ => ⟨.hang, a', l⟩) am m _) (fun _ _ => .hang) fun v l hv => ?_
  dsimp only
  refine hs.elim (C := fun r => Res.Ok (match r with
      | ⟨.fail pt'' _, a'', l'⟩ => ⟨.ok pt'' (TailedState.valueOnly v), a'', l ++ l'⟩
      | ⟨.ok pt'' _, a'', l'⟩ => ⟨.ok pt'' (TailedState.valueAndSeparator v), a'', l ++ l'⟩
      | ⟨.panic, a'', l'⟩ => ⟨.panic, a'', l ++ l'⟩
      | ⟨.hang, a'', l'⟩ => ⟨.hang, a'', l ++ l'⟩) am m _) (fun _ _ => .hang) fun p e l hp => ?_
  subst hp
  exact .ok ⟨v, rfl, hv⟩

theorem ok_parseTailed_both {sep : P β} {f : P α} {Q : α → Prop} {S : β → Prop} (h : (f am p).Ok am m Q)
    (hs : (sep am m).Ok am q S) : (parseTailed sep f am p).Ok am q (fun s => ∃ v, s = TailedState.valueAndSeparator v ∧ Q v) := by
  unfold parseTailed
  refine h.elim (C := fun r => Res.Ok (match r with
    | ⟨.fail pt' e, a', l⟩ => ⟨.ok pt' (TailedState.nothing e), a', l⟩
    | ⟨.ok pt' v, a', l⟩ =>
      match sep a' pt' with
      | ⟨.fail pt'' _, a'', l'⟩ => ⟨.ok pt'' (TailedState.valueOnly v), a'', l ++ l'⟩
      | ⟨.ok pt'' _, a'', l'⟩ => ⟨.ok pt'' (TailedState.valueAndSeparator v), a'', l ++ l'⟩
      | ⟨.panic, a'', l'⟩ => ⟨.panic, a'', l ++ l'⟩
      | ⟨.hang, a'', l'⟩ => ⟨.hang, a'', l ++ l'⟩
    | ⟨.panic, a', l⟩ => ⟨.panic, a', l⟩
    | ⟨.hang, a', l⟩ => ⟨.hang, a', l⟩) am q _) (fun _ _ => .hang) fun v l hv => ?_
  dsimp only
  exact hs.elim (C := fun r => Res.Ok (match r with
      | ⟨.fail pt'' _, a'', l'⟩ => ⟨.ok pt'' (TailedState.valueOnly v), a'', l ++ l'⟩
      | ⟨.ok pt'' _, a'', l'⟩ => ⟨.ok pt'' (TailedState.valueAndSeparator v), a'', l ++ l'⟩
      | ⟨.panic, a'', l'⟩ => ⟨.panic, a'', l ++ l'⟩
      | ⟨.hang, a'', l'⟩ => ⟨.hang, a'', l ++ l'⟩) am q _) (fun _ _ => .hang) fun p e l => .ok ⟨v, rfl, hv⟩

end P

end Verif
