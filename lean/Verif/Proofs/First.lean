import Verif.Proofs.Complete
/-!
# What a parser can begin with

When the token at a point is not one of those a grammar expression can begin with, its parser fails at that point, or succeeds there
without having read anything.
-/

namespace Verif
open Spec

/-- The kinds of tokens that can be read at a point: what is left of the token, or its first character. -/
def peeks (toks : List Token) (p : Pt) : List (Option TK) :=
  (current toks p).toList.map Token.kind? ++
    match toks[p.off]? with
    | some o => ((split o p.subw).map (·.1.kind?)).toList
    | none => []

/-- The kinds of tokens a grammar expression can begin with (`none` for numbers), given those of the nonterminals. -/
def G.first (F : NT → List (Option TK)) : G → List (Option TK)
  | .eps => []
  | .tok k => [some k]
  | .number | .simpleNumber => [Option.none]
  | .r n => F n
  | .seq a b => a.first F ++ if a.null then b.first F else []
  | .alt a b | .ifAmbiguous a b => a.first F ++ b.first F
  | .tailed _ sep a | .tailed1Values sep a | .implTailed _ _ sep a => a.first F ++ if a.null then sep.first F else []
  | .resume sep a => sep.first F ++ if sep.null then a.first F else []
  | .nested o _ => [some o]
  | .opt a | .many a | .ext a | .drop a | .map _ a | .build _ a | .nodeEmpty _ a | .mapErr _ a | .peek a | .amb _ a
  | .notMaximum a => a.first F

/-- The same for rules. -/
def Rule.first (F : NT → List (Option TK)) : Rule → List (Option TK)
  | .g x => x.first F
  | .expr _ => F .attribute ++ ((prefixTable.1 :: prefixTable.2).flatMap fun x => x.2.first F) ++ F .expression_atom

namespace Res
variable {α β : Type} {am : Amb} {p q : Pt} {b : Bool}

/-- Failure at `p`, or success (only if `b`) at `p`, or out of fuel. -/
def Idle (r : Res α) (am : Amb) (p : Pt) (b : Bool) : Prop :=
  r.out = .hang ∨ (r.amb = am ∧ ((∃ e, r.out = .fail p e) ∨ (b = true ∧ ∃ v, r.out = .ok p v)))

theorem Idle.elim {r : Res α} (h : r.Idle am p b) {C : Res α → Prop}
    (hang : ∀ a l, C ⟨.hang, a, l⟩) (no : ∀ e l, C ⟨.fail p e, am, l⟩)
    (ok : b = true → ∀ v l, C ⟨.ok p v, am, l⟩) : C r := by
  obtain ⟨out, a, l⟩ := r
  rcases h with h | ⟨h1, ⟨e, h2⟩ | ⟨hb, v, h2⟩⟩
  · dsimp only at h; subst h; exact hang a l
  · dsimp only at h1 h2; subst h1 h2; exact no e l
  · dsimp only at h1 h2; subst h1 h2; exact ok hb v l

theorem Idle.hang {a l} : Idle (α := α) ⟨.hang, a, l⟩ am p b := .inl rfl
theorem Idle.fail {e l} : Idle (α := α) ⟨.fail p e, am, l⟩ am p b := .inr ⟨rfl, .inl ⟨e, rfl⟩⟩
theorem Idle.ok {v : α} {l} (hb : b = true) : Idle ⟨.ok p v, am, l⟩ am p b := .inr ⟨rfl, .inr ⟨hb, v, rfl⟩⟩

theorem Idle.mono {r : Res α} {b' : Bool} (h : r.Idle am p b) (hb : b = true → b' = true) : r.Idle am p b' :=
  h.elim (C := fun r => Idle r am p b') (fun _ _ => .hang) (fun _ _ => .fail) fun h _ _ => .ok (hb h)

theorem Idle.of_no {r : Res α} (h : r.No am (· = p)) : r.Idle am p b :=
  h.elim (C := fun r => Idle r am p b) (fun _ _ => .hang) fun _ _ _ h => h ▸ .fail

theorem Idle.no {r : Res α} (h : r.Idle am p false) : r.No am (· = p) :=
  h.elim (C := fun r => No r am (· = p)) (fun _ _ => .hang) (fun _ _ => .fail rfl) fun h => by simp at h

end Res

namespace P
open Res
variable {α β γ : Type} {am : Amb} {p : Pt} {b c : Bool}

theorem idle_bind {f : P α} {g : α → P β} (h : (f am p).Idle am p b) (h' : b = true → ∀ v, (g v am p).Idle am p c) :
    ((f.bind g) am p).Idle am p (b && c) := by
  unfold P.bind
  refine h.elim (C := fun r => Res.Idle (match r with
    | ⟨.ok pt' v, a', l⟩ => match g v a' pt' with | ⟨r, a'', l'⟩ => ⟨r, a'', l ++ l'⟩
    | ⟨.fail pt' e, a', l⟩ => ⟨.fail pt' e, a', l⟩
    | ⟨.panic, a', l⟩ => ⟨.panic, a', l⟩
    | ⟨.hang, a', l⟩ => ⟨.hang, a', l⟩) am p (b && c)) (fun _ _ => .hang) (fun _ _ => .fail) fun hb v l => ?_
  dsimp only
  exact (h' hb v).elim (C := fun r => Res.Idle (match r with | ⟨r, a'', l'⟩ => ⟨r, a'', l ++ l'⟩) am p (b && c))
    (fun _ _ => .hang) (fun _ _ => .fail) fun hc _ _ => .ok (by simp [hb, hc])

theorem idle_map {f : P α} {g : α → β} (h : (f am p).Idle am p b) : ((f.map g) am p).Idle am p b := by
  unfold P.map
  exact h.elim (C := fun r => Res.Idle (match r with
    | ⟨.ok pt' v, a', l⟩ => ⟨.ok pt' (g v), a', l⟩
    | ⟨.fail pt' e, a', l⟩ => ⟨.fail pt' e, a', l⟩
    | ⟨.panic, a', l⟩ => ⟨.panic, a', l⟩
    | ⟨.hang, a', l⟩ => ⟨.hang, a', l⟩) am p b) (fun _ _ => .hang) (fun _ _ => .fail) fun hb _ _ => .ok hb

theorem idle_mapErr {f : P α} {e : PErr} (h : (f am p).Idle am p b) : ((f.mapErr e) am p).Idle am p b := by
  unfold P.mapErr
  exact h.elim (C := fun r => Res.Idle (match r with
    | ⟨.fail pt' _, a', l⟩ => ⟨.fail pt' e, a', l⟩
    | r => r) am p b) (fun _ _ => .hang) (fun _ _ => .fail) fun hb _ _ => .ok hb

theorem idle_orElse {f g : P α} (h : (f am p).Idle am p b) (h' : (g am p).Idle am p c) :
    ((f.orElse g) am p).Idle am p (b || c) := by
  unfold P.orElse
  refine h.elim (C := fun r => Res.Idle (match r with
    | ⟨.fail pt' e, a', l⟩ => match g a' p with | ⟨r, a'', l'⟩ => ⟨r, a'', l ++ l' ++ [(pt', e)]⟩
    | r => r) am p (b || c)) (fun _ _ => .hang) (fun e l => ?_) fun hb _ _ => .ok (by simp [hb])
  dsimp only
  exact h'.elim (C := fun r => Res.Idle (match r with | ⟨r, a'', l'⟩ => ⟨r, a'', l ++ l' ++ [(p, e)]⟩) am p (b || c))
    (fun _ _ => .hang) (fun _ _ => .fail) fun hb _ _ => .ok (by simp [hb])

theorem idle_optional {f : P α} (h : (f am p).Idle am p b) : ((f.optional) am p).Idle am p true := by
  unfold P.optional
  exact h.elim (C := fun r => Res.Idle (match r with
    | ⟨.ok pt' v, a', l⟩ => ⟨.ok pt' (some v), a', l⟩
    | ⟨.fail pt' e, a', l⟩ => ⟨.ok p none, a', l ++ [(pt', e)]⟩
    | ⟨.panic, a', l⟩ => ⟨.panic, a', l⟩
    | ⟨.hang, a', l⟩ => ⟨.hang, a', l⟩) am p true) (fun _ _ => .hang) (fun _ _ => .ok rfl) fun hb _ _ => .ok rfl

theorem idle_peek {f : P α} (h : (f am p).Idle am p b) : ((f.peek) am p).Idle am p true := by
  unfold P.peek
  exact h.elim (C := fun r => Res.Idle (match r with
    | ⟨.ok _ v, a', l⟩ => ⟨.ok p v, a', l⟩
    | ⟨.fail _ e, a', l⟩ => ⟨.fail p e, a', l⟩
    | r => r) am p true) (fun _ _ => .hang) (fun _ _ => .fail) fun hb _ _ => .ok rfl

theorem idle_amb {f : P α} {level : Amb} (h : (f level p).Idle level p b) :
    ((setAmbiguityLevel level f) am p).Idle am p b := by
  unfold setAmbiguityLevel
  exact h.elim (C := fun r => Res.Idle (match r with | ⟨r, _, l⟩ => ⟨r, am, l⟩) am p b) (fun _ _ => .hang) (fun _ _ => .fail)
    fun hb _ _ => .ok hb

theorem idle_spanned {toks : List Token} {f : P α} (hv : ValidPt toks p) (h : (f am p).Idle am p b) :
    ((spanned toks f) am p).Idle am p b := by
  unfold spanned
  obtain ⟨e, he⟩ := ex_isSome (.refl hv)
  refine h.elim (C := fun r => Res.Idle (match r with
  | ⟨.ok pt v, a', l⟩ =>
    match ex toks p pt with
    | some e => ⟨.ok pt (e, v), a', l⟩
    | none => ⟨.panic, a', l⟩
  | ⟨.fail pt e, a', l⟩ => ⟨.fail pt e, a', l⟩
  | ⟨.panic, a', l⟩ => ⟨.panic, a', l⟩
  | ⟨.hang, a', l⟩ => ⟨.hang, a', l⟩) am p b) (fun _ _ => .hang) (fun _ _ => .fail) fun hb v l => ?_
  dsimp only
  rw [he]
  exact .ok hb

theorem idle_spannedEmpty {toks : List Token} {f : P α} (hv : ValidPt toks p) (h : (f am p).Idle am p b) :
    ((spannedEmpty toks f) am p).Idle am p b := by
  unfold spannedEmpty
  obtain ⟨e, he⟩ := ex_isSome (.refl hv)
  refine h.elim (C := fun r => Res.Idle (match r with
  | ⟨.ok pt v, a', l⟩ =>
    match ex toks p p with
    | some e => ⟨.ok pt (e, v), a', l⟩
    | none => ⟨.panic, a', l⟩
  | ⟨.fail pt e, a', l⟩ => ⟨.fail pt e, a', l⟩
  | ⟨.panic, a', l⟩ => ⟨.panic, a', l⟩
  | ⟨.hang, a', l⟩ => ⟨.hang, a', l⟩) am p b) (fun _ _ => .hang) (fun _ _ => .fail) fun hb v l => ?_
  dsimp only
  rw [he]
  exact .ok hb

theorem idle_zeroOrMore {f : P α} (h : (f am p).Idle am p b) (n : Nat) : ((zeroOrMore f n) am p).Idle am p true := by
  induction n with
  | zero => exact .hang
  | succ n ih =>
    unfold zeroOrMore
    refine h.elim (C := fun r => Res.Idle (match r with
    | ⟨.ok pt' v, a', l⟩ =>
      match zeroOrMore f n a' pt' with
      | ⟨.ok pt'' vs, a'', l'⟩ => ⟨.ok pt'' (v :: vs), a'', l ++ l'⟩
      | ⟨r, a'', l'⟩ => ⟨r, a'', l ++ l'⟩
    | ⟨.fail pt' e, a', l⟩ => ⟨.ok p [], a', l ++ [(pt', e)]⟩
    | ⟨.panic, a', l⟩ => ⟨.panic, a', l⟩
    | ⟨.hang, a', l⟩ => ⟨.hang, a', l⟩) am p true) (fun _ _ => .hang) (fun _ _ => .ok rfl) fun hb v l => ?_
    dsimp only
    exact ih.elim (C := fun r => Res.Idle (match r with
      | ⟨.ok pt'' vs, a'', l'⟩ => ⟨.ok pt'' (v :: vs), a'', l ++ l'⟩
      | ⟨r, a'', l'⟩ => ⟨r, a'', l ++ l'⟩) am p true) (fun _ _ => .hang) (fun _ _ => .fail) fun hb v l => .ok rfl

theorem idle_parseTailed {sep : P β} {f : P α} (h : (f am p).Idle am p b) (h' : b = true → (sep am p).Idle am p c) :
    (parseTailed sep f am p).Idle am p true := by
  unfold parseTailed
  refine h.elim (C := fun r => Res.Idle (match r with
    | ⟨.fail pt' e, a', l⟩ => ⟨.ok pt' (TailedState.nothing e), a', l⟩
    | ⟨.ok pt' v, a', l⟩ =>
      match sep a' pt' with
      | ⟨.fail pt'' _, a'', l'⟩ => ⟨.ok pt'' (TailedState.valueOnly v), a'', l ++ l'⟩
      | ⟨.ok pt'' _, a'', l'⟩ => ⟨.ok pt'' (TailedState.valueAndSeparator v), a'', l ++ l'⟩
      | ⟨.panic, a'', l'⟩ => ⟨.panic, a'', l ++ l'⟩
      | ⟨.hang, a'', l'⟩ => ⟨.hang, a'', l ++ l'⟩
    | ⟨.panic, a', l⟩ => ⟨.panic, a', l⟩
    | ⟨.hang, a', l⟩ => ⟨.hang, a', l⟩) am p true) (fun _ _ => .hang) (fun _ _ => .ok rfl) fun hb v l => ?_
  dsimp only
  exact (h' hb).elim (C := fun r => Res.Idle (match r with
      | ⟨.fail pt'' _, a'', l'⟩ => ⟨.ok pt'' (TailedState.valueOnly v), a'', l ++ l'⟩
      | ⟨.ok pt'' _, a'', l'⟩ => ⟨.ok pt'' (TailedState.valueAndSeparator v), a'', l ++ l'⟩
      | ⟨.panic, a'', l'⟩ => ⟨.panic, a'', l ++ l'⟩
      | ⟨.hang, a'', l'⟩ => ⟨.hang, a'', l ++ l'⟩) am p true) (fun _ _ => .hang) (fun _ _ => .ok rfl) fun _ _ _ => .ok rfl

theorem idle_pure {v : α} : (P.pure v am p).Idle am p true := .ok rfl

theorem idle_zeroOrMoreTailedAppend {sep : P β} {f : P α} (h : (f am p).Idle am p b)
    (h' : b = true → (sep am p).Idle am p c) (n : Nat) :
    ∀ t, (zeroOrMoreTailedAppend sep f n t am p).Idle am p true := by
  induction n with
  | zero => exact fun _ => .hang
  | succ n ih =>
    intro t
    unfold zeroOrMoreTailedAppend
    refine idle_bind (idle_parseTailed h h') fun _ x => ?_
    cases x with
    | nothing e => exact idle_pure
    | valueOnly v => exact idle_pure
    | valueAndSeparator v => exact ih _

theorem idle_zeroOrMoreImplicitlyTailed {impl : α → Bool} {sep : P β} {f : P α} (h : (f am p).Idle am p b)
    (h' : b = true → (sep am p).Idle am p c) (n : Nat) :
    ∀ t, (zeroOrMoreImplicitlyTailed impl sep f n t am p).Idle am p true := by
  induction n with
  | zero => exact fun _ => .hang
  | succ n ih =>
    intro t
    unfold zeroOrMoreImplicitlyTailed
    refine idle_bind (idle_parseTailed h h') fun _ x => ?_
    cases x with
    | nothing e => exact idle_pure
    | valueOnly v =>
      dsimp only
      split
      · exact ih _
      · exact idle_pure
    | valueAndSeparator v => exact ih _

theorem idle_oneOrMoreTailed {sep : P β} {f : P α} (h : (f am p).Idle am p b)
    (h' : b = true → (sep am p).Idle am p c) (n : Nat) : (oneOrMoreTailed sep f n am p).Idle am p b := by
  unfold oneOrMoreTailed
  cases b with
  | true =>
    refine idle_bind (b := true) (idle_parseTailed h h') fun _ x => ?_
    cases x with
    | nothing e => exact .fail
    | valueOnly v => exact idle_pure
    | valueAndSeparator v => exact idle_zeroOrMoreTailedAppend h h' _ _
  | false =>
    unfold P.bind
    rcases ok_parseTailed_nothing (sep := sep) h.no with h1 | ⟨h1, q, e, h2, rfl⟩
    · generalize parseTailed sep f am p = r at h1
      obtain ⟨out, a, l⟩ := r
      dsimp only at h1; subst h1; exact .hang
    · generalize parseTailed sep f am q = r at h1 h2
      obtain ⟨out, a, l⟩ := r
      dsimp only at h1 h2; subst h1 h2; exact .fail

theorem idle_resume {sep : P β} {f : P α} (hs : (sep am p).Idle am p b)
    (h : b = true → (f am p).Idle am p c) (n : Nat) : (zeroOrMoreTailedValuesResume sep f n am p).Idle am p true := by
  unfold zeroOrMoreTailedValuesResume
  refine hs.elim (C := fun r => Res.Idle (match r with
  | ⟨.fail pt _, a', l⟩ => ⟨.ok pt [], a', l⟩
  | ⟨.ok pt _, a', l⟩ =>
    match oneOrMoreTailed sep f n a' pt with
    | ⟨.fail _ _, a'', l'⟩ => ⟨.ok p [], a'', l ++ l'⟩
    | ⟨.ok pt' t, a'', l'⟩ => ⟨.ok pt' t.values, a'', l ++ l'⟩
    | ⟨.panic, a'', l'⟩ => ⟨.panic, a'', l ++ l'⟩
    | ⟨.hang, a'', l'⟩ => ⟨.hang, a'', l ++ l'⟩
  | ⟨.panic, a', l⟩ => ⟨.panic, a', l⟩
  | ⟨.hang, a', l⟩ => ⟨.hang, a', l⟩) am p true) (fun _ _ => .hang) (fun _ _ => .ok rfl) fun hb v l => ?_
  dsimp only
  exact (idle_oneOrMoreTailed (h hb) (fun _ => hs) n).elim (C := fun r => Res.Idle (match r with
    | ⟨.fail _ _, a'', l'⟩ => ⟨.ok p [], a'', l ++ l'⟩
    | ⟨.ok pt' t, a'', l'⟩ => ⟨.ok pt' t.values, a'', l ++ l'⟩
    | ⟨.panic, a'', l'⟩ => ⟨.panic, a'', l ++ l'⟩
    | ⟨.hang, a'', l'⟩ => ⟨.hang, a'', l ++ l'⟩) am p true) (fun _ _ => .hang) (fun _ _ => .ok rfl) fun _ _ _ => .ok rfl

end P

section
variable {toks : List Token} {am : Amb} {p : Pt}

theorem current_isSome (hv : ValidPt toks p) : ∃ o t, toks[p.off]? = some o ∧ current toks p = some t := by
  obtain ⟨o, ho, hs⟩ := hv
  refine ⟨o, ?_⟩
  unfold current
  rw [ho]
  cases h : p.sub with
  | none => exact ⟨o, rfl, rfl⟩
  | some n => obtain ⟨x, hx⟩ := Option.isSome_iff_exists.mp (hs n h); exact ⟨x.2, rfl, by simp [hx]⟩

theorem idle_token {α : Type} {conv : Token → Option α} {err : PErr} (hv : ValidPt toks p)
    (h : ∀ t : Token, t.kind? ∈ peeks toks p → conv t = none) : (token toks conv err am p).Idle am p false := by
  obtain ⟨o, t, ho, ht⟩ := current_isSome hv
  rw [token_eq, ho, ht]
  dsimp only
  have h1 : conv t = none := h t (by simp [peeks, ht])
  rw [h1]
  dsimp only
  cases hs : split o p.subw with
  | none => exact .fail
  | some x =>
    obtain ⟨y, z⟩ := x
    dsimp only
    have h2 : conv y = none := h y (by simp [peeks, ho, hs])
    rw [h2]
    exact .fail

theorem idle_tok {k : TK} {err : PErr} (hv : ValidPt toks p) (h : some k ∉ peeks toks p) :
    (token toks (convTK k) err am p).Idle am p false := by
  refine idle_token hv fun t ht => ?_
  cases t with
  | number => rfl
  | plain k' e =>
    simp only [convTK]
    split
    · next hk => subst hk; exact absurd ht h
    · rfl

theorem idle_number {err : PErr} (hv : ValidPt toks p) (h : none ∉ peeks toks p) :
    (token toks convNumber err am p).Idle am p false := by
  refine idle_token hv fun t ht => ?_
  cases t with
  | number => exact absurd ht h
  | plain k' e => rfl

theorem idle_fieldNameNumber (hv : ValidPt toks p) (h : none ∉ peeks toks p) :
    (fieldNameNumber toks am p).Idle am p false := by
  unfold fieldNameNumber
  exact (idle_number hv h).elim (C := fun r => Res.Idle (match r with
  | ⟨.ok pt' n, a', l⟩ =>
    match n.intoSimple with
    | some e => ⟨.ok pt' [V.ext e], a', l⟩
    | none => ⟨.fail p .ExpectedNumber, a', l⟩
  | ⟨.fail pt' e, a', l⟩ => ⟨.fail pt' e, a', l⟩
  | ⟨.panic, a', l⟩ => ⟨.panic, a', l⟩
  | ⟨.hang, a', l⟩ => ⟨.hang, a', l⟩) am p false) (fun _ _ => .hang) (fun _ _ => .fail) (fun h => by simp at h)

/-- None of the kinds is to be seen. -/
def Unseen (toks : List Token) (p : Pt) (ks : List (Option TK)) : Prop := ∀ k ∈ ks, k ∉ peeks toks p

theorem Unseen.left {a b : List (Option TK)} (h : Unseen toks p (a ++ b)) : Unseen toks p a :=
  fun k hk => h k (by simp [hk])
theorem Unseen.right {a b : List (Option TK)} (h : Unseen toks p (a ++ b)) : Unseen toks p b :=
  fun k hk => h k (by simp [hk])
theorem Unseen.ite {a b : List (Option TK)} {c : Bool} (h : Unseen toks p (a ++ if c then b else [])) (hc : c = true) :
    Unseen toks p b := by
  subst hc; exact h.right

variable {F : NT → List (Option TK)} {rec : NT → P (List V)}

theorem idle_evalG (hv : ValidPt toks p)
    (hr : ∀ nt am, Unseen toks p (F nt) → (rec nt am p).Idle am p nt.nullable) (g : G) :
    ∀ am, Unseen toks p (g.first F) → (evalG toks rec g am p).Idle am p g.null := by
  induction g with
  | eps => exact fun am _ => P.idle_pure
  | tok k => exact fun am h => P.idle_map (idle_tok hv (h _ (by simp [G.first])))
  | number => exact fun am h => P.idle_map (idle_number hv (h _ (by simp [G.first])))
  | simpleNumber => exact fun am h => idle_fieldNameNumber hv (h _ (by simp [G.first]))
  | r n => exact fun am h => hr n am h
  | seq a b iha ihb =>
    intro am h
    exact P.idle_bind (iha am h.left) fun hn v => P.idle_map (ihb am (h.ite hn))
  | alt a b iha ihb => exact fun am h => P.idle_orElse (iha am h.left) (ihb am h.right)
  | opt a ih => exact fun am h => P.idle_map (P.idle_optional (ih am h))
  | many a ih => exact fun am h => P.idle_map (P.idle_zeroOrMore (ih am h) _)
  | tailed k sep a ihs iha =>
    exact fun am h => P.idle_map (P.idle_zeroOrMoreTailedAppend (iha am h.left) (fun hn => ihs am (h.ite hn)) _ _)
  | tailed1Values sep a ihs iha =>
    exact fun am h => P.idle_map (P.idle_oneOrMoreTailed (iha am h.left) (fun hn => ihs am (h.ite hn)) _)
  | resume sep a ihs iha =>
    exact fun am h => P.idle_map (P.idle_resume (ihs am h.left) (fun hn => iha am (h.ite hn)) _)
  | implTailed k i sep a ihs iha =>
    exact fun am h => P.idle_map (P.idle_zeroOrMoreImplicitlyTailed (iha am h.left) (fun hn => ihs am (h.ite hn)) _ _)
  | nested o c =>
    exact fun am h => (P.idle_bind (c := false) (idle_tok hv (h _ (by simp [G.first]))) (fun hf => by simp at hf))
  | ext a ih => exact fun am h => P.idle_map (P.idle_spanned hv (ih am h))
  | drop a ih => exact fun am h => P.idle_map (ih am h)
  | map f a ih => exact fun am h => P.idle_map (ih am h)
  | build m a ih => exact fun am h => P.idle_map (P.idle_spanned hv (ih am h))
  | nodeEmpty k a ih => exact fun am h => P.idle_map (P.idle_spannedEmpty hv (ih am h))
  | mapErr e a ih => exact fun am h => P.idle_mapErr (ih am h)
  | peek a ih => exact fun am h => P.idle_peek (ih am h)
  | amb l a ih => exact fun am h => P.idle_amb (ih l h)
  | ifAmbiguous a b iha ihb =>
    intro am h
    unfold evalG G.null
    split
    · exact (iha am h.left).mono (by simp_all)
    · exact (ihb am h.right).mono (by simp_all)
  | notMaximum a ih =>
    intro am h
    unfold evalG
    split
    · exact .fail
    · exact ih am h

theorem idle_tableP {α : Type} (hv : ValidPt toks p)
    (hr : ∀ nt am, Unseen toks p (F nt) → (rec nt am p).Idle am p nt.nullable) {t : (α × G) × List (α × G)}
    (hn : ∀ x ∈ t.1 :: t.2, x.2.null = false) (h : Unseen toks p ((t.1 :: t.2).flatMap fun x => x.2.first F)) (am : Amb) :
    (tableP toks rec t am p).Idle am p false := by
  have one : ∀ x ∈ t.1 :: t.2, (((evalG toks rec x.2).map fun vs => (x.1, vs)) am p).Idle am p false := by
    intro x hx
    have := idle_evalG hv hr x.2 am (fun k hk => h k (List.mem_flatMap.mpr ⟨x, hx, hk⟩))
    rw [hn x hx] at this
    exact P.idle_map this
  unfold tableP
  dsimp only
  obtain ⟨x, xs⟩ := t
  dsimp only at one ⊢
  have h0 := one x (by simp)
  have h1 := fun y hy => one y (List.mem_cons_of_mem x hy)
  clear one hn h
  generalize ((evalG toks rec x.2).map fun vs => (x.1, vs)) = f at h0
  induction xs generalizing f with
  | nil => exact h0
  | cons y ys ih =>
    exact ih (fun z hz => h1 z (by simp [hz])) _ (P.idle_orElse h0 (h1 y (by simp)))

theorem idle_attributedP {α : Type} (hv : ValidPt toks p)
    (hr : ∀ nt am, Unseen toks p (F nt) → (rec nt am p).Idle am p nt.nullable) {f : P α} {am : Amb}
    (ha : Unseen toks p (F .attribute)) (h : (f am p).Idle am p false) : (attributedP toks rec f am p).Idle am p false := by
  unfold attributedP
  refine P.idle_spanned hv ?_
  exact P.idle_bind (b := true) (P.idle_zeroOrMore (hr .attribute am ha) _) fun _ _ => P.idle_map h

theorem idle_shuntingYard (hv : ValidPt toks p)
    (hr : ∀ nt am, Unseen toks p (F nt) → (rec nt am p).Idle am p nt.nullable) {am : Amb} {stmt : Bool} (n : Nat)
    (h : Unseen toks p ((Rule.expr stmt).first F)) :
    (shuntingYard toks (exprParsers toks rec) stmt n am p).Idle am p false := by
  cases n with
  | zero => exact .hang
  | succ n =>
    have h1 : ((exprParsers toks rec).prefixOrAtom am p).Idle am p false := by
      unfold exprParsers
      dsimp only
      exact P.idle_orElse
        (P.idle_map (idle_attributedP hv hr h.left.left (idle_tableP hv hr prefixTable_null h.left.right am)))
        (P.idle_map (idle_attributedP hv hr h.left.left (hr .expression_atom am h.right)))
    have h2 : (shuntStep toks (exprParsers toks rec) {} .Prefix am p).Ok am p
        (fun s => s = .stop (.err p .ExpectedExpression)) := by
      unfold shuntStep
      dsimp only
      simp only [Bool.false_eq_true, if_false]
      generalize (exprParsers toks rec).prefixOrAtom am p = r at h1
      obtain ⟨out, a, l⟩ := r
      rcases h1 with h | ⟨h, ⟨e, h'⟩ | ⟨h', -⟩⟩
      · dsimp only at h; subst h; exact .hang
      · dsimp only at h h'; subst h h'; exact .ok rfl
      · simp at h'
    unfold shuntingYard shuntLoop
    refine .of_no (P.no_bind_right h2 fun v hv => ?_)
    subst hv
    exact .fail rfl

theorem idle_evalRule (hv : ValidPt toks p)
    (hr : ∀ nt am, Unseen toks p (F nt) → (rec nt am p).Idle am p nt.nullable) (r : Rule) (am : Amb)
    (h : Unseen toks p (r.first F)) : (evalRule toks rec r am p).Idle am p r.null := by
  cases r with
  | g g => exact idle_evalG hv hr g am h
  | expr stmt => exact P.idle_map (idle_shuntingYard hv hr _ h)

theorem idle_eval (hF : ∀ nt, ∀ k ∈ (rules nt).first F, k ∈ F nt) (hv : ValidPt toks p) (n : Nat) :
    ∀ nt am, Unseen toks p (F nt) → (eval toks n nt am p).Idle am p nt.nullable := by
  induction n with
  | zero => exact fun _ _ _ => .hang
  | succ n ih =>
    intro nt am h
    exact (idle_evalRule hv ih (rules nt) am fun k hk => h k (hF nt k hk)).mono (rules_null nt)

end

end Verif
