import Verif.Proofs.Prefix
/-!
# Tokens in front do not matter

A parser that starts after some tokens does what it does without them, only that its points are that much further.
-/

namespace Verif
open Spec

/-- A point, after `d` more tokens. -/
def Pt.up (d : Nat) (p : Pt) : Pt := ⟨p.off + d, p.sub⟩

def Log.up (d : Nat) (l : Log) : Log := l.map fun x => (x.1.up d, x.2)

def Out.up {α : Type} (d : Nat) : Out α → Out α
  | .ok p v => .ok (p.up d) v
  | .fail p e => .fail (p.up d) e
  | .panic => .panic
  | .hang => .hang

def Res.up {α : Type} (d : Nat) (r : Res α) : Res α := ⟨r.out.up d, r.amb, Log.up d r.log⟩

@[simp] theorem Log.up_nil (d : Nat) : Log.up d [] = [] := rfl
@[simp] theorem Log.up_append (d : Nat) (l l' : Log) : Log.up d (l ++ l') = Log.up d l ++ Log.up d l' := by simp [Log.up]
@[simp] theorem Log.up_cons (d : Nat) (p : Pt) (e : PErr) (l : Log) : Log.up d ((p, e) :: l) = (p.up d, e) :: Log.up d l := rfl

section
variable {α β : Type} {d : Nat}
@[simp] theorem up_ok (p : Pt) (v : α) (a : Amb) (l : Log) : (⟨.ok p v, a, l⟩ : Res α).up d = ⟨.ok (p.up d) v, a, Log.up d l⟩ := rfl
@[simp] theorem up_fail (p : Pt) (e : PErr) (a : Amb) (l : Log) : (⟨.fail p e, a, l⟩ : Res α).up d = ⟨.fail (p.up d) e, a, Log.up d l⟩ := rfl
@[simp] theorem up_sub (p : Pt) : (p.up d).sub = p.sub := rfl
@[simp] theorem up_off (p : Pt) : (p.up d).off = p.off + d := rfl
@[simp] theorem up_subw (p : Pt) : (p.up d).subw = p.subw := rfl
theorem up_lt {p q : Pt} : (p.up d).lt (q.up d) ↔ p.lt q := by simp [Pt.lt]
theorem up_advance (p : Pt) (n : Nat) : (p.advanceBy n).up d = (p.up d).advanceBy n := by simp [Pt.up, Pt.advanceBy]; omega

/-- The second parser does the same, after `d` more tokens. -/
def Moves (d : Nat) (p p' : P α) : Prop := ∀ a pt, ¬ (p a pt).dead → p' a (pt.up d) = (p a pt).up d

namespace Moves

theorem pure {v : α} : Moves d (P.pure v) (P.pure v) := fun _ _ _ => rfl
theorem failure {e : PErr} : Moves d (P.failure e : P α) (P.failure e) := fun _ _ _ => rfl
theorem hang {p' : P α} : Moves d (fun a _ => ⟨.hang, a, []⟩) p' := fun _ _ h => absurd trivial h

theorem bind {p p' : P α} {f f' : α → P β} (h : Moves d p p') (hf : ∀ v, Moves d (f v) (f' v)) : Moves d (p.bind f) (p'.bind f') := by
  intro a pt hd
  unfold P.bind at hd ⊢
  have h1 := h a pt
  rcases hr : p a pt with ⟨⟨q, v⟩ | ⟨q, e⟩ | _ | _, a', l⟩ <;> rw [hr] at h1 hd <;> simp at h1 hd <;> rw [h1] <;> simp
  have h2 := hf v a' q
  rcases hs : f v a' q with ⟨⟨q', v'⟩ | ⟨q', e⟩ | _ | _, a'', l'⟩ <;> rw [hs] at h2 hd <;> simp at h2 hd <;> rw [h2] <;> simp

theorem map {p p' : P α} {f : α → β} (h : Moves d p p') : Moves d (p.map f) (p'.map f) := by
  intro a pt hd
  unfold P.map at hd ⊢
  have h1 := h a pt
  rcases hr : p a pt with ⟨⟨q, v⟩ | ⟨q, e⟩ | _ | _, a', l⟩ <;> rw [hr] at h1 hd <;> simp at h1 hd <;> rw [h1] <;> simp

theorem mapErr {p p' : P α} {e : PErr} (h : Moves d p p') : Moves d (p.mapErr e) (p'.mapErr e) := by
  intro a pt hd
  unfold P.mapErr at hd ⊢
  have h1 := h a pt
  rcases hr : p a pt with ⟨⟨q, v⟩ | ⟨q, e⟩ | _ | _, a', l⟩ <;> rw [hr] at h1 hd <;> simp at h1 hd <;> rw [h1] <;> simp

theorem orElse {p p' q q' : P α} (h : Moves d p p') (h' : Moves d q q') : Moves d (p.orElse q) (p'.orElse q') := by
  intro a pt hd
  unfold P.orElse at hd ⊢
  have h1 := h a pt
  rcases hr : p a pt with ⟨⟨q1, v⟩ | ⟨q1, e⟩ | _ | _, a', l⟩ <;> rw [hr] at h1 hd <;> simp at h1 hd <;> rw [h1] <;> simp
  have h2 := h' a' pt
  rcases hs : q a' pt with ⟨⟨q', v'⟩ | ⟨q', e⟩ | _ | _, a'', l'⟩ <;> rw [hs] at h2 hd <;> simp at h2 hd <;> rw [h2] <;> simp

theorem optional {p p' : P α} (h : Moves d p p') : Moves d p.optional p'.optional := by
  intro a pt hd
  unfold P.optional at hd ⊢
  have h1 := h a pt
  rcases hr : p a pt with ⟨⟨q, v⟩ | ⟨q, e⟩ | _ | _, a', l⟩ <;> rw [hr] at h1 hd <;> simp at h1 hd <;> rw [h1] <;> simp

theorem peek {p p' : P α} (h : Moves d p p') : Moves d p.peek p'.peek := by
  intro a pt hd
  unfold P.peek at hd ⊢
  have h1 := h a pt
  rcases hr : p a pt with ⟨⟨q, v⟩ | ⟨q, e⟩ | _ | _, a', l⟩ <;> rw [hr] at h1 hd <;> simp at h1 hd <;> rw [h1] <;> simp

theorem setAmbiguityLevel {p p' : P α} {level : Amb} (h : Moves d p p') :
    Moves d (P.setAmbiguityLevel level p) (P.setAmbiguityLevel level p') := by
  intro a pt hd
  unfold P.setAmbiguityLevel at hd ⊢
  have h1 := h level pt
  rcases hr : p level pt with ⟨⟨q, v⟩ | ⟨q, e⟩ | _ | _, a', l⟩ <;> rw [hr] at h1 hd <;> simp at h1 hd <;> rw [h1] <;> simp

theorem zeroOrMore {p p' : P α} (h : Moves d p p') (n : Nat) : ∀ n', n ≤ n' → Moves d (P.zeroOrMore p n) (P.zeroOrMore p' n') := by
  induction n with
  | zero => intro n' _; exact hang
  | succ n ih =>
    intro n' hn
    obtain ⟨n', rfl⟩ : ∃ k, n' = k + 1 := ⟨n' - 1, by omega⟩
    intro a pt hd
    unfold P.zeroOrMore at hd ⊢
    have h1 := h a pt
    rcases hr : p a pt with ⟨⟨q, v⟩ | ⟨q, e⟩ | _ | _, a', l⟩ <;> rw [hr] at h1 hd <;> simp at h1 hd <;> rw [h1] <;> simp
    have h2 := ih n' (by omega) a' q
    rcases hs : P.zeroOrMore p n a' q with ⟨⟨q', v'⟩ | ⟨q', e⟩ | _ | _, a'', l'⟩ <;> rw [hs] at h2 hd <;> simp at h2 hd <;> rw [h2] <;> simp

theorem parseTailed {s s' : P β} {p p' : P α} (hs : Moves d s s') (h : Moves d p p') : Moves d (P.parseTailed s p) (P.parseTailed s' p') := by
  intro a pt hd
  unfold P.parseTailed at hd ⊢
  have h1 := h a pt
  rcases hr : p a pt with ⟨⟨q, v⟩ | ⟨q, e⟩ | _ | _, a', l⟩ <;> rw [hr] at h1 hd <;> simp at h1 hd <;> rw [h1] <;> simp
  have h2 := hs a' q
  rcases hs : s a' q with ⟨⟨q', v'⟩ | ⟨q', e⟩ | _ | _, a'', l'⟩ <;> rw [hs] at h2 hd <;> simp at h2 hd <;> rw [h2] <;> simp

theorem zeroOrMoreTailedAppend {s s' : P β} {p p' : P α} (hs : Moves d s s') (h : Moves d p p') (n : Nat) : ∀ n' t, n ≤ n' →
    Moves d (P.zeroOrMoreTailedAppend s p n t) (P.zeroOrMoreTailedAppend s' p' n' t) := by
  induction n with
  | zero => intro n' t _; exact hang
  | succ n ih =>
    intro n' t hn
    obtain ⟨n', rfl⟩ : ∃ k, n' = k + 1 := ⟨n' - 1, by omega⟩
    refine bind (parseTailed hs h) fun v => ?_
    cases v with
    | nothing => exact pure
    | valueOnly => exact pure
    | valueAndSeparator => exact ih _ _ (by omega)

theorem implTailed {impl : α → Bool} {s s' : P β} {p p' : P α} (hs : Moves d s s') (h : Moves d p p') (n : Nat) : ∀ n' t, n ≤ n' →
    Moves d (P.zeroOrMoreImplicitlyTailed impl s p n t) (P.zeroOrMoreImplicitlyTailed impl s' p' n' t) := by
  induction n with
  | zero => intro n' t _; exact hang
  | succ n ih =>
    intro n' t hn
    obtain ⟨n', rfl⟩ : ∃ k, n' = k + 1 := ⟨n' - 1, by omega⟩
    refine bind (parseTailed hs h) fun v => ?_
    cases v with
    | nothing => exact pure
    | valueOnly v =>
      dsimp only
      split
      · exact ih _ _ (by omega)
      · exact pure
    | valueAndSeparator => exact ih _ _ (by omega)

theorem oneOrMoreTailed {s s' : P β} {p p' : P α} (hs : Moves d s s') (h : Moves d p p') {n n' : Nat} (hn : n ≤ n') :
    Moves d (P.oneOrMoreTailed s p n) (P.oneOrMoreTailed s' p' n') := by
  refine bind (parseTailed hs h) fun v => ?_
  cases v with
  | nothing => exact failure
  | valueOnly => exact pure
  | valueAndSeparator => exact zeroOrMoreTailedAppend hs h _ _ _ hn

theorem resume {s s' : P β} {p p' : P α} (hs : Moves d s s') (h : Moves d p p') {n n' : Nat} (hn : n ≤ n') :
    Moves d (P.zeroOrMoreTailedValuesResume s p n) (P.zeroOrMoreTailedValuesResume s' p' n') := by
  intro a pt hd
  unfold P.zeroOrMoreTailedValuesResume at hd ⊢
  have h1 := hs a pt
  rcases hr : s a pt with ⟨⟨q, v⟩ | ⟨q, e⟩ | _ | _, a', l⟩ <;> rw [hr] at h1 hd <;> simp at h1 hd <;> rw [h1] <;> simp
  have h2 := oneOrMoreTailed hs h hn a' q
  rcases hs : P.oneOrMoreTailed s p n a' q with ⟨⟨q', v'⟩ | ⟨q', e⟩ | _ | _, a'', l'⟩ <;> rw [hs] at h2 hd <;> simp at h2 hd <;> rw [h2] <;> simp

end Moves
end

/-! ## Tokens -/

section
variable {α : Type} (A : List Token) (toks : List Token)

theorem up_get (i : Nat) : (A ++ toks)[i + A.length]? = toks[i]? := by
  rw [List.getElem?_append_right (by omega)]
  simp

theorem up_ex (p q : Pt) : ex (A ++ toks) (p.up A.length) (q.up A.length) = ex toks p q := by
  unfold ex
  simp only [up_off, up_get, up_subw, Nat.add_lt_add_iff_right, Nat.add_right_cancel_iff]
  cases toks[p.off]? with
  | none => rfl
  | some t =>
    dsimp only
    split
    · rename_i h
      have e : q.off + A.length - 1 = (q.off - 1) + A.length := by omega
      rw [e, up_get]
    · rfl

theorem Moves.token (conv : Token → Option α) (err : PErr) : Moves A.length (token toks conv err) (token (A ++ toks) conv err) := by
  intro a pt _
  unfold Verif.token
  simp only [up_off, up_get, up_sub]
  cases toks[pt.off]? with
  | none => rfl
  | some t =>
    dsimp only
    split
    · rfl
    · split
      · rw [up_ok, up_advance]; rfl
      · split
        · split <;> rfl
        · rfl

theorem Moves.fieldNameNumber : Moves A.length (fieldNameNumber toks) (fieldNameNumber (A ++ toks)) := by
  intro a pt hd
  unfold Verif.fieldNameNumber at hd ⊢
  have h1 := Moves.token A toks convNumber .ExpectedNumber a pt
  rcases hr : Verif.token toks convNumber .ExpectedNumber a pt with ⟨⟨q, v⟩ | ⟨q, e⟩ | _ | _, a', l⟩ <;> rw [hr] at h1 hd <;>
    simp at h1 hd <;> rw [h1] <;> simp
  cases v.intoSimple <;> rfl

theorem Moves.parseNestedUntil (o c : Token → Bool) : Moves A.length (parseNestedUntil toks o c) (parseNestedUntil (A ++ toks) o c) := by
  intro a pt hd
  unfold Verif.parseNestedUntil
  have e : (A ++ toks).drop (pt.up A.length).off = toks.drop pt.off := by
    rw [up_off, Nat.add_comm, ← List.drop_drop, List.drop_left]
  dsimp only
  rw [e, ← up_advance, up_ex]
  cases ex toks pt (pt.advanceBy (nestedLen o c 0 (toks.drop pt.off))) <;> rfl

theorem Moves.spanned {p p' : P α} (h : Moves A.length p p') : Moves A.length (P.spanned toks p) (P.spanned (A ++ toks) p') := by
  intro a pt hd
  unfold P.spanned at hd ⊢
  have h1 := h a pt
  rcases hr : p a pt with ⟨⟨q, v⟩ | ⟨q, e⟩ | _ | _, a', l⟩ <;> rw [hr] at h1 hd <;> simp at h1 hd <;> rw [h1] <;> simp
  rw [up_ex]
  cases ex toks pt q <;> rfl

theorem Moves.spannedEmpty {p p' : P α} (h : Moves A.length p p') :
    Moves A.length (P.spannedEmpty toks p) (P.spannedEmpty (A ++ toks) p') := by
  intro a pt hd
  unfold P.spannedEmpty at hd ⊢
  have h1 := h a pt
  rcases hr : p a pt with ⟨⟨q, v⟩ | ⟨q, e⟩ | _ | _, a', l⟩ <;> rw [hr] at h1 hd <;> simp at h1 hd <;> rw [h1] <;> simp
  rw [up_ex]
  cases ex toks pt pt <;> rfl

theorem loopFuel_up : loopFuel toks ≤ loopFuel (A ++ toks) := by simp [loopFuel]; omega

variable {rec rec' : NT → P (List V)}

theorem evalG_up (hr : ∀ nt, Moves A.length (rec nt) (rec' nt)) (g : G) :
    Moves A.length (evalG toks rec g) (evalG (A ++ toks) rec' g) := by
  have hf := loopFuel_up A toks
  induction g with
  | eps => exact .pure
  | tok k => exact .map (.token A toks _ _)
  | number => exact .map (.token A toks _ _)
  | simpleNumber => exact .fieldNameNumber A toks
  | r n => exact hr n
  | seq a b iha ihb => exact .bind iha fun _ => .map ihb
  | alt a b iha ihb => exact .orElse iha ihb
  | opt a ih => exact .map (.optional ih)
  | many a ih => exact .map (.zeroOrMore ih _ _ hf)
  | tailed k s a ihs iha => exact .map (.zeroOrMoreTailedAppend ihs iha _ _ _ hf)
  | tailed1Values s a ihs iha => exact .map (.oneOrMoreTailed ihs iha hf)
  | resume s a ihs iha => exact .map (.resume ihs iha hf)
  | implTailed k i s a ihs iha => exact .map (.implTailed ihs iha _ _ _ hf)
  | nested o c => exact .bind (.token A toks _ _) fun _ => .map (.parseNestedUntil A toks _ _)
  | ext a ih => exact .map (.spanned A toks ih)
  | drop a ih => exact .map ih
  | map f a ih => exact .map ih
  | build m a ih => exact .map (.spanned A toks ih)
  | nodeEmpty k a ih => exact .map (.spannedEmpty A toks ih)
  | mapErr e a ih => exact .mapErr ih
  | peek a ih => exact .peek ih
  | amb l a ih => exact .setAmbiguityLevel ih
  | ifAmbiguous a b iha ihb =>
    intro am pt hd
    simp only [evalG] at hd ⊢
    by_cases h : am.isAmbiguous = true
    · simp only [if_pos h] at hd ⊢; exact iha _ _ hd
    · simp only [if_neg h] at hd ⊢; exact ihb _ _ hd
  | notMaximum a ih =>
    intro am pt hd
    simp only [evalG] at hd ⊢
    by_cases h : am = .Maximum
    · simp only [if_pos h] at hd ⊢; rfl
    · simp only [if_neg h] at hd ⊢; exact ih _ _ hd

/-! ## Expressions -/

def Car.up {α : Type} (d : Nat) (c : Car α) : Car α := ⟨c.value, c.spt.up d, c.ept.up d⟩

def Yard.up (d : Nat) (y : Yard) : Yard := ⟨y.operators.map (Car.up d), y.result.map (Car.up d)⟩

def SRes.up {α : Type} (d : Nat) (u : α → α) : SRes α → SRes α
  | .ok v => .ok (u v)
  | .err p e => .err (p.up d) e
  | .panic => .panic

theorem up_exS (p q : Pt) : exS (A ++ toks) (p.up A.length) (q.up A.length) = exS toks p q := by
  unfold exS
  rw [up_ex]

theorem up_applyPrefix (spt : Pt) (e : Extent) (as : List V) (op : PrefixOp) (pl : List V) (rs : List (Car V)) :
    applyPrefix (A ++ toks) (spt.up A.length) e as op pl (rs.map (Car.up A.length)) =
      (applyPrefix toks spt e as op pl rs).up A.length (List.map (Car.up A.length)) := by
  unfold applyPrefix
  cases rs with
  | nil => rfl
  | cons c rs =>
    simp only [popExpression, List.map_cons, SRes.bind, Car.up, up_lt, up_exS]
    split
    · rfl
    · (unfold exS; cases ex toks spt c.ept <;> rfl)

theorem up_applyMaybePrefix (spt ept : Pt) (e : Extent) (as : List V) (op : PrefixOp) (pl : List V) (rs : List (Car V)) :
    applyMaybePrefix (A ++ toks) (spt.up A.length) (ept.up A.length) e as op pl (rs.map (Car.up A.length)) =
      (applyMaybePrefix toks spt ept e as op pl rs).up A.length (List.map (Car.up A.length)) := by
  unfold applyMaybePrefix
  cases rs with
  | nil =>
    simp only [List.map_nil, up_exS]
    (unfold exS; cases ex toks spt ept <;> rfl)
  | cons c rs => exact up_applyPrefix A toks spt e as op pl (c :: rs)

theorem up_applyInfix (spt ept : Pt) (op : InfixOp) (pl : List V) (rs : List (Car V)) :
    applyInfix (A ++ toks) (spt.up A.length) (ept.up A.length) op pl (rs.map (Car.up A.length)) =
      (applyInfix toks spt ept op pl rs).up A.length (List.map (Car.up A.length)) := by
  unfold applyInfix
  rcases rs with _ | ⟨c, _ | ⟨c', rs⟩⟩
  · rfl
  · rfl
  · simp only [popExpression, List.map_cons, SRes.bind, Car.up, up_exS]
    (unfold exS; cases ex toks c'.spt c.ept <;> rfl)

theorem up_applyMaybeInfix (spt ept : Pt) (op : InfixOp) (pl : List V) (rs : List (Car V)) :
    applyMaybeInfix (A ++ toks) (spt.up A.length) (ept.up A.length) op pl (rs.map (Car.up A.length)) =
      (applyMaybeInfix toks spt ept op pl rs).up A.length (List.map (Car.up A.length)) := by
  unfold applyMaybeInfix
  rw [List.length_map]
  split
  · rcases rs with _ | ⟨c, rs⟩
    · rfl
    · simp only [popExpression, List.map_cons, SRes.bind, Car.up, up_exS]
      (unfold exS; cases ex toks c.spt ept <;> rfl)
  · exact up_applyInfix A toks spt ept op pl rs

theorem up_applyPostfix (spt ept : Pt) (op : PostfixOp) (pl : List V) (rs : List (Car V)) :
    applyPostfix (A ++ toks) (spt.up A.length) (ept.up A.length) op pl (rs.map (Car.up A.length)) =
      (applyPostfix toks spt ept op pl rs).up A.length (List.map (Car.up A.length)) := by
  unfold applyPostfix
  rcases rs with _ | ⟨c, rs⟩
  · rfl
  · simp only [popExpression, List.map_cons, SRes.bind, Car.up, up_exS]
    (unfold exS; cases ex toks c.spt ept <;> rfl)

theorem up_applyOne (c : Car OpKind) (rs : List (Car V)) :
    applyOne (A ++ toks) (c.up A.length) (rs.map (Car.up A.length)) = (applyOne toks c rs).up A.length (List.map (Car.up A.length)) := by
  unfold applyOne
  simp only [Car.up]
  split
  · split
    · exact up_applyMaybePrefix A toks _ _ _ _ _ _ _
    · exact up_applyPrefix A toks _ _ _ _ _ _
  · split
    · exact up_applyMaybeInfix A toks _ _ _ _ _
    · exact up_applyInfix A toks _ _ _ _ _
  · exact up_applyPostfix A toks _ _ _ _ _

theorem up_applyWhile (cond : OpKind → Bool) : ∀ (cs : List (Car OpKind)) (rs : List (Car V)),
    applyWhile (A ++ toks) cond (cs.map (Car.up A.length)) (rs.map (Car.up A.length)) =
      (applyWhile toks cond cs rs).up A.length (Yard.up A.length) := by
  intro cs
  induction cs with
  | nil => intro rs; rfl
  | cons c cs ih =>
    intro rs
    simp only [List.map_cons, applyWhile]
    have e : (Car.up A.length c).value = c.value := rfl
    rw [e]
    split
    · rw [up_applyOne]
      cases applyOne toks c rs with
      | ok rs' => exact ih rs'
      | err => rfl
      | panic => rfl
    · rfl

theorem up_addOperator (y : Yard) (op : OpKind) (spt ept : Pt) :
    (y.up A.length).addOperator (A ++ toks) op (spt.up A.length) (ept.up A.length) =
      (y.addOperator toks op spt ept).up A.length (Yard.up A.length) := by
  unfold Yard.addOperator
  simp only [Yard.up]
  rw [up_applyWhile]
  cases applyWhile toks op.shouldPop y.operators y.result <;> rfl

theorem up_finish (y : Yard) (p : Pt) :
    (y.up A.length).finish (A ++ toks) (p.up A.length) = (y.finish toks p).up A.length (Car.up A.length) := by
  unfold Yard.finish
  simp only [Yard.up]
  rw [up_applyWhile]
  cases applyWhile toks (fun _ => true) y.operators y.result with
  | ok y =>
    simp only [SRes.up, SRes.bind, Yard.up]
    rcases y.result with _ | ⟨c, _ | ⟨c', rs⟩⟩ <;> rfl
  | err => rfl
  | panic => rfl

theorem up_toOut (r : SRes (Car V)) (d : Nat) : (r.up d (Car.up d)).toOut = r.toOut.up d := by cases r <;> rfl

def Step.up (d : Nat) : Step → Step
  | .continue y st => .continue (y.up d) st
  | .stop r => .stop (r.up d (Car.up d))

theorem up_ofYard (st : EState) (r : SRes Yard) (d : Nat) : Step.ofYard st (r.up d (Yard.up d)) = (Step.ofYard st r).up d := by
  cases r <;> rfl

theorem up_adapt (y : Yard) (st : EState) (d : Nat) : adaptStatement (y.up d) st = adaptStatement y st := by
  cases st <;> simp [adaptStatement, Yard.up, Option.map]
  rcases y.result.getLast? with _ | c <;> rfl

/-- The parsers of expressions, after more tokens. -/
structure PsMoves (d : Nat) (ps ps' : ExprParsers) : Prop where
  pre : Moves d ps.prefixOrAtom ps'.prefixOrAtom
  inf : Moves d ps.infixOrPostfix ps'.infixOrPostfix
  lim : Moves d ps.limitedPostfix ps'.limitedPostfix

def Res.upStep (d : Nat) (r : Res Step) : Res Step :=
  match r.out with
  | .ok p v => ⟨.ok (p.up d) (v.up d), r.amb, Log.up d r.log⟩
  | _ => r.up d

theorem up_shuntStep {ps ps' : ExprParsers} (h : PsMoves A.length ps ps') (y : Yard) (st : EState) (a : Amb) (pt : Pt)
    (hd : ¬ (shuntStep toks ps y st a pt).dead) :
    shuntStep (A ++ toks) ps' (y.up A.length) st a (pt.up A.length) = (shuntStep toks ps y st a pt).upStep A.length := by
  have main : ∀ {p p' : P PrefixOrAtom}, Moves A.length p p' →
      ¬ (match p a pt with
      | ⟨.ok pt' (.prefix e attrs op payload), a', l⟩ =>
        (⟨.ok pt' (.ofYard .Prefix (y.addOperator toks (.pre e attrs op payload) pt pt')), a', l⟩ : Res Step)
      | ⟨.ok pt' (.atom e), a', l⟩ => ⟨.ok pt' (.continue (y.addExpression e pt pt') .Atom), a', l⟩
      | ⟨.fail q _, a', l⟩ => ⟨.ok q (.stop (y.finish toks q)), a', l⟩
      | ⟨.panic, a', l⟩ => ⟨.panic, a', l⟩
      | ⟨.hang, a', l⟩ => ⟨.hang, a', l⟩).dead →
      (match p' a (pt.up A.length) with
      | ⟨.ok pt' (.prefix e attrs op payload), a', l⟩ =>
        (⟨.ok pt' (.ofYard .Prefix ((y.up A.length).addOperator (A ++ toks) (.pre e attrs op payload) (pt.up A.length) pt')), a', l⟩ : Res Step)
      | ⟨.ok pt' (.atom e), a', l⟩ => ⟨.ok pt' (.continue ((y.up A.length).addExpression e (pt.up A.length) pt') .Atom), a', l⟩
      | ⟨.fail q _, a', l⟩ => ⟨.ok q (.stop ((y.up A.length).finish (A ++ toks) q)), a', l⟩
      | ⟨.panic, a', l⟩ => ⟨.panic, a', l⟩
      | ⟨.hang, a', l⟩ => ⟨.hang, a', l⟩) =
      Res.upStep A.length (match p a pt with
      | ⟨.ok pt' (.prefix e attrs op payload), a', l⟩ =>
        (⟨.ok pt' (.ofYard .Prefix (y.addOperator toks (.pre e attrs op payload) pt pt')), a', l⟩ : Res Step)
      | ⟨.ok pt' (.atom e), a', l⟩ => ⟨.ok pt' (.continue (y.addExpression e pt pt') .Atom), a', l⟩
      | ⟨.fail q _, a', l⟩ => ⟨.ok q (.stop (y.finish toks q)), a', l⟩
      | ⟨.panic, a', l⟩ => ⟨.panic, a', l⟩
      | ⟨.hang, a', l⟩ => ⟨.hang, a', l⟩) := by
    intro p p' hp hd
    have h1 := hp a pt
    rcases hr : p a pt with ⟨⟨q, ⟨e, as, op, pl⟩ | v⟩ | ⟨q, e⟩ | _ | _, a', l⟩ <;> rw [hr] at h1 hd <;> simp at h1 hd <;> rw [h1] <;> simp
    · rw [up_addOperator, up_ofYard]; rfl
    · rfl
    · rw [up_finish]; rfl
  unfold shuntStep at hd ⊢
  cases st with
  | Prefix => exact main h.pre hd
  | Infix w =>
    dsimp only at hd ⊢
    by_cases hu : (a.isAmbiguous && w) = true
    · simp only [if_pos hu] at hd ⊢
      exact main (.setAmbiguityLevel h.pre) hd
    · simp only [if_neg hu] at hd ⊢
      exact main h.pre hd
  | Postfix | Atom =>
    dsimp only at hd ⊢
    have h1 := h.inf a pt
    rcases hr : ps.infixOrPostfix a pt with ⟨⟨q, ⟨op, pl⟩ | ⟨op, pl⟩⟩ | ⟨q, e⟩ | _ | _, a', l⟩ <;> rw [hr] at h1 hd <;> simp at h1 hd <;>
      rw [h1] <;> simp
    · rw [up_addOperator, up_ofYard]; rfl
    · rw [up_addOperator, up_ofYard]; rfl
    · rw [up_finish]; rfl
  | AtomLimitedPostfix =>
    dsimp only at hd ⊢
    have h1 := h.lim a pt
    rcases hr : ps.limitedPostfix a pt with ⟨⟨q, op, pl⟩ | ⟨q, e⟩ | _ | _, a', l⟩ <;> rw [hr] at h1 hd <;> simp at h1 hd <;>
      rw [h1] <;> simp
    · rw [up_addOperator, up_ofYard]; rfl
    · rw [up_finish]; rfl

theorem up_shuntLoop {ps ps' : ExprParsers} (h : PsMoves A.length ps ps') {adapt : Yard → EState → EState}
    (ha : ∀ y st, adapt (y.up A.length) st = adapt y st) (n : Nat) : ∀ n' y st, n ≤ n' →
    Moves A.length (shuntLoop toks ps adapt n y st) (shuntLoop (A ++ toks) ps' adapt n' (y.up A.length) st) := by
  induction n with
  | zero => intro n' y st _; exact .hang
  | succ n ih =>
    intro n' y st hn
    obtain ⟨n', rfl⟩ : ∃ k, n' = k + 1 := ⟨n' - 1, by omega⟩
    intro a pt hd
    unfold shuntLoop P.bind at hd ⊢
    have h1 := up_shuntStep A toks h y st a pt
    rcases hr : shuntStep toks ps y st a pt with ⟨⟨q, v⟩ | ⟨q, e⟩ | _ | _, a', l⟩ <;> rw [hr] at h1 hd <;>
      simp [Res.upStep] at h1 hd <;> rw [h1]
    · cases v with
      | «continue» y' st' =>
        simp only [Step.up] at hd ⊢
        have h2 := ih n' y' (adapt y' st') (by omega) a' q
        rw [ha]
        rcases hs : shuntLoop toks ps adapt n y' (adapt y' st') a' q with ⟨⟨q', v'⟩ | ⟨q', e⟩ | _ | _, a'', l'⟩ <;> rw [hs] at h2 hd <;>
          simp at h2 hd <;> rw [h2] <;> simp
      | stop r => simp [Step.up, Res.up, up_toOut]
    · simp

theorem up_tableP {α : Type} (hr : ∀ nt, Moves A.length (rec nt) (rec' nt)) (t : (α × G) × List (α × G)) :
    Moves A.length (tableP toks rec t) (tableP (A ++ toks) rec' t) := by
  obtain ⟨x, l⟩ := t
  unfold tableP
  have one : ∀ x : α × G, Moves A.length ((evalG toks rec x.2).map fun vs => (x.1, vs)) ((evalG (A ++ toks) rec' x.2).map fun vs => (x.1, vs)) :=
    fun x => .map (evalG_up A toks hr x.2)
  dsimp only
  have : ∀ p p', Moves A.length p p' → Moves A.length
      (l.foldl (fun p x => p.orElse ((evalG toks rec x.2).map fun vs => (x.1, vs))) p)
      (l.foldl (fun p x => p.orElse ((evalG (A ++ toks) rec' x.2).map fun vs => (x.1, vs))) p') := by
    induction l with
    | nil => intro p p' h; exact h
    | cons y l ih => intro p p' h; exact ih _ _ (.orElse h (one y))
  exact this _ _ (one x)

theorem up_attributedP {α : Type} (hr : ∀ nt, Moves A.length (rec nt) (rec' nt)) {p p' : P α} (hp : Moves A.length p p') :
    Moves A.length (attributedP toks rec p) (attributedP (A ++ toks) rec' p') :=
  .spanned A toks (.bind (.zeroOrMore (hr _) _ _ (loopFuel_up A toks)) fun _ => .map hp)

attribute [local irreducible] tableP attributedP prefixTable infixTable postfixTable limitedTable in
theorem up_exprParsers (hr : ∀ nt, Moves A.length (rec nt) (rec' nt)) :
    PsMoves A.length (exprParsers toks rec) (exprParsers (A ++ toks) rec') := by
  refine ⟨?_, ?_, ?_⟩
  · exact .orElse (.map (up_attributedP A toks hr (up_tableP A toks hr prefixTable))) (.map (up_attributedP A toks hr (hr _)))
  · exact .orElse (.map (up_tableP A toks hr infixTable)) (.map (up_tableP A toks hr postfixTable))
  · exact up_tableP A toks hr limitedTable

theorem eval_up (n : Nat) : ∀ n' nt, n ≤ n' → Moves A.length (eval toks n nt) (eval (A ++ toks) n' nt) := by
  induction n with
  | zero => intro n' nt _; exact .hang
  | succ n ih =>
    intro n' nt hn
    obtain ⟨n', rfl⟩ : ∃ k, n' = k + 1 := ⟨n' - 1, by omega⟩
    have hr := fun nt => ih n' nt (by omega)
    unfold eval evalRule
    cases rules nt with
    | g g => exact evalG_up A toks hr g
    | expr stmt =>
      refine .map ?_
      unfold shuntingYard
      exact up_shuntLoop A toks (up_exprParsers A toks hr) (fun y st => by
        split
        · exact up_adapt _ _ _
        · rfl) _ _ {} .Prefix (loopFuel_up A toks)

/-- An item, after more tokens. -/
theorem parseItem_up : Moves A.length (parseItem toks) (parseItem (A ++ toks)) :=
  evalG_up A toks (fun nt => eval_up A toks _ _ nt (by simp [evalFuel]; omega)) itemG

end

end Verif
