import Verif.Proofs.Symbolic
import Verif.Proofs.ShuntDen
/-!
# When the shunting yard succeeds
-/

namespace Verif
open Spec

section
variable {α : Type} (toks : List Token)

/-- The parser succeeds where `i` is written, and `o` is left. -/
def ParsesP (f : Nat → P α) (am : Amb) (i o : List Lexeme) (Q : α → Prop) : Prop :=
  ∀ p, At toks p i → ∃ q, At toks q o ∧ Btw toks p q ∧ ∀ n, (f n am p).Ok am q Q

/-- The parser fails where `i` is written. -/
def RejectsP (f : Nat → P α) (am : Amb) (i : List Lexeme) : Prop :=
  ∀ p, At toks p i → ∀ n, (f n am p).No am (fun _ => True)

end

section
variable {α : Type} {toks : List Token} {am : Amb} {i m o : List Lexeme} {vs : List V}

/-! ## Tables of operators -/

theorem table_rejects {x : α × G} {xs : List (α × G)} (h : ∀ y ∈ x :: xs, Rejects toks y.2 am i) :
    RejectsP toks (fun n => tableP toks (eval toks n) (x, xs)) am i := by
  intro p hp n
  unfold tableP
  dsimp only
  have h0 : Res.No (((evalG toks (eval toks n) x.2).map fun vs => (x.1, vs)) am p) am (fun _ => True) :=
    P.no_map (h x (by simp) p hp n)
  have h1 : ∀ y ∈ xs, Rejects toks y.2 am i := fun y hy => h y (by simp [hy])
  clear h
  generalize ((evalG toks (eval toks n) x.2).map fun vs => (x.1, vs)) = f at h0
  induction xs generalizing f with
  | nil => exact h0
  | cons y ys ih =>
    exact ih (fun z hz => h1 z (by simp [hz])) _ (P.no_orElse h0 (P.no_map (h1 y (by simp) p hp n)))

theorem table_parses {x : α × G} {xs : List (α × G)} {pre post : List (α × G)} {y : α × G} (he : x :: xs = pre ++ y :: post)
    (hr : ∀ z ∈ pre, Rejects toks z.2 am i) (h : Parses toks y.2 am i o vs) :
    ParsesP toks (fun n => tableP toks (eval toks n) (x, xs)) am i o (fun r => r.1 = y.1 ∧ Likes r.2 vs) := by
  intro p hp
  obtain ⟨q, hq, hb, hy⟩ := h p hp
  refine ⟨q, hq, hb, fun n => ?_⟩
  have hy' : Res.Ok (((evalG toks (eval toks n) y.2).map fun vs => (y.1, vs)) am p) am q (fun r => r.1 = y.1 ∧ Likes r.2 vs) :=
    P.ok_map (hy n) fun v hv => ⟨rfl, hv⟩
  have left : ∀ (zs : List (α × G)) (f : P (α × List V)), Res.Ok (f am p) am q (fun r => r.1 = y.1 ∧ Likes r.2 vs) →
      Res.Ok ((zs.foldl (fun p x => p.orElse ((evalG toks (eval toks n) x.2).map fun vs => (x.1, vs))) f) am p) am q
        (fun r => r.1 = y.1 ∧ Likes r.2 vs) := by
    intro zs
    induction zs with
    | nil => intro f hf; exact hf
    | cons z zs ih => intro f hf; exact ih _ (P.ok_orElse_left hf)
  unfold tableP
  dsimp only
  cases pre with
  | nil =>
    simp only [List.nil_append, List.cons.injEq] at he
    obtain ⟨rfl, rfl⟩ := he
    exact left _ _ hy'
  | cons z pre =>
    simp only [List.cons_append, List.cons.injEq] at he
    obtain ⟨rfl, rfl⟩ := he
    have h0 : Res.No (((evalG toks (eval toks n) x.2).map fun vs => (x.1, vs)) am p) am (fun _ => True) :=
      P.no_map (hr x (by simp) p hp n)
    have h1 : ∀ y ∈ pre, Rejects toks y.2 am i := fun y hy => hr y (by simp [hy])
    clear hr
    generalize ((evalG toks (eval toks n) x.2).map fun vs => (x.1, vs)) = f at h0
    induction pre generalizing f with
    | nil => exact left post (f.orElse _) (P.ok_orElse_right h0 hy')
    | cons z zs ih =>
      exact ih (fun z hz => h1 z (by simp [hz])) _ (P.no_orElse h0 (P.no_map (h1 z (by simp) p hp n)))

section
variable (b : List (Option TK)) (nd : List G) (am0 : Amb)

/-- Run the entries of a table. -/
def exploreTable (am : Amb) : List (α × G) → List Piece → Option (α × List Piece × List V)
  | [], _ => none
  | x :: xs, ps =>
    match explore b nd am0 steps am x.2 ps with
    | .ok ps' vs => some (x.1, ps', vs)
    | .rej => exploreTable am xs ps
    | .unk => none

/-- None of the entries of a table fits. -/
def rejTable (am : Amb) (t : List (α × G)) (ps : List Piece) : Bool :=
  t.all fun x => (explore b nd am0 steps am x.2 ps).isRej

end

variable {b : List (Option TK)} {nd : List G} {am0 : Amb} {ps ps' : List Piece} {xs rest : List Lexeme}

theorem explore_rej (hr : ahead (fun k => !b.contains k) rest = true) (hn : ∀ g ∈ nd, Rejects toks g am0 rest)
    (hd : Denotes toks ps xs) {g : G} (h : (explore b nd am0 steps am g ps).isRej = true) : Rejects toks g am (xs ++ rest) := by
  have := explore_sound hr hn steps am g ps xs hd
  generalize explore b nd am0 steps am g ps = r at this h
  cases r <;> simp [Found.isRej] at h
  exact this

theorem explore_ok (hr : ahead (fun k => !b.contains k) rest = true) (hn : ∀ g ∈ nd, Rejects toks g am0 rest)
    (hd : Denotes toks ps xs) {g : G} (h : explore b nd am0 steps am g ps = .ok ps' vs) :
    ∃ ys, Denotes toks ps' ys ∧ Parses toks g am (xs ++ rest) (ys ++ rest) vs := by
  have := explore_sound hr hn steps am g ps xs hd
  rw [h] at this
  exact this

theorem rejTable_sound (hr : ahead (fun k => !b.contains k) rest = true) (hn : ∀ g ∈ nd, Rejects toks g am0 rest)
    (hd : Denotes toks ps xs) {t : (α × G) × List (α × G)} (h : rejTable b nd am0 am (t.1 :: t.2) ps = true) :
    RejectsP toks (fun n => tableP toks (eval toks n) t) am (xs ++ rest) :=
  table_rejects fun y hy => explore_rej hr hn hd (List.all_eq_true.mp h y hy)

theorem exploreTable_sound (hr : ahead (fun k => !b.contains k) rest = true) (hn : ∀ g ∈ nd, Rejects toks g am0 rest)
    (hd : Denotes toks ps xs) {t : (α × G) × List (α × G)} {a : α} (h : exploreTable b nd am0 am (t.1 :: t.2) ps = some (a, ps', vs)) :
    ∃ ys, Denotes toks ps' ys ∧
      ParsesP toks (fun n => tableP toks (eval toks n) t) am (xs ++ rest) (ys ++ rest) (fun r => r.1 = a ∧ Likes r.2 vs) := by
  have key : ∀ l : List (α × G), exploreTable b nd am0 am l ps = some (a, ps', vs) →
      ∃ pre y post ys, l = pre ++ y :: post ∧ (∀ z ∈ pre, Rejects toks z.2 am (xs ++ rest)) ∧ y.1 = a ∧ Denotes toks ps' ys ∧
        Parses toks y.2 am (xs ++ rest) (ys ++ rest) vs := by
    intro l
    induction l with
    | nil => intro h; simp [exploreTable] at h
    | cons x l ih =>
      intro h
      unfold exploreTable at h
      have hs := explore_sound hr hn steps am x.2 ps xs hd
      generalize explore b nd am0 steps am x.2 ps = r at h hs
      cases r with
      | ok ps'' ws =>
        simp only [Option.some.injEq, Prod.mk.injEq] at h
        obtain ⟨rfl, rfl, rfl⟩ := h
        obtain ⟨ys, h1, h2⟩ := hs
        exact ⟨[], x, l, ys, rfl, by simp, rfl, h1, h2⟩
      | rej =>
        obtain ⟨pre, y, post, ys, rfl, h2, h3⟩ := ih h
        refine ⟨x :: pre, y, post, ys, rfl, ?_, h3⟩
        intro z hz
        rcases List.mem_cons.mp hz with rfl | hz
        · exact hs
        · exact h2 z hz
      | unk => simp at h
  obtain ⟨pre, y, post, ys, h1, h2, rfl, h4, h5⟩ := key _ h
  exact ⟨ys, h4, table_parses h1 h2 h5⟩

end

/-! ## Operators and atoms -/

section
variable (toks : List Token)

def ReadsPrefix (am : Amb) (i o : List Lexeme) (op : PrefixOp) (as pl : List V) : Prop :=
  ParsesP toks (fun n => (exprParsers toks (eval toks n)).prefixOrAtom) am i o
    (fun x => ∃ e as' pl', x = .prefix e as' op pl' ∧ Likes as' as ∧ Likes pl' pl)

def ReadsAtom (am : Amb) (i o : List Lexeme) (v : V) : Prop :=
  ParsesP toks (fun n => (exprParsers toks (eval toks n)).prefixOrAtom) am i o (fun x => ∃ v', x = .atom v' ∧ Like v' v)

def NoOperand (am : Amb) (i : List Lexeme) : Prop :=
  RejectsP toks (fun n => (exprParsers toks (eval toks n)).prefixOrAtom) am i

def ReadsInfix (am : Amb) (i o : List Lexeme) (op : InfixOp) (pl : List V) : Prop :=
  ParsesP toks (fun n => (exprParsers toks (eval toks n)).infixOrPostfix) am i o (fun x => ∃ pl', x = .infix op pl' ∧ Likes pl' pl)

def ReadsPostfix (am : Amb) (i o : List Lexeme) (op : PostfixOp) (pl : List V) : Prop :=
  ParsesP toks (fun n => (exprParsers toks (eval toks n)).infixOrPostfix) am i o (fun x => ∃ pl', x = .postfix op pl' ∧ Likes pl' pl)

def NoOperator (am : Amb) (i : List Lexeme) : Prop :=
  RejectsP toks (fun n => (exprParsers toks (eval toks n)).infixOrPostfix) am i

def ReadsLimited (am : Amb) (i o : List Lexeme) (op : PostfixOp) (pl : List V) : Prop :=
  ParsesP toks (fun n => (exprParsers toks (eval toks n)).limitedPostfix) am i o (fun x => x.1 = op ∧ Likes x.2 pl)

def NoLimited (am : Amb) (i : List Lexeme) : Prop :=
  RejectsP toks (fun n => (exprParsers toks (eval toks n)).limitedPostfix) am i

end

section
variable {toks : List Token} {am : Amb} {i m o : List Lexeme} {as pl vs : List V}

theorem ok_map_inv {α β : Type} {f : P α} {g : α → β} {p q : Pt} {R : β → Prop} (h : ((f.map g) am p).Ok am q R) :
    (f am p).Ok am q (fun v => R (g v)) := by
  unfold P.map at h
  generalize f am p = r at h
  obtain ⟨out, a, l⟩ := r
  rcases h with h | ⟨h1, v, h2, h3⟩
  · cases out <;> simp at h
    exact .hang
  · cases out <;> simp at h1 h2
    obtain ⟨rfl, rfl⟩ := h2
    subst h1
    exact .ok h3

theorem attributes_ok (h : Parses toks (.many (.r .attribute)) am i o [.list as]) :
    ∀ p, At toks p i → ∃ q, At toks q o ∧ Btw toks p q ∧
      ∀ n, (P.zeroOrMore (eval toks n .attribute) (loopFuel toks) am p).Ok am q (fun vss => Likes vss.flatten as) := by
  intro p hp
  obtain ⟨q, hq, hb, hy⟩ := h p hp
  refine ⟨q, hq, hb, fun n => (ok_map_inv (hy n)).mono fun v hv => ?_⟩
  simpa [Likes, shapes, shape] using hv

attribute [local irreducible] infixTable postfixTable prefixTable limitedTable tableP

theorem readsPrefix {op : PrefixOp} (ha : Parses toks (.many (.r .attribute)) am i m [.list as])
    (ht : ParsesP toks (fun n => tableP toks (eval toks n) prefixTable) am m o (fun r => r.1 = op ∧ Likes r.2 pl)) :
    ReadsPrefix toks am i o op as pl := by
  intro p hp
  obtain ⟨q, hq, hb, hy⟩ := attributes_ok ha p hp
  obtain ⟨q', hq', hb', hy'⟩ := ht q hq
  refine ⟨q', hq', hb.trans hb', fun n => P.ok_orElse_left (P.ok_map (P.ok_spanned (hb.trans hb') (P.ok_bind (hy n) fun v hv =>
    P.ok_map (hy' n) (R := fun x : List V × PrefixOp × List V => Likes x.1 as ∧ x.2.1 = op ∧ Likes x.2.2 pl) fun x hx => ⟨hv, hx⟩)) ?_)⟩
  rintro ⟨e, as', op', pl'⟩ ⟨h1, h2, h3⟩
  dsimp only at h1 h2 h3 ⊢
  subst h2
  exact ⟨_, _, _, rfl, h1, h3⟩

theorem noPrefix (ha : Parses toks (.many (.r .attribute)) am i m [.list as])
    (ht : RejectsP toks (fun n => tableP toks (eval toks n) prefixTable) am m) (p : Pt) (hp : At toks p i) (n : Nat) :
    ((attributedP toks (eval toks n) (tableP toks (eval toks n) prefixTable)) am p).No am (fun _ => True) := by
  obtain ⟨q, hq, hb, hy⟩ := attributes_ok ha p hp
  exact P.no_spanned (P.no_bind_right (hy n) fun v _ => P.no_map (ht q hq n))

theorem readsAtom {v : V} (ha : Parses toks (.many (.r .attribute)) am i m [.list as])
    (ht : RejectsP toks (fun n => tableP toks (eval toks n) prefixTable) am m)
    (hv : Parses toks (.r .expression_atom) am m o [v]) : ReadsAtom toks am i o (mkAttributed ⟨0, 0⟩ as v) := by
  intro p hp
  obtain ⟨q, hq, hb, hy⟩ := attributes_ok ha p hp
  obtain ⟨q', hq', hb', hy'⟩ := hv q hq
  refine ⟨q', hq', hb.trans hb', fun n => P.ok_orElse_right (P.no_map (noPrefix ha ht p hp n)) (P.ok_map (P.ok_spanned (hb.trans hb')
    (P.ok_bind (hy n) fun v' hv => P.ok_map (hy' n) (R := fun x : List V × List V => Likes x.1 as ∧ Likes x.2 [v]) fun x hx => ⟨hv, hx⟩)) ?_)⟩
  rintro ⟨e, as', vs'⟩ ⟨h1, h2⟩
  dsimp only at h1 h2 ⊢
  refine ⟨_, rfl, ?_⟩
  unfold Likes at h1 h2
  simp [Like, mkAttributed, h1, h2]

theorem noOperand (ha : Parses toks (.many (.r .attribute)) am i i [.list []])
    (ht : RejectsP toks (fun n => tableP toks (eval toks n) prefixTable) am i)
    (hv : Rejects toks (.r .expression_atom) am i) : NoOperand toks am i := by
  intro p hp n
  refine P.no_orElse (P.no_map (noPrefix ha ht p hp n)) (P.no_map (P.no_spanned ?_))
  obtain ⟨q, hq, hb, hy⟩ := attributes_ok ha p hp
  exact P.no_bind_right (hy n) fun v _ => P.no_map (hv q hq n)

theorem readsInfix {op : InfixOp}
    (ht : ParsesP toks (fun n => tableP toks (eval toks n) infixTable) am i o (fun r => r.1 = op ∧ Likes r.2 pl)) :
    ReadsInfix toks am i o op pl := by
  intro p hp
  obtain ⟨q, hq, hb, hy⟩ := ht p hp
  refine ⟨q, hq, hb, fun n => P.ok_orElse_left (P.ok_map (hy n) ?_)⟩
  rintro ⟨op', pl'⟩ ⟨h1, h2⟩
  dsimp only at h1 h2 ⊢
  subst h1
  exact ⟨_, rfl, h2⟩

theorem readsPostfix {op : PostfixOp} (hr : RejectsP toks (fun n => tableP toks (eval toks n) infixTable) am i)
    (ht : ParsesP toks (fun n => tableP toks (eval toks n) postfixTable) am i o (fun r => r.1 = op ∧ Likes r.2 pl)) :
    ReadsPostfix toks am i o op pl := by
  intro p hp
  obtain ⟨q, hq, hb, hy⟩ := ht p hp
  refine ⟨q, hq, hb, fun n => P.ok_orElse_right (P.no_map (hr p hp n)) (P.ok_map (hy n) ?_)⟩
  rintro ⟨op', pl'⟩ ⟨h1, h2⟩
  dsimp only at h1 h2 ⊢
  subst h1
  exact ⟨_, rfl, h2⟩

theorem noOperator (hr : RejectsP toks (fun n => tableP toks (eval toks n) infixTable) am i)
    (ht : RejectsP toks (fun n => tableP toks (eval toks n) postfixTable) am i) : NoOperator toks am i :=
  fun p hp n => P.no_orElse (P.no_map (hr p hp n)) (P.no_map (ht p hp n))

end

/-! ## The loop -/

/-- The same result, but for the failures recovered from. -/
def Res.Same {α : Type} (r s : Res α) : Prop := r.out = s.out ∧ r.amb = s.amb

theorem Res.Same.refl {α : Type} (r : Res α) : r.Same r := ⟨rfl, rfl⟩
theorem Res.Same.trans {α : Type} {r s t : Res α} (h : r.Same s) (h' : s.Same t) : r.Same t := ⟨h.1.trans h'.1, h.2.trans h'.2⟩

/-- How `expression` and `statement_expression` differ. -/
def adaptOf (stmt : Bool) : Yard → EState → EState := if stmt then adaptStatement else fun _ s => s

/-- The loop. -/
abbrev loop (toks : List Token) (stmt : Bool) (n fuel : Nat) (y : Yard) (st : EState) : P V :=
  shuntLoop toks (exprParsers toks (eval toks n)) (adaptOf stmt) fuel y st

section
variable {toks : List Token} {am : Amb} {stmt : Bool} {n fuel : Nat} {y y' : Yard} {st st' : EState} {p q : Pt}

theorem loop_step {l : Log} (h : shuntStep toks (exprParsers toks (eval toks n)) y st am p = ⟨.ok q (.continue y' st'), am, l⟩) :
    (loop toks stmt n (fuel + 1) y st am p).Same (loop toks stmt n fuel y' (adaptOf stmt y' st') am q) := by
  unfold loop
  conv => enter [1]; unfold shuntLoop
  unfold P.bind
  rw [h]
  exact ⟨rfl, rfl⟩

theorem loop_hang (h : (shuntStep toks (exprParsers toks (eval toks n)) y st am p).out = .hang) :
    (loop toks stmt n (fuel + 1) y st am p).out = .hang := by
  unfold loop
  conv => enter [1, 1]; unfold shuntLoop
  unfold P.bind
  generalize shuntStep toks (exprParsers toks (eval toks n)) y st am p = r at h
  obtain ⟨out, a, l⟩ := r
  dsimp only at h
  subst h
  rfl

theorem loop_stop {r : SRes (Car V)} {l : Log}
    (h : shuntStep toks (exprParsers toks (eval toks n)) y st am p = ⟨.ok q (.stop r), am, l⟩) :
    (loop toks stmt n (fuel + 1) y st am p).out = r.toOut ∧ (loop toks stmt n (fuel + 1) y st am p).amb = am := by
  unfold loop
  conv => enter [1, 1, 1]; unfold shuntLoop
  conv => enter [2, 1, 1]; unfold shuntLoop
  unfold P.bind
  rw [h]
  exact ⟨rfl, rfl⟩

end

section
variable (toks : List Token)

/-- Applying the operators leaves one expression. -/
def Ready (y : Yard) (p q : Pt) (v : V) : Prop :=
  ∃ v', Like v' v ∧ applyWhile toks (fun _ => true) y.operators y.result = .ok ⟨[], [⟨v', p, q⟩]⟩

/-- Applying the prefix operators to the operand. -/
def Settled (pre : List (Car OpKind)) (a : Car V) (p q : Pt) (v : V) : Prop :=
  ∃ v', Like v' v ∧ ∀ ops rs, applyWhile toks (fun _ => true) (pre ++ ops) (a :: rs) =
    applyWhile toks (fun _ => true) ops (⟨v', p, q⟩ :: rs)

/-- The level at which the next operand is read. -/
def levelAt (am : Amb) : EState → Amb
  | .Infix r => if am.isAmbiguous && r then .Maximum else am
  | _ => am

def isStart : EState → Bool
  | .Prefix | .Infix _ => true
  | _ => false

/-- An operand, the first part of it read at the level `lv`. -/
def ReadsOperand (lv am : Amb) (i o : List Lexeme) (v : V) : Prop :=
  ∀ p, At toks p i → ∃ q, At toks q o ∧ Btw toks p q ∧ ∀ stmt n fuel y st, isStart st = true → levelAt am st = lv →
    (loop toks stmt n fuel y st am p).out = .hang ∨ ∃ fuel' pre a, Settled toks pre a p q v ∧ (pre = [] → Like a.value v) ∧
      (loop toks stmt n fuel y st am p).Same
        (loop toks stmt n fuel' ⟨pre ++ y.operators, a :: y.result⟩ (adaptOf stmt ⟨pre ++ y.operators, a :: y.result⟩ .Atom) am q)

/-- The left part of an expression. -/
def ReadsLeft (stmt : Bool) (am : Amb) (i o : List Lexeme) (v : V) : Prop :=
  ∀ p, At toks p i → ∃ q, At toks q o ∧ Btw toks p q ∧ ∀ n fuel,
    (loop toks stmt n fuel {} .Prefix am p).out = .hang ∨ ∃ fuel' y st, (st = .Atom ∨ st = .Postfix) ∧ Ready toks y p q v ∧
      (loop toks stmt n fuel {} .Prefix am p).Same (loop toks stmt n fuel' y st am q)

/-- `..` without an operand, after prefix operators. -/
def ReadsDots (am : Amb) (i o : List Lexeme) (v : V) : Prop :=
  ∀ p, At toks p i → ∃ q, At toks q o ∧ Btw toks p q ∧ ∀ stmt n fuel ops,
    (loop toks stmt n fuel ⟨ops, []⟩ .Prefix am p).out = .hang ∨ ∃ fuel' pre v', Like v' v ∧
      (∀ ops, applyWhile toks (fun _ => true) (pre ++ ops) [] = applyWhile toks (fun _ => true) ops [⟨v', p, q⟩]) ∧
      (loop toks stmt n fuel ⟨ops, []⟩ .Prefix am p).Same (loop toks stmt n fuel' ⟨pre ++ ops, []⟩ .Prefix am q)

end

section
variable {toks : List Token} {am lv : Amb} {stmt : Bool} {i m o : List Lexeme} {as pl : List V} {v l r : V}

/-- One prefix operator or atom read by the loop. -/
theorem step_start {Q : PrefixOrAtom → Prop} {n : Nat} {y : Yard} {st : EState} {p q : Pt} (hs : isStart st = true)
    (hl : levelAt am st = lv) (h : ((exprParsers toks (eval toks n)).prefixOrAtom lv p).Ok lv q Q) :
    (shuntStep toks (exprParsers toks (eval toks n)) y st am p).out = .hang ∨ ∃ x l, Q x ∧
      shuntStep toks (exprParsers toks (eval toks n)) y st am p = match x with
        | .prefix e as op pl => ⟨.ok q (.ofYard .Prefix (y.addOperator toks (.pre e as op pl) p q)), am, l⟩
        | .atom v => ⟨.ok q (.continue (y.addExpression v p q) .Atom), am, l⟩ := by
  have key : ∀ r : Res PrefixOrAtom, r.Ok am q Q → r.out = .hang ∨ ∃ x l, Q x ∧ r = ⟨.ok q x, am, l⟩ := by
    rintro ⟨out, a, l⟩ (h | ⟨h1, v, h2, h3⟩)
    · exact .inl h
    · dsimp only at h1 h2; subst h1 h2; exact .inr ⟨v, l, h3, rfl⟩
  cases st with
  | Prefix =>
    have hl' : am = lv := hl
    subst hl'
    unfold shuntStep
    dsimp only
    rcases key _ h with h | ⟨x, l, h1, h2⟩
    · left
      generalize (exprParsers toks (eval toks n)).prefixOrAtom am p = r at h
      obtain ⟨out, a, l⟩ := r
      dsimp only at h; subst h; simp
    · right
      refine ⟨x, l, h1, ?_⟩
      rw [h2]
      cases x <;> simp
  | Infix w =>
    unfold shuntStep
    dsimp only
    unfold levelAt at hl
    dsimp only at hl
    by_cases hw : (am.isAmbiguous && w) = true
    · rw [if_pos hw] at hl ⊢
      subst hl
      have h' := P.ok_amb (am := am) h
      rcases key _ h' with h | ⟨x, l, h1, h2⟩
      · left
        unfold P.maximallyAmbiguous
        generalize P.setAmbiguityLevel .Maximum (exprParsers toks (eval toks n)).prefixOrAtom am p = r at h
        obtain ⟨out, a, l⟩ := r
        dsimp only at h; subst h; simp
      · right
        refine ⟨x, l, h1, ?_⟩
        unfold P.maximallyAmbiguous
        rw [h2]
        cases x <;> simp
    · rw [if_neg hw] at hl ⊢
      subst hl
      rcases key _ h with h | ⟨x, l, h1, h2⟩
      · left
        generalize (exprParsers toks (eval toks n)).prefixOrAtom am p = r at h
        obtain ⟨out, a, l⟩ := r
        dsimp only at h; subst h; simp
      · right
        refine ⟨x, l, h1, ?_⟩
        rw [h2]
        cases x <;> simp
  | _ => cases hs

theorem step_end {n : Nat} {y : Yard} {st : EState} {p : Pt} (hs : isStart st = true)
    (hl : levelAt am st = lv) (h : ((exprParsers toks (eval toks n)).prefixOrAtom lv p).No lv (fun _ => True)) :
    (shuntStep toks (exprParsers toks (eval toks n)) y st am p).out = .hang ∨ ∃ q l,
      shuntStep toks (exprParsers toks (eval toks n)) y st am p = ⟨.ok q (.stop (y.finish toks q)), am, l⟩ := by
  have key : ∀ r : Res PrefixOrAtom, r.No am (fun _ => True) → r.out = .hang ∨ ∃ q e l, r = ⟨.fail q e, am, l⟩ := by
    rintro ⟨out, a, l⟩ (h | ⟨h1, q, e, h2, -⟩)
    · exact .inl h
    · dsimp only at h1 h2; subst h1 h2; exact .inr ⟨q, e, l, rfl⟩
  cases st with
  | Prefix =>
    have hl' : am = lv := hl
    subst hl'
    unfold shuntStep
    dsimp only
    rcases key _ h with h | ⟨x, e, l, h2⟩
    · left
      generalize (exprParsers toks (eval toks n)).prefixOrAtom am p = r at h
      obtain ⟨out, a, l⟩ := r
      dsimp only at h; subst h; simp
    · right
      exact ⟨x, l, by simp [h2]⟩
  | Infix w =>
    unfold shuntStep
    dsimp only
    unfold levelAt at hl
    dsimp only at hl
    by_cases hw : (am.isAmbiguous && w) = true
    · rw [if_pos hw] at hl ⊢
      subst hl
      have h' := P.no_amb (am := am) h
      rcases key _ h' with h | ⟨x, e, l, h2⟩
      · left
        unfold P.maximallyAmbiguous
        generalize P.setAmbiguityLevel .Maximum (exprParsers toks (eval toks n)).prefixOrAtom am p = r at h
        obtain ⟨out, a, l⟩ := r
        dsimp only at h; subst h; simp
      · right
        unfold P.maximallyAmbiguous
        exact ⟨x, l, by simp [h2]⟩
    · rw [if_neg hw] at hl ⊢
      subst hl
      rcases key _ h with h | ⟨x, e, l, h2⟩
      · left
        generalize (exprParsers toks (eval toks n)).prefixOrAtom am p = r at h
        obtain ⟨out, a, l⟩ := r
        dsimp only at h; subst h; simp
      · right
        exact ⟨x, l, by simp [h2]⟩
  | _ => cases hs

/-- One operator read by the loop after an operand. -/
theorem step_operator {Q : InfixOrPostfix → Prop} {n : Nat} {y : Yard} {st : EState} {p q : Pt} (hs : st = .Atom ∨ st = .Postfix)
    (h : ((exprParsers toks (eval toks n)).infixOrPostfix am p).Ok am q Q) :
    (shuntStep toks (exprParsers toks (eval toks n)) y st am p).out = .hang ∨ ∃ x l, Q x ∧
      shuntStep toks (exprParsers toks (eval toks n)) y st am p = match x with
        | .infix op pl => ⟨.ok q (.ofYard (.Infix op.isRange) (y.addOperator toks (.inf op pl) p q)), am, l⟩
        | .postfix op pl => ⟨.ok q (.ofYard .Postfix (y.addOperator toks (.post op pl) p q)), am, l⟩ := by
  rcases hs with rfl | rfl <;>
  · unfold shuntStep
    dsimp only
    generalize (exprParsers toks (eval toks n)).infixOrPostfix am p = r at h
    obtain ⟨out, a, l⟩ := r
    rcases h with h | ⟨h1, v, h2, h3⟩
    · dsimp only at h; subst h; exact .inl rfl
    · dsimp only at h1 h2; subst h1 h2
      exact .inr ⟨v, l, h3, by cases v <;> simp⟩

theorem step_operator_end {n : Nat} {y : Yard} {st : EState} {p : Pt} (hs : st = .Atom ∨ st = .Postfix)
    (h : ((exprParsers toks (eval toks n)).infixOrPostfix am p).No am (fun _ => True)) :
    (shuntStep toks (exprParsers toks (eval toks n)) y st am p).out = .hang ∨ ∃ q l,
      shuntStep toks (exprParsers toks (eval toks n)) y st am p = ⟨.ok q (.stop (y.finish toks q)), am, l⟩ := by
  rcases hs with rfl | rfl <;>
  · unfold shuntStep
    dsimp only
    generalize (exprParsers toks (eval toks n)).infixOrPostfix am p = r at h
    obtain ⟨out, a, l⟩ := r
    rcases h with h | ⟨h1, q, e, h2, h3⟩
    · dsimp only at h; subst h; exact .inl rfl
    · dsimp only at h1 h2; subst h1 h2
      exact .inr ⟨q, l, rfl⟩

/-! ### Operands -/

theorem ReadsAtom.operand (h : ReadsAtom toks lv i o v) : ReadsOperand toks lv am i o v := by
  intro p hp
  obtain ⟨q, hq, hb, hy⟩ := h p hp
  refine ⟨q, hq, hb, fun stmt n fuel y st hs hl => ?_⟩
  cases fuel with
  | zero => exact .inl rfl
  | succ fuel =>
    rcases step_start (y := y) hs hl (hy n) with h | ⟨x, l, ⟨v', rfl, hv⟩, h⟩
    · exact .inl (loop_hang h)
    · exact .inr ⟨fuel, [], ⟨v', p, q⟩, ⟨v', hv, fun ops rs => rfl⟩, fun _ => hv, loop_step h⟩

theorem adapt_prefix (stmt : Bool) (y : Yard) : adaptOf stmt y .Prefix = .Prefix := by
  unfold adaptOf; split <;> rfl

theorem adapt_infix (stmt : Bool) (y : Yard) (r : Bool) : adaptOf stmt y (.Infix r) = .Infix r := by
  unfold adaptOf; split <;> rfl

theorem adapt_postfix (stmt : Bool) (y : Yard) : adaptOf stmt y .Postfix = .Postfix := by
  unfold adaptOf; split <;> rfl

theorem addPrefix {y : Yard} {e : Extent} {as pl : List V} {op : PrefixOp} {p q : Pt} :
    y.addOperator toks (.pre e as op pl) p q = .ok ⟨⟨.pre e as op pl, p, q⟩ :: y.operators, y.result⟩ := by
  unfold Yard.addOperator
  cases h : y.operators with
  | nil => simp [applyWhile, SRes.bind]
  | cons c cs =>
    have : OpKind.shouldPop (.pre e as op pl) c.value = false := by
      cases hc : c.value <;> simp [OpKind.shouldPop, OpKind.assoc, OpKind.prec]
    simp [applyWhile, this, SRes.bind]

theorem popAll {op : OpKind} (h : op.assoc = .Left) : op.shouldPop = fun _ => true := by
  funext t
  unfold OpKind.shouldPop
  rw [if_pos h]
  cases op <;> cases t <;> simp [OpKind.prec]

theorem ReadsPrefix.operand {op : PrefixOp} (h : ReadsPrefix toks lv i m op as pl) (h' : ReadsOperand toks am am m o v) :
    ReadsOperand toks lv am i o (mkAttributed ⟨0, 0⟩ as (op.mk pl ⟨0, 0⟩ (some v))) := by
  intro p hp
  obtain ⟨q, hq, hb, hy⟩ := h p hp
  obtain ⟨q', hq', hb', hy'⟩ := h' q hq
  refine ⟨q', hq', hb.trans hb', fun stmt n fuel y st hs hl => ?_⟩
  cases fuel with
  | zero => exact .inl rfl
  | succ fuel =>
    rcases step_start (y := y) hs hl (hy n) with h | ⟨x, l, ⟨e, as', pl', rfl, h1, h2⟩, h⟩
    · exact .inl (loop_hang h)
    · dsimp only at h
      rw [addPrefix] at h
      have h3 := loop_step (stmt := stmt) (fuel := fuel) h
      rw [adapt_prefix] at h3
      rcases hy' stmt n fuel ⟨⟨.pre e as' op pl', p, q⟩ :: y.operators, y.result⟩ .Prefix rfl rfl with h4 | ⟨fuel', pre, a, h4, h5, h6⟩
      · exact .inl (h3.1.trans h4)
      · obtain ⟨inner, hi⟩ := ex_isSome (hb.trans hb')
        obtain ⟨v', h7, h8⟩ := h4
        refine .inr ⟨fuel', pre ++ [⟨.pre e as' op pl', p, q⟩], a,
          ⟨mkAttributed ⟨e.s, inner.e⟩ as' (op.mk pl' inner (some v')), ?_, ?_⟩, by simp, ?_⟩
        · exact mkAttributed_like h1 (op.mk_like h2 (.some h7))
        · intro ops rs
          rw [List.append_assoc, h8]
          simp only [List.cons_append, List.nil_append, applyWhile, if_true]
          rw [applyOne_pre rfl (hb.trans hb') hi]
          rfl
        · simp only [List.append_assoc, List.cons_append, List.nil_append]
          exact h3.trans h6

theorem ReadsPrefix.dots {op : PrefixOp} (hop : op.isRange = true) (h : ReadsPrefix toks am i o op as pl) :
    ReadsDots toks am i o (mkAttributed ⟨0, 0⟩ as (op.mk pl ⟨0, 0⟩ none)) := by
  intro p hp
  obtain ⟨q, hq, hb, hy⟩ := h p hp
  refine ⟨q, hq, hb, fun stmt n fuel ops => ?_⟩
  cases fuel with
  | zero => exact .inl rfl
  | succ fuel =>
    rcases step_start (am := am) (y := ⟨ops, []⟩) (st := .Prefix) rfl rfl (hy n) with h | ⟨x, l, ⟨e, as', pl', rfl, h1, h2⟩, h⟩
    · exact .inl (loop_hang h)
    · dsimp only at h
      rw [addPrefix] at h
      have h3 := loop_step (stmt := stmt) (fuel := fuel) h
      rw [adapt_prefix] at h3
      obtain ⟨inner, hi⟩ := ex_isSome hb
      refine .inr ⟨fuel, [⟨.pre e as' op pl', p, q⟩], mkAttributed ⟨e.s, inner.e⟩ as' (op.mk pl' inner none), ?_, ?_, h3⟩
      · exact mkAttributed_like h1 (op.mk_like h2 .none)
      · intro ops
        simp [applyWhile, applyOne, hop, applyMaybePrefix, exS, hi, SRes.bind]

theorem ReadsPrefix.dotsCons {op : PrefixOp} (h : ReadsPrefix toks am i m op as pl) (h' : ReadsDots toks am m o v) :
    ReadsDots toks am i o (mkAttributed ⟨0, 0⟩ as (op.mk pl ⟨0, 0⟩ (some v))) := by
  intro p hp
  obtain ⟨q, hq, hb, hy⟩ := h p hp
  obtain ⟨q', hq', hb', hy'⟩ := h' q hq
  refine ⟨q', hq', hb.trans hb', fun stmt n fuel ops => ?_⟩
  cases fuel with
  | zero => exact .inl rfl
  | succ fuel =>
    rcases step_start (am := am) (y := ⟨ops, []⟩) (st := .Prefix) rfl rfl (hy n) with h | ⟨x, l, ⟨e, as', pl', rfl, h1, h2⟩, h⟩
    · exact .inl (loop_hang h)
    · dsimp only at h
      rw [addPrefix] at h
      have h3 := loop_step (stmt := stmt) (fuel := fuel) h
      rw [adapt_prefix] at h3
      rcases hy' stmt n fuel (⟨.pre e as' op pl', p, q⟩ :: ops) with h4 | ⟨fuel', pre, v', h7, h8, h6⟩
      · exact .inl (h3.1.trans h4)
      · obtain ⟨inner, hi⟩ := ex_isSome (hb.trans hb')
        refine .inr ⟨fuel', pre ++ [⟨.pre e as' op pl', p, q⟩],
          mkAttributed ⟨e.s, inner.e⟩ as' (op.mk pl' inner (some v')), ?_, ?_, ?_⟩
        · exact mkAttributed_like h1 (op.mk_like h2 (.some h7))
        · intro ops
          rw [List.append_assoc, h8]
          simp only [List.cons_append, List.nil_append, applyWhile, if_true]
          rw [applyOne_pre rfl (hb.trans hb') hi]
          rfl
        · simp only [List.append_assoc, List.cons_append, List.nil_append]
          exact h3.trans h6

/-! ### The left part -/

theorem adapt_plain {y : Yard} (h : stmt = false ∨ y.operators ≠ [] ∨ ∀ c, y.result.getLast? = some c → mayTerminateAttributed c.value = false) :
    adaptOf stmt y .Atom = .Atom := by
  unfold adaptOf
  split
  · rename_i hs
    subst hs
    unfold adaptStatement
    dsimp only
    rw [if_neg]
    rcases h with h | h | h
    · cases h
    · cases ho : y.operators <;> simp_all
    · cases hl : y.result.getLast? with
      | none => simp
      | some c => simp [h c hl]
  · rfl

theorem ReadsOperand.left (h : ReadsOperand toks am am i o v) (hv : stmt = false ∨ mayTerminateAttributed v = false) :
    ReadsLeft toks stmt am i o v := by
  intro p hp
  obtain ⟨q, hq, hb, hy⟩ := h p hp
  refine ⟨q, hq, hb, fun n fuel => ?_⟩
  rcases hy stmt n fuel {} .Prefix rfl rfl with h1 | ⟨fuel', pre, a, ⟨v', h1, h2⟩, h3, h4⟩
  · exact .inl h1
  · refine .inr ⟨fuel', ⟨pre ++ [], [a]⟩, .Atom, .inl rfl, ⟨v', h1, ?_⟩, ?_⟩
    · rw [h2]; rfl
    · dsimp only at h4
      rwa [adapt_plain] at h4
      rcases hv with hv | hv
      · exact .inl hv
      · cases pre with
        | nil =>
          right; right
          intro c hc
          simp at hc
          subst hc
          rw [mayTerminateAttributed_like (h3 rfl), hv]
        | cons x xs => right; left; simp

theorem Ready.pop {y : Yard} {p q : Pt} (h : Ready toks y p q v) (op : OpKind) (ho : op.assoc = .Left) (s e : Pt) :
    ∃ v', Like v' v ∧ y.addOperator toks op s e = .ok ⟨[⟨op, s, e⟩], [⟨v', p, q⟩]⟩ := by
  obtain ⟨v', h1, h2⟩ := h
  refine ⟨v', h1, ?_⟩
  unfold Yard.addOperator
  rw [popAll ho, h2]
  rfl

theorem ReadsLeft.infix {op : InfixOp} (h : ReadsLeft toks stmt am i m l) {m' : List Lexeme} (h' : ReadsInfix toks am m m' op pl)
    (h'' : ReadsOperand toks (levelAt am (.Infix op.isRange)) am m' o r) :
    ReadsLeft toks stmt am i o (op.mk pl ⟨0, 0⟩ l (some r)) := by
  intro p hp
  obtain ⟨q, hq, hb, hy⟩ := h p hp
  obtain ⟨q1, hq1, hb1, hy1⟩ := h' q hq
  obtain ⟨q2, hq2, hb2, hy2⟩ := h'' q1 hq1
  refine ⟨q2, hq2, (hb.trans hb1).trans hb2, fun n fuel => ?_⟩
  rcases hy n fuel with h1 | ⟨fuel1, y, st, hst, hr, h1⟩
  · exact .inl h1
  cases fuel1 with
  | zero => exact .inl (h1.1.trans rfl)
  | succ fuel1 =>
    rcases step_operator (y := y) hst (hy1 n) with h2 | ⟨x, lg, ⟨pl', rfl, hpl⟩, h2⟩
    · exact .inl (h1.1.trans (loop_hang h2))
    · obtain ⟨l', hl, h3⟩ := hr.pop (.inf op pl') rfl q q1
      dsimp only at h2
      rw [h3] at h2
      have h4 := loop_step (stmt := stmt) (fuel := fuel1) h2
      rw [adapt_infix] at h4
      rcases hy2 stmt n fuel1 ⟨[⟨.inf op pl', q, q1⟩], [⟨l', p, q⟩]⟩ (.Infix op.isRange) rfl rfl with
        h5 | ⟨fuel2, pre, a, ⟨r', h5, h6⟩, h7, h8⟩
      · exact .inl ((h1.trans h4).1.trans h5)
      · rw [adapt_plain (.inr (.inl (by simp)))] at h8
        refine .inr ⟨fuel2, _, .Atom, .inl rfl, ?_, (h1.trans h4).trans h8⟩
        obtain ⟨e, he⟩ := ex_isSome ((hb.trans hb1).trans hb2)
        refine ⟨op.mk pl' e l' (some r'), op.mk_like hpl hl (.some h5), ?_⟩
        dsimp only
        rw [h6]
        simp only [applyWhile, if_true]
        rw [applyOne_inf he]
        rfl

theorem ReadsLeft.postfix {op : PostfixOp} (h : ReadsLeft toks stmt am i m l) (h' : ReadsPostfix toks am m o op pl) :
    ReadsLeft toks stmt am i o (op.mk pl ⟨0, 0⟩ l) := by
  intro p hp
  obtain ⟨q, hq, hb, hy⟩ := h p hp
  obtain ⟨q1, hq1, hb1, hy1⟩ := h' q hq
  refine ⟨q1, hq1, hb.trans hb1, fun n fuel => ?_⟩
  rcases hy n fuel with h1 | ⟨fuel1, y, st, hst, hr, h1⟩
  · exact .inl h1
  cases fuel1 with
  | zero => exact .inl (h1.1.trans rfl)
  | succ fuel1 =>
    rcases step_operator (y := y) hst (hy1 n) with h2 | ⟨x, lg, ⟨pl', rfl, hpl⟩, h2⟩
    · exact .inl (h1.1.trans (loop_hang h2))
    · obtain ⟨l', hl, h3⟩ := hr.pop (.post op pl') rfl q q1
      dsimp only at h2
      rw [h3] at h2
      have h4 := loop_step (stmt := stmt) (fuel := fuel1) h2
      rw [adapt_postfix] at h4
      refine .inr ⟨fuel1, _, .Postfix, .inr rfl, ?_, h1.trans h4⟩
      obtain ⟨e, he⟩ := ex_isSome (hb.trans hb1)
      refine ⟨op.mk pl' e l', op.mk_like hpl hl, ?_⟩
      simp only [applyWhile, if_true]
      rw [applyOne_post he]
      rfl

/-- After a statement that ends in a brace, `.` or `?` continue it. -/
theorem ReadsAtom.limited {op : PostfixOp} (h : ReadsAtom toks am i m l) (hl : mayTerminateAttributed l = true)
    (h' : ReadsLimited toks am m o op pl) : ReadsLeft toks true am i o (op.mk pl ⟨0, 0⟩ l) := by
  intro p hp
  obtain ⟨q, hq, hb, hy⟩ := h p hp
  obtain ⟨q1, hq1, hb1, hy1⟩ := h' q hq
  refine ⟨q1, hq1, hb.trans hb1, fun n fuel => ?_⟩
  cases fuel with
  | zero => exact .inl rfl
  | succ fuel =>
    rcases step_start (am := am) (y := {}) (st := .Prefix) rfl rfl (hy n) with h | ⟨x, lg, ⟨v', rfl, hv⟩, h⟩
    · exact .inl (loop_hang h)
    · have h1 := loop_step (stmt := true) (fuel := fuel) h
      have ha : adaptOf true (Yard.addExpression {} v' p q) .Atom = .AtomLimitedPostfix := by
        simp [adaptOf, adaptStatement, Yard.addExpression, mayTerminateAttributed_like hv, hl]
      rw [ha] at h1
      cases fuel with
      | zero => exact .inl (h1.1.trans rfl)
      | succ fuel =>
        have h2 : (shuntStep toks (exprParsers toks (eval toks n)) (Yard.addExpression {} v' p q) .AtomLimitedPostfix am q).out = .hang ∨
            ∃ pl' lg, Likes pl' pl ∧ shuntStep toks (exprParsers toks (eval toks n)) (Yard.addExpression {} v' p q) .AtomLimitedPostfix am q =
              ⟨.ok q1 (.ofYard .Postfix ((Yard.addExpression {} v' p q).addOperator toks (.post op pl') q q1)), am, lg⟩ := by
          have h3 := hy1 n
          dsimp only at h3
          unfold shuntStep
          dsimp only
          generalize (exprParsers toks (eval toks n)).limitedPostfix am q = r at h3
          obtain ⟨out, a, lg⟩ := r
          rcases h3 with h3 | ⟨h3, ⟨op', pl'⟩, h4, h5, h6⟩
          · dsimp only at h3; subst h3; exact .inl rfl
          · dsimp only at h3 h4 h5 h6; subst h3 h4 h5
            exact .inr ⟨pl', lg, h6, rfl⟩
        rcases h2 with h2 | ⟨pl', lg, hpl, h2⟩
        · exact .inl (h1.1.trans (loop_hang h2))
        · obtain ⟨l', hl', h3⟩ := Ready.pop (toks := toks) (y := Yard.addExpression {} v' p q) (v := l) (p := p) (q := q)
            ⟨v', hv, rfl⟩ (.post op pl') rfl q q1
          rw [h3] at h2
          have h4 := loop_step (stmt := true) (fuel := fuel) h2
          rw [adapt_postfix] at h4
          refine .inr ⟨fuel, _, .Postfix, .inr rfl, ?_, h1.trans h4⟩
          obtain ⟨e, he⟩ := ex_isSome (hb.trans hb1)
          refine ⟨op.mk pl' e l', op.mk_like hpl hl', ?_⟩
          simp only [applyWhile, if_true]
          rw [applyOne_post he]
          rfl

/-! ### The whole -/

/-- The rule of expressions. -/
def exprRule (stmt : Bool) : NT := if stmt then .statement_expression else .expression

theorem exprRule_rules : rules (exprRule stmt) = .expr stmt := by cases stmt <;> rfl

theorem parses_expr (h : ∀ p, At toks p i → ∃ q, At toks q o ∧ Btw toks p q ∧ ∀ n fuel,
    (loop toks stmt n fuel {} .Prefix am p).Ok am q (fun v' => Like v' v)) : Parses toks (.r (exprRule stmt)) am i o [v] := by
  intro p hp
  obtain ⟨q, hq, hb, hy⟩ := h p hp
  refine ⟨q, hq, hb, fun n => ?_⟩
  cases n with
  | zero => exact .hang
  | succ n =>
    show (evalRule toks (eval toks n) (rules (exprRule stmt)) am p).Ok am q _
    rw [exprRule_rules]
    refine P.ok_map (Q := fun v' => Like v' v) (hy n (loopFuel toks)) fun v' hv => ?_
    simp [Likes, show shape v' = shape v from hv]

theorem ReadsLeft.expr (h : ReadsLeft toks stmt am i o v) (h' : NoOperator toks am o) :
    Parses toks (.r (exprRule stmt)) am i o [v] := by
  refine parses_expr fun p hp => ?_
  obtain ⟨q, hq, hb, hy⟩ := h p hp
  refine ⟨q, hq, hb, fun n fuel => ?_⟩
  rcases hy n fuel with h1 | ⟨fuel1, y, st, hst, ⟨v', hv, hr⟩, h1⟩
  · exact .inl h1
  cases fuel1 with
  | zero => exact .inl (h1.1.trans rfl)
  | succ fuel1 =>
    rcases step_operator_end (y := y) hst (h' q hq n) with h2 | ⟨q', lg, h2⟩
    · exact .inl (h1.1.trans (loop_hang h2))
    · have h3 := loop_stop (stmt := stmt) (fuel := fuel1) h2
      rw [Yard.finish_ok hr] at h3
      exact .inr ⟨h1.2.trans h3.2, v', h1.1.trans h3.1, hv⟩

theorem ReadsAtom.statement (h : ReadsAtom toks am i o v) (hv : mayTerminateAttributed v = true) (h' : NoLimited toks am o) :
    Parses toks (.r .statement_expression) am i o [v] := by
  refine parses_expr (stmt := true) fun p hp => ?_
  obtain ⟨q, hq, hb, hy⟩ := h p hp
  refine ⟨q, hq, hb, fun n fuel => ?_⟩
  cases fuel with
  | zero => exact .inl rfl
  | succ fuel =>
    rcases step_start (am := am) (y := {}) (st := .Prefix) rfl rfl (hy n) with h | ⟨x, lg, ⟨v', rfl, hv'⟩, h⟩
    · exact .inl (loop_hang h)
    · have h1 := loop_step (stmt := true) (fuel := fuel) h
      have ha : adaptOf true (Yard.addExpression {} v' p q) .Atom = .AtomLimitedPostfix := by
        simp [adaptOf, adaptStatement, Yard.addExpression, mayTerminateAttributed_like hv', hv]
      rw [ha] at h1
      cases fuel with
      | zero => exact .inl (h1.1.trans rfl)
      | succ fuel =>
        have h2 : (shuntStep toks (exprParsers toks (eval toks n)) (Yard.addExpression {} v' p q) .AtomLimitedPostfix am q).out = .hang ∨
            ∃ q' lg, shuntStep toks (exprParsers toks (eval toks n)) (Yard.addExpression {} v' p q) .AtomLimitedPostfix am q =
              ⟨.ok q' (.stop ((Yard.addExpression {} v' p q).finish toks q')), am, lg⟩ := by
          have h3 := h' q hq n
          dsimp only at h3
          unfold shuntStep
          dsimp only
          generalize (exprParsers toks (eval toks n)).limitedPostfix am q = r at h3
          obtain ⟨out, a, lg⟩ := r
          rcases h3 with h3 | ⟨h3, q', e, h4, h5⟩
          · dsimp only at h3; subst h3; exact .inl rfl
          · dsimp only at h3 h4; subst h3 h4
            exact .inr ⟨q', lg, rfl⟩
        rcases h2 with h2 | ⟨q', lg, h2⟩
        · exact .inl (h1.1.trans (loop_hang h2))
        · have h3 := loop_stop (stmt := true) (fuel := fuel) h2
          rw [Yard.finish_ok (c := ⟨v', p, q⟩) rfl] at h3
          exact .inr ⟨h1.2.trans h3.2, v', h1.1.trans h3.1, hv'⟩

theorem ReadsLeft.exprRange {op : InfixOp} (hop : op.isRange = true) (h : ReadsLeft toks stmt am i m l)
    (h' : ReadsInfix toks am m o op pl) (h'' : NoOperand toks (levelAt am (.Infix true)) o) :
    Parses toks (.r (exprRule stmt)) am i o [op.mk pl ⟨0, 0⟩ l none] := by
  refine parses_expr fun p hp => ?_
  obtain ⟨q, hq, hb, hy⟩ := h p hp
  obtain ⟨q1, hq1, hb1, hy1⟩ := h' q hq
  refine ⟨q1, hq1, hb.trans hb1, fun n fuel => ?_⟩
  rcases hy n fuel with h1 | ⟨fuel1, y, st, hst, hr, h1⟩
  · exact .inl h1
  cases fuel1 with
  | zero => exact .inl (h1.1.trans rfl)
  | succ fuel1 =>
    rcases step_operator (y := y) hst (hy1 n) with h2 | ⟨x, lg, ⟨pl', rfl, hpl⟩, h2⟩
    · exact .inl (h1.1.trans (loop_hang h2))
    · obtain ⟨l', hl, h3⟩ := hr.pop (.inf op pl') rfl q q1
      dsimp only at h2
      rw [h3, hop] at h2
      have h4 := loop_step (stmt := stmt) (fuel := fuel1) h2
      rw [adapt_infix] at h4
      cases fuel1 with
      | zero => exact .inl ((h1.trans h4).1.trans rfl)
      | succ fuel1 =>
        rcases step_end (am := am) (y := ⟨[⟨.inf op pl', q, q1⟩], [⟨l', p, q⟩]⟩) (st := .Infix true) rfl rfl (h'' q1 hq1 n) with
          h5 | ⟨q', lg, h5⟩
        · exact .inl ((h1.trans h4).1.trans (loop_hang h5))
        · have h6 := loop_stop (stmt := stmt) (fuel := fuel1) h5
          obtain ⟨e, he⟩ := ex_isSome (hb.trans hb1)
          rw [Yard.finish_ok (c := ⟨op.mk pl' e l' none, p, q1⟩)] at h6
          · exact .inr ⟨(h1.trans h4).2.trans h6.2, _, (h1.trans h4).1.trans h6.1, op.mk_like hpl hl .none⟩
          · simp [applyWhile, applyOne, hop, applyMaybeInfix, popExpression, SRes.bind, exS, he]

theorem ReadsDots.expr (h : ReadsDots toks am i o v) (h' : NoOperand toks am o) : Parses toks (.r (exprRule stmt)) am i o [v] := by
  refine parses_expr fun p hp => ?_
  obtain ⟨q, hq, hb, hy⟩ := h p hp
  refine ⟨q, hq, hb, fun n fuel => ?_⟩
  rcases hy stmt n fuel [] with h1 | ⟨fuel1, pre, v', hv, hr, h1⟩
  · exact .inl h1
  cases fuel1 with
  | zero => exact .inl (h1.1.trans rfl)
  | succ fuel1 =>
    rcases step_end (am := am) (y := ⟨pre ++ [], []⟩) (st := .Prefix) rfl rfl (h' q hq n) with h2 | ⟨q', lg, h2⟩
    · exact .inl (h1.1.trans (loop_hang h2))
    · have h3 := loop_stop (stmt := stmt) (fuel := fuel1) h2
      rw [Yard.finish_ok (c := ⟨v', p, q⟩)] at h3
      · exact .inr ⟨h1.2.trans h3.2, v', h1.1.trans h3.1, hv⟩
      · dsimp only; rw [hr]; rfl

end
end Verif
