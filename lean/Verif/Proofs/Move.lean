import Verif.Proofs.Shape
import Verif.Spec.Move
/-!
# The parser moves the extents along

Two runs of the parser, over tokens that are the same but for their places, which differ by `d` bytes everywhere, give the
same trees, but for the places, which differ by `d` bytes everywhere.
-/

namespace Verif.Move
open Verif Verif.Spec

variable {d : Nat}

def Like (d : Nat) (v w : V) : Prop := w = moved d v
def Likes (d : Nat) (vs ws : List V) : Prop := ws = moveds d vs
/-- Tokens, token lists, extents. -/
def MT (d : Nat) (t t' : Token) : Prop := t' = t.moved d
def MTs (d : Nat) (ts ts' : List Token) : Prop := ts' = ts.map (·.moved d)
def ME (d : Nat) (e e' : Extent) : Prop := e' = e.moved d

theorem moveds_map (d : Nat) (vs : List V) : moveds d vs = vs.map (moved d) := by
  induction vs with
  | nil => rfl
  | cons v vs ih => simp [moveds, ih]

@[simp] theorem moveds_append (vs ws : List V) : moveds d (vs ++ ws) = moveds d vs ++ moveds d ws := by simp [moveds_map]
@[simp] theorem moveds_nil : moveds d [] = [] := rfl
@[simp] theorem moveds_cons (v : V) (vs : List V) : moveds d (v :: vs) = moved d v :: moveds d vs := rfl
@[simp] theorem moved_ext (e : Extent) : moved d (.ext e) = .ext (e.moved d) := rfl
@[simp] theorem moved_bool (b : Bool) : moved d (.bool b) = .bool b := rfl
@[simp] theorem moved_list (vs : List V) : moved d (.list vs) = .list (moveds d vs) := rfl
@[simp] theorem moved_enm (t : Tag) (vs : List V) : moved d (.enm t vs) = .enm t (moveds d vs) := rfl
@[simp] theorem moved_node (k : K) (e : Extent) (ws : List Ws) (vs : List V) :
    moved d (.node k e ws vs) = .node k (e.moved d) (ws.map (·.moved d)) (moveds d vs) := rfl

mutual
theorem shape_moved : ∀ v : V, shape (moved d v) = shape v
  | .ext _ => rfl
  | .bool _ => rfl
  | .list vs => by simp [shapes_moveds vs]
  | .enm _ vs => by simp [shapes_moveds vs]
  | .node _ _ _ vs => by simp [shapes_moveds vs]
theorem shapes_moveds : ∀ vs : List V, shapes (moveds d vs) = shapes vs
  | [] => rfl
  | v :: vs => by simp [shape_moved v, shapes_moveds vs]
end

/-! ## Tokens -/

theorem MTs.get {ts ts' : List Token} (h : MTs d ts ts') (i : Nat) : P.Sim.Opt (MT d) ts[i]? ts'[i]? := by
  unfold MTs at h
  subst h
  rw [List.getElem?_map]
  cases ts[i]? with
  | none => exact .none
  | some t => exact .some rfl

theorem MTs.drop {ts ts' : List Token} (h : MTs d ts ts') (i : Nat) : MTs d (ts.drop i) (ts'.drop i) := by
  unfold MTs at *
  subst h
  simp

theorem MTs.length {ts ts' : List Token} (h : MTs d ts ts') : ts.length = ts'.length := by
  unfold MTs at h
  subst h
  simp

theorem MT.kind {t t' : Token} (h : MT d t t') : t.kind? = t'.kind? := by
  cases h
  cases t <;> rfl

theorem MT.eof {t t' : Token} (h : MT d t t') : t.isEOF = t'.isEOF := by
  cases h
  cases t with
  | number n => rfl
  | plain k e => cases k <;> rfl

theorem MT.split {t t' : Token} (h : MT d t t') (n : Nat) :
    P.Sim.Opt (fun x y => MT d x.1 y.1 ∧ MT d x.2 y.2) (split t n) (split t' n) := by
  cases h
  cases t with
  | number m => exact .none
  | plain k e =>
    obtain ⟨s, e⟩ := e
    cases k <;> rcases n with _ | _ | n <;>
      first
      | exact .none
      | exact .some ⟨by simp [MT, Token.moved, Extent.moved]; omega, by simp [MT, Token.moved, Extent.moved]; omega⟩

theorem MT.start {t t' : Token} (h : MT d t t') : t'.extent.s = t.extent.s + d := by
  cases h
  cases t <;> rfl

theorem MT.stop {t t' : Token} (h : MT d t t') : t'.extent.e = t.extent.e + d := by
  cases h
  cases t <;> rfl

variable {toks toks' : List Token}

theorem ex_sim (h : MTs d toks toks') (p q : Pt) : P.Sim.Opt (ME d) (ex toks p q) (ex toks' p q) := by
  unfold ex
  have h0 := h.get p.off
  generalize toks[p.off]? = x at h0
  generalize toks'[p.off]? = y at h0
  have h9 := h.get (q.off - 1)
  generalize toks[q.off - 1]? = x' at h9
  generalize toks'[q.off - 1]? = y' at h9
  cases h0 with
  | none => exact .none
  | some h1 =>
    dsimp only
    rw [h1.start]
    split
    · cases h9 with
      | none => exact .none
      | some h2 =>
        dsimp only
        rw [h2.stop]
        exact .some (by simp [ME, Extent.moved]; omega)
    · split
      · split
        · exact .some (by simp [ME, Extent.moved]; omega)
        · split
          · exact .some (by simp [ME, Extent.moved]; omega)
          · exact .none
      · exact .none

theorem token_sim {α β : Type} {R : α → β → Prop} {f : Token → Option α} {g : Token → Option β} {err}
    (h : MTs d toks toks') (hf : ∀ t t', MT d t t' → P.Sim.Opt R (f t) (g t')) :
    P.Sim R (token toks f err) (token toks' g err) := by
  intro a pt
  have key : ∀ {t t' u u' : Token}, MT d t t' → MT d u u' → ∀ n, Res.Sim R
      (match f u with
      | some v => ⟨.ok (pt.advanceBy 1) v, a, []⟩
      | none =>
        match split t n with
        | some (h, _) =>
          match f h with
          | some v => ⟨.ok ⟨pt.off, some n⟩ v, a, []⟩
          | none => ⟨.fail pt err, a, []⟩
        | none => ⟨.fail pt err, a, []⟩)
      (match g u' with
      | some v => ⟨.ok (pt.advanceBy 1) v, a, []⟩
      | none =>
        match split t' n with
        | some (h, _) =>
          match g h with
          | some v => ⟨.ok ⟨pt.off, some n⟩ v, a, []⟩
          | none => ⟨.fail pt err, a, []⟩
        | none => ⟨.fail pt err, a, []⟩) := by
    intro t t' u u' ht hu n
    have h1 := hf u u' hu
    generalize f u = x at h1
    generalize g u' = y at h1
    cases h1 with
    | some h1 => exact .ok h1
    | none =>
      have h2 := ht.split n
      generalize split t n = x at h2
      generalize split t' n = y at h2
      cases h2 with
      | none => exact .fail
      | @some v w h2 =>
        obtain ⟨v1, v2⟩ := v
        obtain ⟨w1, w2⟩ := w
        dsimp only
        have h3 := hf v1 w1 h2.1
        generalize f v1 = x at h3
        generalize g w1 = y at h3
        cases h3 with
        | none => exact .fail
        | some h3 => exact .ok h3
  unfold token
  have h0 := h.get pt.off
  generalize toks[pt.off]? = x at h0
  generalize toks'[pt.off]? = y at h0
  cases h0 with
  | none => exact .fail
  | @some t t' ht =>
    obtain ⟨o, sub⟩ := pt
    cases sub with
    | none => exact key ht ht 0
    | some n =>
      dsimp only
      have h2 := ht.split n
      generalize h3 : split t n = x at h2
      generalize h4 : split t' n = y at h2
      cases h2 with
      | none => exact .panic
      | some h2 => exact key ht h2.2 (n + 1)

theorem convTK_sim (k : TK) (t t' : Token) (h : MT d t t') : P.Sim.Opt (ME d) (convTK k t) (convTK k t') := by
  cases h
  cases t with
  | plain k' e =>
    simp only [convTK, Token.moved]
    split
    · exact .some rfl
    · exact .none
  | number n => exact .none

theorem tok_sim (h : MTs d toks toks') (k : TK) (err : PErr) :
    P.Sim (ME d) (token toks (convTK k) err) (token toks' (convTK k) err) :=
  token_sim h (convTK_sim k)

theorem convNumber_sim (t t' : Token) (h : MT d t t') :
    P.Sim.Opt (fun n m => m = n.moved d) (convNumber t) (convNumber t') := by
  cases h
  cases t
  · exact .none
  · exact .some rfl

theorem number_sim (h : MTs d toks toks') (err : PErr) : P.Sim (fun n m => m = n.moved d)
    (token toks convNumber err) (token toks' convNumber err) :=
  token_sim h convNumber_sim

theorem convertNumber_sim {n m : Number} (h : m = n.moved d) : Like d (convertNumber n) (convertNumber m) := by
  subst h
  have ho : ∀ x : Option Extent, optExt (x.map (·.moved d)) = moved d (optExt x) := by
    intro x
    cases x <;> rfl
  unfold Like convertNumber
  obtain ⟨b, e, i, f, x, t, u⟩ := n
  cases b <;> simp [Number.moved, ho]

theorem intoSimple_sim {n m : Number} (h : m = n.moved d) : P.Sim.Opt (ME d) n.intoSimple m.intoSimple := by
  subst h
  unfold Number.intoSimple
  obtain ⟨b, e, i, f, x, t, u⟩ := n
  cases b <;> simp only [Number.moved, Option.isNone_map]
  case Decimal =>
    split
    · exact .some rfl
    · exact .none
  all_goals exact .none

theorem fieldNameNumber_sim (h : MTs d toks toks') : P.Sim (Likes d) (fieldNameNumber toks) (fieldNameNumber toks') := by
  intro a pt
  unfold fieldNameNumber
  rcases (number_sim h .ExpectedNumber a pt).elim with
    ⟨p', v, w, a', l, hr, h1, h2⟩ | ⟨p', e, a', l, h1, h2⟩ | ⟨a', l, h1, h2⟩ | ⟨a', l, h1, h2⟩ <;> simp only [h1, h2]
  · have h3 := intoSimple_sim hr
    generalize v.intoSimple = x at h3
    generalize w.intoSimple = y at h3
    cases h3 with
    | none => exact .fail
    | some h3 => exact .ok (by cases h3; rfl)
  · exact .fail
  · exact .panic
  · exact .hang

theorem nestedLen_sim {o c : TK} {ts ts' : List Token} (h : MTs d ts ts') (n : Nat) :
    nestedLen (isTK o) (isTK c) n ts = nestedLen (isTK o) (isTK c) n ts' := by
  unfold MTs at h
  subst h
  induction ts generalizing n with
  | nil => rfl
  | cons t ts ih =>
    have h1 : MT d t (t.moved d) := rfl
    simp only [List.map_cons, nestedLen, h1.eof, isTK, h1.kind, ← ih]

theorem spanned_sim {α β : Type} {R : α → β → Prop} {p : P α} {q : P β} (h : MTs d toks toks') (hp : P.Sim R p q) :
    P.Sim (fun x y => ME d x.1 y.1 ∧ R x.2 y.2) (P.spanned toks p) (P.spanned toks' q) := by
  intro a pt
  unfold P.spanned
  rcases (hp a pt).elim with ⟨p', v, w, a', l, hr, h1, h2⟩ | ⟨p', e, a', l, h1, h2⟩ | ⟨a', l, h1, h2⟩ | ⟨a', l, h1, h2⟩ <;>
    simp only [h1, h2]
  · have h3 := ex_sim h pt p'
    generalize ex toks pt p' = x at h3
    generalize ex toks' pt p' = y at h3
    cases h3 with
    | none => exact .panic
    | some h3 => exact .ok ⟨h3, hr⟩
  · exact .fail
  · exact .panic
  · exact .hang

theorem spannedEmpty_sim {α β : Type} {R : α → β → Prop} {p : P α} {q : P β} (h : MTs d toks toks') (hp : P.Sim R p q) :
    P.Sim (fun x y => ME d x.1 y.1 ∧ R x.2 y.2) (P.spannedEmpty toks p) (P.spannedEmpty toks' q) := by
  intro a pt
  unfold P.spannedEmpty
  rcases (hp a pt).elim with ⟨p', v, w, a', l, hr, h1, h2⟩ | ⟨p', e, a', l, h1, h2⟩ | ⟨a', l, h1, h2⟩ | ⟨a', l, h1, h2⟩ <;>
    simp only [h1, h2]
  · have h3 := ex_sim h pt pt
    generalize ex toks pt pt = x at h3
    generalize ex toks' pt pt = y at h3
    cases h3 with
    | none => exact .panic
    | some h3 => exact .ok ⟨h3, hr⟩
  · exact .fail
  · exact .panic
  · exact .hang

theorem parseNestedUntil_sim (h : MTs d toks toks') (o c : TK) :
    P.Sim (ME d) (parseNestedUntil toks (isTK o) (isTK c)) (parseNestedUntil toks' (isTK o) (isTK c)) := by
  intro a pt
  unfold parseNestedUntil
  dsimp only
  rw [nestedLen_sim (h.drop pt.off)]
  have h3 := ex_sim h pt (pt.advanceBy (nestedLen (isTK o) (isTK c) 0 (toks'.drop pt.off)))
  generalize ex toks pt _ = x at h3
  generalize ex toks' pt _ = y at h3
  cases h3 with
  | none => exact .panic
  | some h3 => exact .ok h3

/-! ## What is built -/

theorem all_flatten {vss wss : List (List V)} (h : P.Sim.All (Likes d) vss wss) : Likes d vss.flatten wss.flatten := by
  induction h with
  | nil => rfl
  | cons h _ ih => simp [Likes] at *; rw [h, ih]

theorem extent_moved : ∀ v : V, (moved d v).extent? = v.extent?.map (·.moved d)
  | .ext _ => rfl
  | .bool _ => rfl
  | .list _ => rfl
  | .enm _ [] => rfl
  | .enm _ (v :: _) => by simpa [V.extent?] using extent_moved v
  | .node .. => rfl

theorem moveds_isEmpty (vs : List V) : (moveds d vs).isEmpty = vs.isEmpty := by cases vs <;> rfl

theorem Fn.app_moved (f : Fn) (vs : List V) : f.app (moveds d vs) = moveds d (f.app vs) := by
  cases f with
  | wrap t => simp [Fn.app]
  | wrapSecond t => rcases vs with _ | ⟨v, _ | ⟨w, _ | ⟨x, vs⟩⟩⟩ <;> simp [Fn.app]
  | flat =>
    rcases vs with _ | ⟨v, _ | ⟨w, vs⟩⟩ <;> try simp [Fn.app]
    cases v with
    | list ws =>
      rcases ws with _ | ⟨x, _ | ⟨y, ws⟩⟩ <;> try simp [Fn.app]
      cases x <;> simp [Fn.app]
    | _ => simp [Fn.app]
  | some => simp [Fn.app]
  | none => simp [Fn.app]
  | swap => rcases vs with _ | ⟨v, _ | ⟨w, _ | ⟨x, vs⟩⟩⟩ <;> simp [Fn.app]
  | isSome =>
    rcases vs with _ | ⟨v, _ | ⟨w, vs⟩⟩ <;> try simp [Fn.app]
    cases v <;> simp [Fn.app, moveds_isEmpty]
  | append =>
    rcases vs with _ | ⟨v, _ | ⟨w, _ | ⟨x, vs⟩⟩⟩ <;> try simp [Fn.app]
    cases v <;> cases w <;> simp [Fn.app]
  | externAbi =>
    rcases vs with _ | ⟨v, _ | ⟨w, vs⟩⟩ <;> try simp [Fn.app]
    cases v with
    | list ws => rcases ws with _ | ⟨x, _ | ⟨y, _ | ⟨z, ws⟩⟩⟩ <;> simp [Fn.app]
    | _ => simp [Fn.app]
  | ident | lifetime | character | string | byte | byteString =>
    rcases vs with _ | ⟨v, _ | ⟨w, vs⟩⟩ <;> try simp [Fn.app]
    all_goals cases v <;> simp [Fn.app, mkIdent]
  | copyExtent k =>
    rcases vs with _ | ⟨v, _ | ⟨w, vs⟩⟩ <;> try simp [Fn.app]
    rw [extent_moved]
    cases v.extent? <;> simp
  | into =>
    rcases vs with _ | ⟨v, _ | ⟨w, vs⟩⟩ <;> try simp [Fn.app]
    rw [extent_moved]
    cases v.extent? <;> simp [intoExpr, mkAttributed]
  | fieldValue =>
    rcases vs with _ | ⟨v, _ | ⟨w, _ | ⟨x, _ | ⟨y, vs⟩⟩⟩⟩ <;> try simp [Fn.app]
    · cases v with
      | ext e =>
        cases x with
        | list xs =>
          rcases xs with _ | ⟨x, _ | ⟨y, xs⟩⟩
          · cases w with
            | node k e ws vs => cases k <;> simp [Fn.app, intoExpr, mkAttributed, mkPathedIdent]
            | _ => simp [Fn.app]
          · simp [Fn.app]
          · simp [Fn.app]
        | _ => simp [Fn.app]
      | _ => simp [Fn.app]

theorem Fn.app_likes (f : Fn) {vs ws : List V} (h : Likes d vs ws) : Likes d (f.app vs) (f.app ws) := by
  cases h
  exact Fn.app_moved f vs

theorem Mk.app_moved (m : Mk) (e : Extent) (vs : List V) : m.app (e.moved d) (moveds d vs) = moveds d (m.app e vs) := by
  cases m with
  | node k => simp [Mk.app]
  | span => simp [Mk.app]
  | tupleBody => rcases vs with _ | ⟨v, _ | ⟨w, _ | ⟨x, vs⟩⟩⟩ <;> simp [Mk.app]
  | paren =>
    rcases vs with _ | ⟨v, _ | ⟨w, vs⟩⟩ <;> try simp [Mk.app]
    cases v with
    | enm t vs => cases t <;> simp [Mk.app]
    | _ => simp [Mk.app]

theorem Mk.app_likes (m : Mk) {e e' : Extent} {vs ws : List V} (he : ME d e e') (h : Likes d vs ws) :
    Likes d (m.app e vs) (m.app e' ws) := by
  cases h; cases he
  exact Mk.app_moved m e vs

theorem Like.shape {v w : V} (h : Like d v w) : Spec.shape v = Spec.shape w := by
  cases h
  exact (shape_moved v).symm

theorem mayTerminateAttributed_like {v w : V} (h : Like d v w) : mayTerminateAttributed v = mayTerminateAttributed w :=
  Verif.mayTerminateAttributed_like h.shape

theorem Impl.app_likes (i : Impl) {vs ws : List V} (h : Likes d vs ws) : i.app vs = i.app ws := by
  cases h
  exact Verif.Impl.app_likes i (shapes_moveds vs).symm

theorem intoExpression_moved (v : V) : intoExpression (moved d v) = (intoExpression v).map (moved d) := by
  cases v with
  | enm t vs => rcases vs with _ | ⟨v, _ | ⟨w, vs⟩⟩ <;> cases t <;> rfl
  | _ => rfl

theorem blockLast_moved (vs : List V) :
    (moveds d vs).getLast?.bind intoExpression = (vs.getLast?.bind intoExpression).map (moved d) := by
  rw [moveds_map, List.getLast?_map]
  cases vs.getLast? with
  | none => rfl
  | some v => simp [intoExpression_moved]

theorem TailK.out_likes (k : TailK) {t u : P.Tailed (List V)} (h : P.Sim.TL (Likes d) t u) : Likes d (k.out t) (k.out u) := by
  have h1 : u.values.flatten = moveds d t.values.flatten := all_flatten h.values
  cases k with
  | values => simp [TailK.out, Likes, h1]
  | paren =>
    simp only [TailK.out, h.values.length, h.separatorCount, Likes]
    split <;> simp [h1]
  | block =>
    have h2 := blockLast_moved (d := d) t.values.flatten
    rw [← h1] at h2
    simp only [TailK.out, h.lastHadSeparator, Likes]
    rw [h2]
    cases t.values.flatten.getLast?.bind intoExpression with
    | none => simp [h1]
    | some x =>
      dsimp only [Option.map]
      split
      · simp [h1]
      · have : u.values.flatten.dropLast = moveds d t.values.flatten.dropLast := by
          rw [h1, moveds_map, moveds_map, List.map_dropLast]
        simp [this]

/-! ## Grammar expressions -/

theorem evalG_sim (h : MTs d toks toks') {rec rec' : NT → P (List V)} (hr : ∀ nt, P.Sim (Likes d) (rec nt) (rec' nt)) :
    ∀ g, P.Sim (Likes d) (evalG toks rec g) (evalG toks' rec' g)
  | .eps => .pure rfl
  | .tok k => (tok_sim h k _).map fun _ _ he => by cases he; rfl
  | .number => (number_sim h _).map fun _ _ hn => by have := convertNumber_sim hn; simp [Likes, Like] at *; exact this
  | .simpleNumber => fieldNameNumber_sim h
  | .r n => hr n
  | .seq a b => (evalG_sim h hr a).bind fun _ _ h1 => (evalG_sim h hr b).map fun _ _ h2 => by
      cases h1; cases h2; simp [Likes]
  | .alt a b => (evalG_sim h hr a).orElse (evalG_sim h hr b)
  | .opt a => (evalG_sim h hr a).optional.map fun _ _ h1 => by
      cases h1 with
      | none => rfl
      | some h1 => cases h1; simp [Likes]
  | .many a => by
      have := ((evalG_sim h hr a).zeroOrMore (loopFuel toks)).map (R' := Likes d) (f := fun vss => [.list vss.flatten])
        (g := fun vss => [.list vss.flatten]) fun _ _ h1 => by have := all_flatten h1; unfold Likes at *; rw [this]; rfl
      simpa only [evalG, loopFuel, ← h.length] using this
  | .tailed k sep a => by
      have := (P.Sim.zeroOrMoreTailed (evalG_sim h hr sep) (evalG_sim h hr a) (loopFuel toks)).map (R' := Likes d)
        fun _ _ h1 => TailK.out_likes k h1
      simpa only [evalG, loopFuel, ← h.length] using this
  | .tailed1Values sep a => by
      have := (P.Sim.oneOrMoreTailed (evalG_sim h hr sep) (evalG_sim h hr a) (loopFuel toks)).map (R' := Likes d)
        fun _ _ h1 => TailK.out_likes .values h1
      simpa only [evalG, loopFuel, ← h.length] using this
  | .resume sep a => by
      have := (P.Sim.zeroOrMoreTailedValuesResume (evalG_sim h hr sep) (evalG_sim h hr a) (loopFuel toks)).map (R' := Likes d)
        (f := fun vss => [.list vss.flatten])
        (g := fun vss => [.list vss.flatten]) fun _ _ h1 => by have := all_flatten h1; unfold Likes at *; rw [this]; rfl
      simpa only [evalG, loopFuel, ← h.length] using this
  | .implTailed k i sep a => by
      have := (P.Sim.zeroOrMoreImplicitlyTailed (R := Likes d) (fun _ _ h1 => Impl.app_likes i h1)
        (evalG_sim h hr sep) (evalG_sim h hr a) (loopFuel toks)
        (t := {}) (u := {}) ⟨.nil, rfl, rfl⟩).map (R' := Likes d) fun _ _ h1 => TailK.out_likes k h1
      simpa only [evalG, loopFuel, ← h.length] using this
  | .nested o c => (tok_sim h o _).bind fun _ _ _ => (parseNestedUntil_sim h o c).map fun _ _ he => by cases he; rfl
  | .ext a => (spanned_sim h (evalG_sim h hr a)).map fun x y he => by obtain ⟨e, v⟩ := x; obtain ⟨e', v'⟩ := y; cases he.1; rfl
  | .drop a => (evalG_sim h hr a).map fun _ _ _ => rfl
  | .map f a => (evalG_sim h hr a).map fun _ _ h1 => Fn.app_likes f h1
  | .build m a => (spanned_sim h (evalG_sim h hr a)).map fun _ _ h1 => Mk.app_likes m h1.1 h1.2
  | .nodeEmpty k a => (spannedEmpty_sim h (evalG_sim h hr a)).map fun _ _ h1 => by have := h1.1; have := h1.2; unfold ME Likes at *; simp [*]
  | .mapErr e a => (evalG_sim h hr a).mapErr
  | .peek a => (evalG_sim h hr a).peek
  | .amb level a => (evalG_sim h hr a).setAmbiguityLevel
  | .ifAmbiguous a b => fun am pt => by
      simp only [evalG]
      split
      · exact evalG_sim h hr a am pt
      · exact evalG_sim h hr b am pt
  | .notMaximum a => fun am pt => by
      simp only [evalG]
      split
      · exact .fail
      · exact evalG_sim h hr a am pt

/-! ## The shunting yard -/

inductive OpSim (d : Nat) : OpKind → OpKind → Prop
  | pre {e e' as as' op vs vs'} : ME d e e' → Likes d as as' → Likes d vs vs' → OpSim d (.pre e as op vs) (.pre e' as' op vs')
  | inf {op vs vs'} : Likes d vs vs' → OpSim d (.inf op vs) (.inf op vs')
  | post {op vs vs'} : Likes d vs vs' → OpSim d (.post op vs) (.post op vs')

structure YardSim (d : Nat) (y z : Yard) : Prop where
  operators : P.Sim.All (Car.Sim (OpSim d)) y.operators z.operators
  result : P.Sim.All (Car.Sim (Like d)) y.result z.result

theorem exS_sim (h : MTs d toks toks') (p q : Pt) : SRes.Sim (ME d) (exS toks p q) (exS toks' p q) := by
  have := ex_sim h p q
  unfold exS
  generalize ex toks p q = x at this
  generalize ex toks' p q = y at this
  cases this with
  | none => exact .panic
  | some h3 => exact .ok h3

theorem popExpression_sim {rs rs' : List (Car V)} (h : P.Sim.All (Car.Sim (Like d)) rs rs') (l : Pt) :
    SRes.Sim (fun x y => Car.Sim (Like d) x.1 y.1 ∧ P.Sim.All (Car.Sim (Like d)) x.2 y.2) (popExpression rs l) (popExpression rs' l) := by
  cases h with
  | nil => exact .err
  | cons h h' => exact .ok ⟨h, h'⟩

theorem PrefixOp.mk_like (op : PrefixOp) {vs vs' : List V} {e e' : Extent} {o o' : Option V} (he : ME d e e') (h : Likes d vs vs')
    (ho : P.Sim.Opt (Like d) o o') : Like d (op.mk vs e o) (op.mk vs' e' o') := by
  cases h; cases he
  unfold Like
  cases ho with
  | none => cases op <;> simp [PrefixOp.mk]
  | some ho => cases ho; cases op <;> simp [PrefixOp.mk]

theorem InfixOp.mk_like (op : InfixOp) {vs vs' : List V} {e e' : Extent} {l l' : V} {o o' : Option V} (he : ME d e e')
    (h : Likes d vs vs') (hl : Like d l l') (ho : P.Sim.Opt (Like d) o o') : Like d (op.mk vs e l o) (op.mk vs' e' l' o') := by
  cases h; cases he; cases hl
  unfold Like
  cases ho with
  | none => cases op <;> simp [InfixOp.mk, intoAttributed, mkAttributed]
  | some ho => cases ho; cases op <;> simp [InfixOp.mk, intoAttributed, mkAttributed]

theorem PostfixOp.mk_like (op : PostfixOp) {vs vs' : List V} {e e' : Extent} {l l' : V} (he : ME d e e') (h : Likes d vs vs')
    (hl : Like d l l') : Like d (op.mk vs e l) (op.mk vs' e' l') := by
  cases h; cases he; cases hl
  unfold Like
  cases op <;> simp [PostfixOp.mk, intoAttributed, mkAttributed]

theorem mkAttributed_like {e e' : Extent} {as as' : List V} {v v' : V} (he : ME d e e') (h : Likes d as as') (hv : Like d v v') :
    Like d (mkAttributed e as v) (mkAttributed e' as' v') := by
  cases h; cases he; cases hv
  simp [Like, mkAttributed]

theorem ME.upto {e e' x x' : Extent} (he : ME d e e') (hx : ME d x x') : ME d ⟨e.s, x.e⟩ ⟨e'.s, x'.e⟩ := by
  cases he; cases hx; rfl

abbrev Stack (d : Nat) := P.Sim.All (Car.Sim (Like d))

theorem applyPrefix_sim (h : MTs d toks toks') {spt e e' as as' op vs vs' rs rs'} (he : ME d e e') (ha : Likes d as as') (hv : Likes d vs vs')
    (hr : Stack d rs rs') :
    SRes.Sim (Stack d) (applyPrefix toks spt e as op vs rs) (applyPrefix toks' spt e' as' op vs' rs') := by
  unfold applyPrefix
  refine (popExpression_sim hr spt).bind fun ⟨c, rs⟩ ⟨c', rs'⟩ ⟨hc, hrs⟩ => ?_
  dsimp only at *
  rw [hc.ept]
  split
  · exact .err
  · refine (exS_sim h _ _).bind fun _ _ hx => ?_
    exact .ok (.cons ⟨mkAttributed_like (he.upto hx) ha (PrefixOp.mk_like op hx hv (.some hc.value)), rfl, rfl⟩ hrs)

theorem applyMaybePrefix_sim (h : MTs d toks toks') {spt ept e e' as as' op vs vs' rs rs'} (he : ME d e e') (ha : Likes d as as')
    (hv : Likes d vs vs') (hr : Stack d rs rs') :
    SRes.Sim (Stack d) (applyMaybePrefix toks spt ept e as op vs rs) (applyMaybePrefix toks' spt ept e' as' op vs' rs') := by
  unfold applyMaybePrefix
  cases hr with
  | nil =>
    refine (exS_sim h _ _).bind fun _ _ hx => ?_
    exact .ok (.cons ⟨mkAttributed_like (he.upto hx) ha (PrefixOp.mk_like op hx hv .none), rfl, rfl⟩ .nil)
  | cons h1 h2 => exact applyPrefix_sim h he ha hv (.cons h1 h2)

theorem applyInfix_sim (h : MTs d toks toks') {spt ept op vs vs' rs rs'} (hv : Likes d vs vs')
    (hr : Stack d rs rs') : SRes.Sim (Stack d) (applyInfix toks spt ept op vs rs) (applyInfix toks' spt ept op vs' rs') := by
  unfold applyInfix
  refine (popExpression_sim hr _).bind fun ⟨c, rs⟩ ⟨c', rs'⟩ ⟨hc, hrs⟩ => ?_
  refine (popExpression_sim hrs _).bind fun ⟨d, rs⟩ ⟨d', rs'⟩ ⟨hd, hrs⟩ => ?_
  dsimp only at *
  rw [hc.ept, hd.spt]
  exact (exS_sim h _ _).bind fun _ _ hx =>
    .ok (.cons ⟨InfixOp.mk_like op hx hv hd.value (.some hc.value), rfl, rfl⟩ hrs)

theorem applyMaybeInfix_sim (h : MTs d toks toks') {spt ept op vs vs' rs rs'} (hv : Likes d vs vs')
    (hr : Stack d rs rs') : SRes.Sim (Stack d) (applyMaybeInfix toks spt ept op vs rs) (applyMaybeInfix toks' spt ept op vs' rs') := by
  unfold applyMaybeInfix
  rw [hr.length]
  split
  · refine (popExpression_sim hr _).bind fun ⟨c, rs⟩ ⟨c', rs'⟩ ⟨hc, hrs⟩ => ?_
    dsimp only at *
    rw [hc.spt]
    exact (exS_sim h _ _).bind fun _ _ hx =>
      .ok (.cons ⟨InfixOp.mk_like op hx hv hc.value .none, rfl, rfl⟩ hrs)
  · exact applyInfix_sim h hv hr

theorem applyPostfix_sim (h : MTs d toks toks') {spt ept op vs vs' rs rs'} (hv : Likes d vs vs')
    (hr : Stack d rs rs') : SRes.Sim (Stack d) (applyPostfix toks spt ept op vs rs) (applyPostfix toks' spt ept op vs' rs') := by
  unfold applyPostfix
  refine (popExpression_sim hr _).bind fun ⟨c, rs⟩ ⟨c', rs'⟩ ⟨hc, hrs⟩ => ?_
  dsimp only at *
  rw [hc.spt]
  exact (exS_sim h _ _).bind fun _ _ hx =>
    .ok (.cons ⟨PostfixOp.mk_like op hx hv hc.value, rfl, rfl⟩ hrs)

theorem applyOne_sim (h : MTs d toks toks') {c c' rs rs'} (hc : Car.Sim (OpSim d) c c') (hr : Stack d rs rs') :
    SRes.Sim (Stack d) (applyOne toks c rs) (applyOne toks' c' rs') := by
  obtain ⟨v, s, e⟩ := c
  obtain ⟨w, s', e'⟩ := c'
  obtain ⟨hv, h1, h2⟩ := hc
  simp only at hv h1 h2
  subst h1 h2
  unfold applyOne
  cases hv with
  | pre he ha hv =>
    dsimp only
    split
    · exact applyMaybePrefix_sim h he ha hv hr
    · exact applyPrefix_sim h he ha hv hr
  | inf hv =>
    dsimp only
    split
    · exact applyMaybeInfix_sim h hv hr
    · exact applyInfix_sim h hv hr
  | post hv => exact applyPostfix_sim h hv hr

theorem applyWhile_sim (h : MTs d toks toks') {cond cond' : OpKind → Bool} (hcond : ∀ v w, OpSim d v w → cond v = cond' w)
    {cs cs'} (hc : P.Sim.All (Car.Sim (OpSim d)) cs cs') :
    ∀ {rs rs'}, Stack d rs rs' → SRes.Sim (YardSim d) (applyWhile toks cond cs rs) (applyWhile toks' cond' cs' rs') := by
  induction hc with
  | nil => intro rs rs' hr; exact .ok ⟨.nil, hr⟩
  | cons hc hcs ih =>
    intro rs rs' hr
    unfold applyWhile
    rw [hcond _ _ hc.value]
    split
    · exact (applyOne_sim h hc hr).bind fun _ _ hr => ih hr
    · exact .ok ⟨.cons hc hcs, hr⟩

theorem OpSim.shouldPop {o o' t t' : OpKind} (ho : OpSim d o o') (ht : OpSim d t t') :
    o.shouldPop t = o'.shouldPop t' := by
  cases ho <;> cases ht <;> rfl

theorem addOperator_sim (h : MTs d toks toks') {y z : Yard} (hy : YardSim d y z) {o o' : OpKind} (ho : OpSim d o o') (s e : Pt) :
    SRes.Sim (YardSim d) (y.addOperator toks o s e) (z.addOperator toks' o' s e) :=
  (applyWhile_sim h (fun _ _ ht => ho.shouldPop ht) hy.operators hy.result).bind fun _ _ hy =>
    .ok ⟨.cons ⟨ho, rfl, rfl⟩ hy.operators, hy.result⟩

theorem addExpression_sim {y z : Yard} (hy : YardSim d y z) {v w : V} (hv : Like d v w) (s e : Pt) :
    YardSim d (y.addExpression v s e) (z.addExpression w s e) :=
  ⟨hy.operators, .cons ⟨hv, rfl, rfl⟩ hy.result⟩

theorem finish_sim (h : MTs d toks toks') {y z : Yard} (hy : YardSim d y z) (p : Pt) :
    SRes.Sim (Car.Sim (Like d)) (y.finish toks p) (z.finish toks' p) := by
  unfold Yard.finish
  refine (applyWhile_sim h (fun _ _ _ => rfl) hy.operators hy.result).bind fun y z hy => ?_
  have := hy.result
  generalize y.result = rs at this
  generalize z.result = rs' at this
  cases this with
  | nil => exact .err
  | cons h1 h2 =>
    simp only [popExpression]
    cases h2 with
    | nil => exact .ok h1
    | cons => exact .panic

theorem getLast_sim {rs rs' : List (Car V)} (h : Stack d rs rs') : P.Sim.Opt (Car.Sim (Like d)) rs.getLast? rs'.getLast? := by
  induction h with
  | nil => exact .none
  | cons h h' ih =>
    cases h' with
    | nil => exact .some h
    | cons => simpa [List.getLast?_cons_cons] using ih

theorem adaptStatement_sim {y z : Yard} (hy : YardSim d y z) (st : EState) : adaptStatement y st = adaptStatement z st := by
  have h1 : y.operators.isEmpty = z.operators.isEmpty := by
    have := hy.operators
    generalize y.operators = rs at this
    generalize z.operators = rs' at this
    cases this <;> rfl
  have h2 := getLast_sim hy.result
  cases st with
  | Atom =>
    simp only [adaptStatement, h1]
    generalize y.result.getLast? = x at h2
    generalize z.result.getLast? = x' at h2
    cases h2 with
    | none => rfl
    | some h2 => simp only [mayTerminateAttributed_like h2.value]
  | _ => rfl

inductive PASim (d : Nat) : PrefixOrAtom → PrefixOrAtom → Prop
  | prefix {e e' as as' op vs vs'} : ME d e e' → Likes d as as' → Likes d vs vs' → PASim d (.prefix e as op vs) (.prefix e' as' op vs')
  | atom {v w} : Like d v w → PASim d (.atom v) (.atom w)

inductive IPSim (d : Nat) : InfixOrPostfix → InfixOrPostfix → Prop
  | infix {op vs vs'} : Likes d vs vs' → IPSim d (.infix op vs) (.infix op vs')
  | postfix {op vs vs'} : Likes d vs vs' → IPSim d (.postfix op vs) (.postfix op vs')

/-- A labelled list of values. -/
def Labelled (d : Nat) {α : Type} (x y : α × List V) : Prop := x.1 = y.1 ∧ Likes d x.2 y.2

structure EPSim (d : Nat) (p q : ExprParsers) : Prop where
  prefixOrAtom : P.Sim (PASim d) p.prefixOrAtom q.prefixOrAtom
  infixOrPostfix : P.Sim (IPSim d) p.infixOrPostfix q.infixOrPostfix
  limitedPostfix : P.Sim (Labelled d) p.limitedPostfix q.limitedPostfix

inductive StepSim (d : Nat) : Step → Step → Prop
  | continue {y z st} : YardSim d y z → StepSim d (.continue y st) (.continue z st)
  | stop {r s} : SRes.Sim (Car.Sim (Like d)) r s → StepSim d (.stop r) (.stop s)

theorem ofYard_sim {st} {y z : SRes Yard} (h : SRes.Sim (YardSim d) y z) : StepSim d (.ofYard st y) (.ofYard st z) := by
  cases h with
  | ok h => exact .continue h
  | err => exact .stop .err
  | panic => exact .stop .panic

theorem toOut_sim {r s : SRes (Car V)} (h : SRes.Sim (Car.Sim (Like d)) r s) : Out.Sim (Like d) r.toOut s.toOut := by
  cases h with
  | ok h => simp only [SRes.toOut, h.ept]; exact .ok h.value
  | err => exact .fail
  | panic => exact .panic

theorem shuntStep_sim (h : MTs d toks toks') {ps ps' : ExprParsers} (hp : EPSim d ps ps') {y z : Yard} (hy : YardSim d y z) (st : EState) :
    P.Sim (StepSim d) (shuntStep toks ps y st) (shuntStep toks' ps' z st) := by
  have key : ∀ (_ : Amb) (pt : Pt) {r s : Res PrefixOrAtom}, Res.Sim (PASim d) r s → Res.Sim (StepSim d)
      (match r with
        | ⟨.ok pt' (.prefix e attrs op payload), a', l⟩ =>
          ⟨.ok pt' (.ofYard .Prefix (y.addOperator toks (.pre e attrs op payload) pt pt')), a', l⟩
        | ⟨.ok pt' (.atom e), a', l⟩ => ⟨.ok pt' (.continue (y.addExpression e pt pt') .Atom), a', l⟩
        | ⟨.fail q _, a', l⟩ => ⟨.ok q (.stop (y.finish toks q)), a', l⟩
        | ⟨.panic, a', l⟩ => ⟨.panic, a', l⟩
        | ⟨.hang, a', l⟩ => ⟨.hang, a', l⟩ : Res Step)
      (match s with
        | ⟨.ok pt' (.prefix e attrs op payload), a', l⟩ =>
          ⟨.ok pt' (.ofYard .Prefix (z.addOperator toks' (.pre e attrs op payload) pt pt')), a', l⟩
        | ⟨.ok pt' (.atom e), a', l⟩ => ⟨.ok pt' (.continue (z.addExpression e pt pt') .Atom), a', l⟩
        | ⟨.fail q _, a', l⟩ => ⟨.ok q (.stop (z.finish toks' q)), a', l⟩
        | ⟨.panic, a', l⟩ => ⟨.panic, a', l⟩
        | ⟨.hang, a', l⟩ => ⟨.hang, a', l⟩ : Res Step) := by
    intro _ pt r s hrs
    rcases hrs.elim with ⟨p', v, w, a', l, hr, h1, h2⟩ | ⟨p', e, a', l, h1, h2⟩ | ⟨a', l, h1, h2⟩ | ⟨a', l, h1, h2⟩ <;>
      simp only [h1, h2]
    · cases hr with
      | «prefix» he ha hv => exact .ok (ofYard_sim (addOperator_sim h hy (.pre he ha hv) _ _))
      | atom hv => exact .ok (.continue (addExpression_sim hy hv _ _))
    · exact .ok (.stop (finish_sim h hy _))
    · exact .panic
    · exact .hang
  have key2 : ∀ a pt, Res.Sim (StepSim d) (shuntStep toks ps y .Atom a pt) (shuntStep toks' ps' z .Atom a pt) := by
    intro a pt
    simp only [shuntStep]
    rcases (hp.infixOrPostfix a pt).elim with
        ⟨p', v, w, a', l, hr, h1, h2⟩ | ⟨p', e, a', l, h1, h2⟩ | ⟨a', l, h1, h2⟩ | ⟨a', l, h1, h2⟩ <;>
      simp only [h1, h2]
    · cases hr with
      | «infix» hv => exact .ok (ofYard_sim (addOperator_sim h hy (.inf hv) _ _))
      | «postfix» hv => exact .ok (ofYard_sim (addOperator_sim h hy (.post hv) _ _))
    · exact .ok (.stop (finish_sim h hy _))
    · exact .panic
    · exact .hang
  intro a pt
  cases st with
  | «Prefix» => exact key a pt (hp.prefixOrAtom a pt)
  | «Infix» w =>
    have : Res.Sim (PASim d)
        (if a.isAmbiguous && w then P.maximallyAmbiguous ps.prefixOrAtom a pt else ps.prefixOrAtom a pt)
        (if a.isAmbiguous && w then P.maximallyAmbiguous ps'.prefixOrAtom a pt else ps'.prefixOrAtom a pt) := by
      split
      · exact P.Sim.setAmbiguityLevel hp.prefixOrAtom a pt
      · exact hp.prefixOrAtom a pt
    exact key a pt this
  | «Postfix» => exact key2 a pt
  | Atom => exact key2 a pt
  | AtomLimitedPostfix =>
    simp only [shuntStep]
    rcases (hp.limitedPostfix a pt).elim with
        ⟨p', v, w, a', l, hr, h1, h2⟩ | ⟨p', e, a', l, h1, h2⟩ | ⟨a', l, h1, h2⟩ | ⟨a', l, h1, h2⟩ <;>
      simp only [h1, h2]
    · obtain ⟨o, v⟩ := v
      obtain ⟨o', w⟩ := w
      obtain ⟨ho, hv⟩ := hr
      simp only at ho hv
      subst ho
      exact .ok (ofYard_sim (addOperator_sim h hy (.post hv) _ _))
    · exact .ok (.stop (finish_sim h hy _))
    · exact .panic
    · exact .hang

theorem shuntLoop_sim (h : MTs d toks toks') {ps ps' : ExprParsers} (hp : EPSim d ps ps') {adapt : Yard → EState → EState}
    (ha : ∀ {y z : Yard}, YardSim d y z → ∀ st, adapt y st = adapt z st) (n : Nat) :
    ∀ {y z : Yard}, YardSim d y z → ∀ st, P.Sim (Like d) (shuntLoop toks ps adapt n y st) (shuntLoop toks' ps' adapt n z st) := by
  induction n with
  | zero => intro y z _ st a pt; exact .hang
  | succ n ih =>
    intro y z hy st
    unfold shuntLoop
    refine (shuntStep_sim h hp hy st).bind fun s s' hs => ?_
    cases hs with
    | «continue» hy => dsimp only; rw [ha hy]; exact ih hy _
    | stop hr => exact fun a pt => ⟨toOut_sim hr, rfl, rfl⟩

theorem tableP_sim (h : MTs d toks toks') {rec rec' : NT → P (List V)} (hr : ∀ nt, P.Sim (Likes d) (rec nt) (rec' nt))
    {α : Type} (t : (α × G) × List (α × G)) : P.Sim (Labelled d) (tableP toks rec t) (tableP toks' rec' t) := by
  have one : ∀ x : α × G, P.Sim (Labelled d) ((evalG toks rec x.2).map fun vs => (x.1, vs))
      ((evalG toks' rec' x.2).map fun vs => (x.1, vs)) := fun x => (evalG_sim h hr x.2).map fun _ _ hv => ⟨rfl, hv⟩
  obtain ⟨t, ts⟩ := t
  unfold tableP
  dsimp only
  have : ∀ (p q : P (α × List V)), P.Sim (Labelled d) p q → P.Sim (Labelled d)
      (ts.foldl (fun p x => p.orElse ((evalG toks rec x.2).map fun vs => (x.1, vs))) p)
      (ts.foldl (fun p x => p.orElse ((evalG toks' rec' x.2).map fun vs => (x.1, vs))) q) := by
    induction ts with
    | nil => exact fun p q h => h
    | cons t ts ih => exact fun p q h => ih _ _ (h.orElse (one t))
  exact this _ _ (one t)

theorem attributedP_sim (h : MTs d toks toks') {rec rec' : NT → P (List V)} (hr : ∀ nt, P.Sim (Likes d) (rec nt) (rec' nt))
    {α β : Type} {R : α → β → Prop} {p : P α} {q : P β} (hp : P.Sim R p q) :
    P.Sim (fun (x : Extent × List V × α) (y : Extent × List V × β) => ME d x.1 y.1 ∧ Likes d x.2.1 y.2.1 ∧ R x.2.2 y.2.2) (attributedP toks rec p) (attributedP toks' rec' q) := by
  unfold attributedP
  have h1 := (hr .attribute).zeroOrMore (loopFuel toks)
  have h2 : loopFuel toks = loopFuel toks' := by simp [loopFuel, h.length]
  rw [← h2]
  exact spanned_sim h (R := fun (x : List V × α) (y : List V × β) => Likes d x.1 y.1 ∧ R x.2 y.2)
    (h1.bind fun _ _ ha => hp.map fun _ _ hv => ⟨all_flatten ha, hv⟩)

theorem exprParsers_sim (h : MTs d toks toks') {rec rec' : NT → P (List V)} (hr : ∀ nt, P.Sim (Likes d) (rec nt) (rec' nt)) :
    EPSim d (exprParsers toks rec) (exprParsers toks' rec') where
  prefixOrAtom := by
    simp only [exprParsers]
    refine P.Sim.orElse (P.Sim.map (attributedP_sim h hr (tableP_sim h hr prefixTable)) ?_)
      (P.Sim.map (attributedP_sim h hr (hr .expression_atom)) ?_)
    · refine fun ⟨e, as, op, vs⟩ ⟨e', as', op', vs'⟩ ⟨h0, h1, h2, h3⟩ => ?_
      simp only at h1 h2 h3
      subst h2
      exact .prefix h0 h1 h3
    · refine fun ⟨e, as, vs⟩ ⟨e', as', vs'⟩ ⟨h0, h1, h2⟩ => ?_
      simp only at h1 h2
      refine .atom ?_
      unfold Likes at h1 h2
      unfold ME at h0
      simp only at h0
      simp [Like, h0, h1, h2]
  infixOrPostfix := by
    simp only [exprParsers]
    refine P.Sim.orElse (P.Sim.map (tableP_sim h hr infixTable) ?_) (P.Sim.map (tableP_sim h hr postfixTable) ?_)
    · refine fun ⟨op, vs⟩ ⟨op', vs'⟩ ⟨h1, h2⟩ => ?_
      simp only at h1 h2
      subst h1
      exact .infix h2
    · refine fun ⟨op, vs⟩ ⟨op', vs'⟩ ⟨h1, h2⟩ => ?_
      simp only at h1 h2
      subst h1
      exact .postfix h2
  limitedPostfix := tableP_sim h hr limitedTable

theorem shuntingYard_sim (h : MTs d toks toks') {ps ps' : ExprParsers} (hp : EPSim d ps ps') (stmt : Bool) (n : Nat) :
    P.Sim (Like d) (shuntingYard toks ps stmt n) (shuntingYard toks' ps' stmt n) := by
  unfold shuntingYard
  cases stmt with
  | true => exact shuntLoop_sim h hp adaptStatement_sim n ⟨.nil, .nil⟩ _
  | false => exact shuntLoop_sim h hp (fun _ _ => rfl) n ⟨.nil, .nil⟩ _

theorem evalRule_sim (h : MTs d toks toks') {rec rec' : NT → P (List V)} (hr : ∀ nt, P.Sim (Likes d) (rec nt) (rec' nt)) :
    ∀ r, P.Sim (Likes d) (evalRule toks rec r) (evalRule toks' rec' r)
  | .g g => evalG_sim h hr g
  | .expr stmt => by
      have h2 : loopFuel toks = loopFuel toks' := by simp [loopFuel, h.length]
      unfold evalRule
      rw [← h2]
      exact (shuntingYard_sim h (exprParsers_sim h hr) stmt _).map fun _ _ hv => by
        unfold Like at hv
        simp [Likes, hv]

/-- Every parser function goes the same way on tokens that are moved. -/
theorem eval_sim (h : MTs d toks toks') (n : Nat) (nt : NT) : P.Sim (Likes d) (eval toks n nt) (eval toks' n nt) := by
  induction n generalizing nt with
  | zero => intro a pt; exact .hang
  | succ n ih => exact evalRule_sim h ih (rules nt)

/-! ## The loop over the items -/

def _root_.Verif.ParseResult.moved (d : Nat) : ParseResult (List V) → ParseResult (List V)
  | .ok its => .ok (moveds d its)
  | .err l es => .err (l + d) es
  | .panic => .panic
  | .hang => .hang

theorem parseItems_moved (h : MTs d toks toks') (clear : Bool) (n : Nat) (fails : PFailures) (a : Amb)
    (pt : Pt) : ∀ {items items'}, Likes d items items' →
    parseItems toks' clear n fails a pt items' = (parseItems toks clear n fails a pt items).moved d := by
  induction n generalizing fails a pt with
  | zero => intro _ _ _; rfl
  | succ n ih =>
    intro items items' hi
    unfold parseItems
    have h0 := h.get pt.off
    generalize toks[pt.off]? = x at h0
    generalize toks'[pt.off]? = y at h0
    cases h0 with
    | none => cases hi; rfl
    | some ht =>
      dsimp only
      rw [ht.eof]
      split
      · cases hi; rfl
      · have h1 : P.Sim (Likes d) (parseItem toks) (parseItem toks') := by
          unfold parseItem
          have h2 : evalFuel toks = evalFuel toks' := by simp [evalFuel, h.length]
          rw [← h2]
          exact evalG_sim h (eval_sim h _) itemG
        rcases (h1 a pt).elim with ⟨p', v, w, a', l, hr, h1, h2⟩ | ⟨p', e, a', l, h1, h2⟩ | ⟨a', l, h1, h2⟩ | ⟨a', l, h1, h2⟩ <;>
          simp only [h1, h2]
        · split
          · refine ih _ _ _ ?_
            cases hi; cases hr
            simp [Likes]
          · rfl
        · have h3 := h.get ((fails.addAll l).add p' e).point.off
          generalize toks[((fails.addAll l).add p' e).point.off]? = x at h3
          generalize toks'[((fails.addAll l).add p' e).point.off]? = y at h3
          cases h3 with
          | none => rfl
          | some h3 => dsimp only; rw [h3.start]; rfl
        · rfl
        · rfl

/-- The parser on tokens that are moved. -/
theorem parseTokens_moved (d : Nat) (toks : List Token) (clear : Bool) :
    parseTokens (toks.map (·.moved d)) clear = (parseTokens toks clear).moved d := by
  unfold parseTokens
  rw [List.length_map]
  exact parseItems_moved rfl clear _ _ _ _ rfl

end Verif.Move
