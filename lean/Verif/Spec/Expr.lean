import Verif.Spec.Grammar
import Verif.Spec.Tree
/-!
# Operators, from left to right

An expression is a sequence of operators and atoms.  `tree` says which tree is meant by such a sequence: prefix operators apply to the
operand that follows, everything else to whatever is on the left, without precedence.
-/

namespace Verif.Spec
open Verif

/-- What an expression is made of.  Prefix operators and atoms carry attributes (inside the atom); `vs` is what is written as part of the
operator, such as the type after `as`. -/
inductive Sym
  | pre (attrs : List V) (op : PrefixOp) (vs : List V)
  | atom (v : V)
  | inf (op : InfixOp) (vs : List V)
  | post (op : PostfixOp) (vs : List V)

/-- `Attributed<Expression>` without extents. -/
def attributed (attrs : List V) (t : Tag) (k : K) (fields : List V) : V :=
  .node .AttributedExpression ⟨0, 0⟩ [] [.list attrs, .enm t [.node k ⟨0, 0⟩ [] fields]]

/-- A prefix operator applied to an operand; ranges may do without. -/
def applyPre (attrs : List V) (op : PrefixOp) (vs : List V) (x : Option V) : V :=
  match op with
  | .Box => attributed attrs .Expression_Box .ExpressionBox x.toList
  | .Dereference => attributed attrs .Expression_Dereference .Dereference x.toList
  | .Negate => attributed attrs .Expression_Unary .Unary (.enm .UnaryOp_Negate [] :: x.toList)
  | .Not => attributed attrs .Expression_Unary .Unary (.enm .UnaryOp_Not [] :: x.toList)
  | .Reference => attributed attrs .Expression_Reference .Reference (vs ++ x.toList)
  | .RangeExclusive => attributed attrs .Expression_Range .Range [.list [], .list x.toList]
  | .RangeInclusive => attributed attrs .Expression_RangeInclusive .RangeInclusive (.list [] :: vs ++ [.list x.toList])

/-- An infix operator applied to what is on its left and on its right. -/
def applyInf (op : InfixOp) (vs : List V) (l : V) (r : Option V) : V :=
  match op with
  | .binary b => attributed [] .Expression_Binary .Binary (.enm b [] :: l :: r.toList)
  | .RangeExclusive => attributed [] .Expression_Range .Range [.list [l], .list r.toList]
  | .RangeInclusive => attributed [] .Expression_RangeInclusive .RangeInclusive (.list [l] :: vs ++ [.list r.toList])

/-- A postfix operator applied to what is on its left. -/
def applyPost (op : PostfixOp) (vs : List V) (l : V) : V :=
  match op with
  | .Ascription => attributed [] .Expression_Ascription .Ascription (l :: vs)
  | .AsType => attributed [] .Expression_AsType .AsType (l :: vs)
  | .Call => attributed [] .Expression_Call .Call (l :: vs)
  | .FieldAccess => attributed [] .Expression_FieldAccess .FieldAccess (l :: vs)
  | .Slice => attributed [] .Expression_Slice .Slice (l :: vs)
  | .Try => attributed [] .Expression_TryOperator .TryOperator (l :: vs)

/-- The operand at the start of a sequence: prefix operators and an atom. -/
def operand : List Sym → Option (V × List Sym)
  | .atom v :: ss => some (v.shape, ss)
  | .pre attrs op vs :: ss => (operand ss).map fun (x, ss) => (applyPre (shapeL attrs) op (shapeL vs) (some x), ss)
  | _ => none

theorem operand_length : ∀ (ss : List Sym) (v : V) (r : List Sym), operand ss = some (v, r) → r.length < ss.length
  | [], _, _, h => by simp [operand] at h
  | .atom _ :: ss, _, _, h => by simp [operand] at h; simp [h.2]
  | .pre _ _ _ :: ss, v, r, h => by
    simp only [operand, Option.map_eq_some_iff, Prod.mk.injEq, Prod.exists] at h
    obtain ⟨x, r', h, -, rfl⟩ := h
    have := operand_length ss x r' h
    simp; omega
  | .inf _ _ :: _, _, _, h => by simp [operand] at h
  | .post _ _ :: _, _, _, h => by simp [operand] at h

/-- The rest of a sequence applied to what is on its left, strictly from left to right.  A range may end the sequence. -/
def chain (l : V) (ss : List Sym) : Option V :=
  match ss with
  | [] => some l
  | .post op vs :: ss => chain (applyPost op (shapeL vs) l) ss
  | .inf op vs :: ss =>
    match h : operand ss with
    | some (r, ss') => chain (applyInf op (shapeL vs) l (some r)) ss'
    | none => if ss.isEmpty && op.isRange then some (applyInf op (shapeL vs) l none) else none
  | _ => none
termination_by ss.length
decreasing_by
  · simp
  · have := operand_length _ _ _ h; simp; omega

/-- Prefix operators of which the last is a range, without an operand. -/
def openRange : List Sym → Option V
  | [.pre attrs op vs] => if op.isRange then some (applyPre (shapeL attrs) op (shapeL vs) none) else none
  | .pre attrs op vs :: ss => (openRange ss).map fun x => applyPre (shapeL attrs) op (shapeL vs) (some x)
  | _ => none

/-- The tree meant by a sequence. -/
def tree (ss : List Sym) : Option V :=
  match operand ss with
  | some (l, rest) => chain l rest
  | none => openRange ss

/-- The relation between points and values given by the rules of the grammar and nothing else: the smallest that is closed under
them. -/
def Derives (toks : List Token) (nt : NT) (am : Amb) (p q : Pt) (vs : List V) : Prop :=
  ∀ Φ, Closed toks Φ → Φ nt am p q vs

/-- A symbol stands between two points. -/
inductive Stands (toks : List Token) : Pt → Pt → Sym → Prop
  | pre {am p q e attrs op vs} : PrefixR toks (Derives toks) am p q e attrs op vs → Stands toks p q (.pre attrs op vs)
  | atom {am p q v} : AtomR toks (Derives toks) am p q v → Stands toks p q (.atom v)
  | inf {am p q op vs} : TableR toks (Derives toks) infixTable am p q op vs → Stands toks p q (.inf op vs)
  | post {am p q op vs} : TableR toks (Derives toks) postfixTable am p q op vs → Stands toks p q (.post op vs)

/-- The symbols stand one after the other between two points, with nothing between them. -/
inductive InRow (toks : List Token) : Pt → Pt → List Sym → Prop
  | nil {p} : InRow toks p p []
  | cons {p m q s ss} : Stands toks p m s → InRow toks m q ss → InRow toks p q (s :: ss)

/-- The first field, an `Option`, is there. -/
def hasFirst : List V → Bool
  | .list [_] :: _ => true
  | _ => false

/-- An expression whose last step is an infix or a postfix operator (and not a parenthesis around such an expression). -/
def isCompound : V → Bool
  | .node .AttributedExpression _ _ [_, .enm t [.node _ _ _ fields]] =>
    match t with
    | .Expression_Binary | .Expression_Call | .Expression_FieldAccess | .Expression_Slice | .Expression_AsType
    | .Expression_Ascription | .Expression_TryOperator => true
    | .Expression_Range | .Expression_RangeInclusive => hasFirst fields
    | _ => false
  | _ => false

/-- The first value ends before the second begins. -/
def Before (v w : V) : Prop := ∀ d e, v.extent? = some d → w.extent? = some e → d.e ≤ e.s

/-- The struct of an operator has operands that fit with reading from left to right: to the right of an operator there is never another
infix or postfix expression without parentheses, and what is on the left comes first in the source. -/
def LeftToRight (k : K) (fields : List V) : Prop :=
  match k with
  | .Binary => ∃ op l r, fields = [op, l, r] ∧ isCompound r = false ∧ Before l r
  | .Range => ∃ l r, fields = [.list l, .list r] ∧ (∀ x ∈ r, isCompound x = false) ∧ ∀ x ∈ l, ∀ y ∈ r, Before x y
  | .RangeInclusive =>
    ∃ op l r, fields = [.list l, op, .list r] ∧ (∀ x ∈ r, isCompound x = false) ∧ ∀ x ∈ l, ∀ y ∈ r, Before x y
  | .Unary => ∃ op x, fields = [op, x] ∧ isCompound x = false
  | .Reference => ∃ m x, fields = [m, x] ∧ isCompound x = false
  | .Dereference => ∃ x, fields = [x] ∧ isCompound x = false
  | .ExpressionBox => ∃ x, fields = [x] ∧ isCompound x = false
  | _ => True

end Verif.Spec
