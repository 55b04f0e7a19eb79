import Verif.Spec.Tree
/-!
# Macro arguments

What it means for a run of tokens to be the arguments of a macro.
-/

namespace Verif.Spec

/-- The opening and closing bracket of each form of macro arguments. -/
def bracketsOf : Tag → Option (TK × TK)
  | .MacroCallArgs_Paren => some (.LeftParen, .RightParen)
  | .MacroCallArgs_Square => some (.LeftSquare, .RightSquare)
  | .MacroCallArgs_Curly => some (.LeftCurly, .RightCurly)
  | _ => none

/-- How many tokens are of a kind. -/
def count (k : TK) (ts : List Token) : Nat := ts.countP (fun t => t.kind? == some k)

/-- Brackets of one kind are balanced: no beginning closes more than it opens, and all that is opened is closed. -/
def BracketsBalanced (o c : TK) (ts : List Token) : Prop :=
  (∀ n, count c (ts.take n) ≤ count o (ts.take n)) ∧ count c ts = count o ts

/-- From the start of the first token to the end of the last; nothing, at byte `pos`, when there are no tokens. -/
def spanOf (ts : List Token) (pos : Nat) : Extent :=
  match ts.head?, ts.getLast? with
  | some t, some u => ⟨t.extent.s, u.extent.e⟩
  | _, _ => ⟨pos, pos⟩

/-- In the stretch `e` of the tokens there is a bracket `o` and later its counterpart `c`; between them the brackets of this kind
are balanced, there is no end of file, and `a` is the extent of what is between. -/
def Delimited (toks : List Token) (e : Extent) (o c : TK) (a : Extent) : Prop :=
  ∃ before opening body closing after, toks = before ++ opening :: (body ++ closing :: after) ∧
    opening.kind? = some o ∧ closing.kind? = some c ∧ BracketsBalanced o c body ∧ (∀ t ∈ body, t.isEOF = false) ∧
    a = spanOf body closing.extent.s ∧ e.s ≤ opening.extent.s ∧ closing.extent.e ≤ e.e

end Verif.Spec
