import Verif.Stats
import Verif.Spec.Tree
/-!
# What the programs should say
-/

namespace Verif.Spec
open Verif

/-- The number of statements of a block, if it is one; the expression at its end is not one. -/
def statementsOf : V → Nat
  | .node .Block _ _ (.list statements :: _) => statements.length
  | _ => 0

/-- The statements of all blocks among some values. -/
def blockStatements (vs : List V) : Nat := (vs.map statementsOf).sum

/-- Does the program `stats` accept a file, given by name and content? -/
def Accepts (X : Xid) (cl cp : Bool) (file : Text × Text) : Prop := ∃ f, parseRustFile X cl cp file.2 = .ok f

/-- What the program `stats` is to say about a file: nothing or the number of statements in all blocks if it is accepted, and where the
error is otherwise. -/
inductive Says (X : Xid) (cl cp checkOnly : Bool) : Text × Text → List StatsLine → Prop
  | nothing {name code f} : parseRustFile X cl cp code = .ok f → checkOnly = true → Says X cl cp checkOnly (name, code) []
  | statements {name code f} : parseRustFile X cl cp code = .ok f → checkOnly = false →
    Says X cl cp checkOnly (name, code) [.statements name (blockStatements (subsL f.items))]
  | lexErr {name code d h} : parseRustFile X cl cp code = .lexErr d → Human.new code d.location = some h →
    Says X cl cp checkOnly (name, code) [.unableToParse name h]
  | parseErr {name code loc errs h} : parseRustFile X cl cp code = .parseErr loc errs → Human.new code loc = some h →
    Says X cl cp checkOnly (name, code) [.unableToParse name h]

end Verif.Spec
