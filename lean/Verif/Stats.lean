import Verif.Human
import Verif.ParseFile
/-!
# The programs `stats` and `tokenizer`

`stats/src/main.rs`, `tokenizer/src/main.rs`.
-/

namespace Verif

/-- Is it a value of the enum `Statement`? -/
def Callee.isStatement : Callee → Bool
  | .value (.enm t _) => t.en == .Statement
  | _ => false

/-- `stats/src/main.rs` 34-43, `Stats` and its `impl Visitor`: it has an `exit_statement` only. -/
def statsVisitor : Visitor Nat where
  visit _ n := (.Continue, n)
  exit c n := if c.isStatement then n + 1 else n

/-- What the program writes: a line of statistics, or a message about a file that cannot be parsed.  Simplified: the message is given by
its parts (`Human`), without what was expected. -/
inductive StatsLine
  | statements (name : Text) (n : Nat)
  | unableToParse (name : Text) (h : Human)
deriving DecidableEq, Repr

/-- What the program does: the lines written (to either output), and whether it ends with a panic. -/
structure StatsRun where
  lines : List StatsLine
  panicked : Bool
deriving DecidableEq, Repr

/-- `stats/src/main.rs` 60-70: a file cannot be parsed; `rest` is going on with the other files. -/
def statsError (keepGoing : Bool) (name code : Text) (location : Nat) (rest : StatsRun) : StatsRun :=
  match Human.new code location with
  | none => ⟨[], true⟩
  | some h => if keepGoing then { rest with lines := .unableToParse name h :: rest.lines } else ⟨[.unableToParse name h], true⟩

/-- `stats/src/main.rs` 45-81, the loop of `main`; the files are given by name and content.  Simplified: all files can be opened and read,
and nothing is logged. -/
def stats (X : Xid) (cl cp checkOnly keepGoing : Bool) : List (Text × Text) → StatsRun
  | [] => ⟨[], false⟩
  | (name, code) :: files =>
    let rest := stats X cl cp checkOnly keepGoing files
    match parseRustFile X cl cp code with
    | .ok f => if checkOnly then rest else { rest with lines := .statements name (statsVisitor.visitFile f 0) :: rest.lines }
    | .lexErr d => statsError keepGoing name code d.location rest
    | .parseErr location _ => statsError keepGoing name code location rest
    | .panic => ⟨[], true⟩
    | .hang => ⟨[], true⟩

/-- `tokenizer/src/main.rs` 18-33, what is printed for the tokens of a text: number, token and text, one line each; `none` is a panic of the
slicing.  Simplified: the token and the text are given instead of their formatted forms. -/
def tokenLines (code : Text) : Nat → List Token → Option (List (Nat × Token × Text))
  | _, [] => some []
  | i, t :: ts =>
    match sliceText code t.extent with
    | none => none
    | some s => match tokenLines code (i + 1) ts with | none => none | some ls => some ((i, t, s) :: ls)

end Verif
