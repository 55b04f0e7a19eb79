import Verif.Eval
/-! Prints `Verif/Rank.lean`: `cp ../tools/mkrank.lean.txt /tmp/mkrank.lean; lake env lean /tmp/mkrank.lean > Verif/Rank.lean` (in `/verif/lean`). -/
open Verif
def nullG (N : NT → Bool) : G → Bool
  | .eps => true
  | .tok _ | .number | .simpleNumber | .nested _ _ => false
  | .r n => N n
  | .seq a b => nullG N a && nullG N b
  | .alt a b | .ifAmbiguous a b => nullG N a || nullG N b
  | .opt _ | .many _ | .tailed .. | .resume .. | .implTailed .. | .peek _ => true
  | .tailed1Values _ a => nullG N a
  | .ext a | .drop a | .map _ a | .build _ a | .nodeEmpty _ a | .mapErr _ a | .amb _ a | .notMaximum a => nullG N a
def step (N : List NT) : List NT := NT.all.filter fun nt => match rules nt with | .g g => nullG (fun n => N.contains n) g | .expr _ => false
def N : List NT := step (step (step []))
def heads : G → List NT
  | .eps | .tok _ | .number | .simpleNumber | .nested _ _ => []
  | .r n => [n]
  | .seq a b | .tailed _ b a | .tailed1Values b a | .resume a b | .implTailed _ _ b a => heads a ++ if nullG (N.contains ·) a then heads b else []
  | .alt a b | .ifAmbiguous a b => heads a ++ heads b
  | .opt a | .many a | .peek a
  | .ext a | .drop a | .map _ a | .build _ a | .nodeEmpty _ a | .mapErr _ a | .amb _ a | .notMaximum a => heads a
def headsR : Rule → List NT
  | .g g => heads g
  | .expr _ => [.attribute, .range_inclusive_operator, .operator_prefix_reference, .expression_atom]
def headTab : List (NT × List NT) := NT.all.map fun n => (n, headsR (rules n))
def rankStep (l : List (NT × Nat)) : List (NT × Nat) :=
  headTab.map fun (n, hs) => (n, hs.foldl (fun m h => max m ((l.lookup h).getD 0 + 1)) 0)
def ranks : Nat → List (NT × Nat)
  | 0 => []
  | n + 1 => rankStep (ranks n)
def main' : IO Unit := do
  let l := ranks 40
  let r := fun n => (l.lookup n).getD 0
  IO.println "import Verif.NT\n/-!\n# A rank that excludes left recursion\n\nGenerated by `tools/mkrank.lean.txt`.  The rank of every nonterminal is above the ranks of those that its rule can call\nbefore anything is consumed (checked in `Proofs/Terminate.lean`).\n-/\n\nnamespace Verif\n\n/-- The rank. -/\ndef NT.rank : NT → Nat"
  for n in NT.all do
    let s := toString (repr n)
    let s := s.replace "Verif.NT." ""
    let s := if s == "module" || s == "«module»" then "«module»" else s
    IO.println s!"  | .{s} => {r n}"
  IO.println "\nend Verif"
#eval main'
