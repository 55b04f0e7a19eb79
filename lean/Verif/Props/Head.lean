import Verif.Props.Parse
import Verif.Proofs.Head
/-!
# Control-flow heads

C28.
-/

namespace Verif.Props
open Verif.Spec

/-- The head of every `if`, `if let`, `while`, `while let`, `for` and `match` in a file contains no struct literal outside
call arguments, indices, parentheses, tuples, arrays and match arms. -/
theorem C28_heads (X : Xid) (cl cp : Bool) (code : Text) (f : File) (h : parseRustFile X cl cp code = .ok f)
    {k : K} {e : Extent} {ws : List Ws} {fs : List V} (hx : V.node k e ws fs ∈ subsL f.items)
    {name : String} (hn : headField k = some name) : ∃ v, fieldOf k fs name = some v ∧ exposes v = false := by
  obtain ⟨ts, items, q, hp⟩ := parseRustFile_ok h (Ψ := fun _ => Clean) fun _ _ => clean_inductive
  obtain ⟨v, hv, hc⟩ := (hp.node hx).head (fun _ _ _ _ _ h => h.2.2) hn
  rw [fieldOf_bare, Option.map_eq_some_iff] at hv
  obtain ⟨w, hw, rfl⟩ := hv
  exact ⟨w, hw, by rw [← w.bare_exposes]; exact hc⟩

/-- For every head of a file: whether there is a struct literal in it, and whether there is one that is not sheltered. -/
def headReport (f : File) : List (K × Bool × Bool) :=
  (subsL f.items).filterMap fun
    | .node k _ _ fs =>
      match (headField k).bind (fieldOf k fs) with
      | some v => some (k, v.subs.any (fun | .node .StructLiteral _ _ _ => true | _ => false), exposes v)
      | none => none
    | _ => none

/-- All the heads, with sheltered struct literals; the condition of the last `if` is the path `a`, and `{ b: c }`, which could
have been the rest of a struct literal, is its body. -/
example : ∃ f, parseRustFile asciiXid true true
      c!"fn f() { while g(S { a }) {} match (S { a }) { _ if S {} == x => S {} } for x in y[S {}] {} while [S {}] {} if a { b } }"
      = .ok f ∧
    decide (headReport f = [(.While, true, false), (.Match, true, false), (.ForLoop, true, false), (.While, true, false),
      (.If, false, false)]) = true :=
  FileResult.of_okWith (by decide +kernel)

/-- Elsewhere there are struct literals that nothing shelters. -/
example : ∃ f, parseRustFile asciiXid true true c!"fn f() { let x = a { b }; }" = .ok f ∧ exposesAny f.items = true :=
  FileResult.of_okWith (by decide +kernel)

end Verif.Props
