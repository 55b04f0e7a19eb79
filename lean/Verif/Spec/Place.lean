import Verif.ParseFile
/-!
# The same thing with every place changed
-/

namespace Verif.Spec
open Verif

/-- An extent whose ends are at the places that `φ` says. -/
def _root_.Verif.Extent.placed (φ : Nat → Nat) (e : Extent) : Extent := ⟨φ e.s, φ e.e⟩

/-- A number and its parts. -/
def _root_.Verif.Number.placed (φ : Nat → Nat) (n : Number) : Number :=
  { n with
    extent := n.extent.placed φ, integral := n.integral.placed φ, fractional := n.fractional.map (·.placed φ),
    exponent := n.exponent.map (·.placed φ), type_suffix := n.type_suffix.map (·.placed φ) }

/-- A token. -/
def _root_.Verif.Token.placed (φ : Nat → Nat) : Token → Token
  | .plain k e => .plain k (e.placed φ)
  | .number n => .number (n.placed φ)

/-- A piece of whitespace. -/
def _root_.Verif.Ws.placed (φ : Nat → Nat) : Ws → Ws
  | .whitespace e => .whitespace (e.placed φ)
  | .commentLine e => .commentLine (e.placed φ)
  | .commentBlock e => .commentBlock (e.placed φ)

mutual
/-- A tree: every extent in it has its ends at the places that `φ` says, and nothing else is different. -/
def placed (φ : Nat → Nat) : V → V
  | .ext e => .ext (e.placed φ)
  | .bool b => .bool b
  | .list vs => .list (placeds φ vs)
  | .enm t vs => .enm t (placeds φ vs)
  | .node k e ws vs => .node k (e.placed φ) (ws.map (·.placed φ)) (placeds φ vs)
/-- The same for the values of a list. -/
def placeds (φ : Nat → Nat) : List V → List V
  | [] => []
  | v :: vs => placed φ v :: placeds φ vs
end

/-- What `parse_rust_file` leads to: the same items, whitespace and errors, at the places that `φ` says. -/
def _root_.Verif.FileResult.placed (φ : Nat → Nat) : FileResult → FileResult
  | .ok f => .ok ⟨placeds φ f.items, f.whitespace.map (·.placed φ)⟩
  | .parseErr l es => .parseErr (φ l) es
  | r => r

/-- The stretch from `i` to `j` of a text is replaced by one from `i` to `j'`: where the places of the old text are then.  What is
before stays, what is behind moves; what was inside has gone, and only the first `m` bytes of it are taken to stay. -/
def replacedAt (m i j j' : Nat) (x : Nat) : Nat := if x < j then min x (i + m) else x - j + j'

end Verif.Spec
