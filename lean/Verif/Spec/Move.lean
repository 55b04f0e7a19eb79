import Verif.Ast
import Verif.Tok
/-!
# The same thing somewhere else
-/

namespace Verif.Spec
open Verif

/-- An extent, `d` bytes further. -/
def _root_.Verif.Extent.moved (d : Nat) (e : Extent) : Extent := ⟨e.s + d, e.e + d⟩

/-- A number and its parts, `d` bytes further. -/
def _root_.Verif.Number.moved (d : Nat) (n : Number) : Number :=
  { n with
    extent := n.extent.moved d, integral := n.integral.moved d, fractional := n.fractional.map (·.moved d),
    exponent := n.exponent.map (·.moved d), type_suffix := n.type_suffix.map (·.moved d) }

/-- A token, `d` bytes further. -/
def _root_.Verif.Token.moved (d : Nat) : Token → Token
  | .plain k e => .plain k (e.moved d)
  | .number n => .number (n.moved d)

/-- A piece of whitespace, `d` bytes further. -/
def _root_.Verif.Ws.moved (d : Nat) : Ws → Ws
  | .whitespace e => .whitespace (e.moved d)
  | .commentLine e => .commentLine (e.moved d)
  | .commentBlock e => .commentBlock (e.moved d)

mutual
/-- A tree, `d` bytes further: every extent in it is, and nothing else is different. -/
def moved (d : Nat) : V → V
  | .ext e => .ext (e.moved d)
  | .bool b => .bool b
  | .list vs => .list (moveds d vs)
  | .enm t vs => .enm t (moveds d vs)
  | .node k e ws vs => .node k (e.moved d) (ws.map (·.moved d)) (moveds d vs)
/-- The same for the values of a list. -/
def moveds (d : Nat) : List V → List V
  | [] => []
  | v :: vs => moved d v :: moveds d vs
end

end Verif.Spec
