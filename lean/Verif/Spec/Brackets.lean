import Verif.Tok
/-!
# Brackets that match
-/

namespace Verif.Spec
open Verif

/-- Which bracket closes which. -/
inductive Pair : TK → TK → Prop
  | paren : Pair .LeftParen .RightParen
  | square : Pair .LeftSquare .RightSquare
  | curly : Pair .LeftCurly .RightCurly

/-- A token that is no bracket. -/
def NoBracket (t : Token) : Prop :=
  ∀ k ∈ [TK.LeftParen, .RightParen, .LeftSquare, .RightSquare, .LeftCurly, .RightCurly], t.kind? ≠ some k

/-- Tokens all of whose brackets are closed, each by one of its kind, in the right order. -/
inductive Matched : List Token → Prop
  | nil : Matched []
  | plain {t : Token} {ts : List Token} : NoBracket t → Matched ts → Matched (t :: ts)
  | group {o c : Token} {ko kc : TK} {inner rest : List Token} : o.kind? = some ko → c.kind? = some kc → Pair ko kc →
    Matched inner → Matched rest → Matched (o :: inner ++ c :: rest)

end Verif.Spec
