import Verif.Comb
/-!
# What repeated parsers read

Independent descriptions of what is read by parsers that are run several times.
-/

namespace Verif.Spec
open Verif

section
variable {α β : Type}

/-- The parser succeeds. -/
def Succeeds (p : P α) (a : Amb) (pt : Pt) (v : α) (a' : Amb) (pt' : Pt) : Prop := ∃ l, p a pt = ⟨.ok pt' v, a', l⟩

/-- The parser fails. -/
def Fails (p : P α) (a : Amb) (pt pt' : Pt) : Prop := ∃ e a' l, p a pt = ⟨.fail pt' e, a', l⟩

/-- The parser succeeds several times in a row. -/
inductive Repeats (p : P α) : Amb → Pt → List α → Amb → Pt → Prop
  | nil {a pt} : Repeats p a pt [] a pt
  | cons {a pt v a' pt' vs a'' pt''} : Succeeds p a pt v a' pt' → Repeats p a' pt' vs a'' pt'' →
      Repeats p a pt (v :: vs) a'' pt''

/-- What a separated list is made of. -/
inductive Piece (α : Type)
  | element (v : α)
  | separator
deriving DecidableEq, Repr

/-- Reading elements and separators in some order. -/
inductive Reads (sep : P β) (f : P α) : Amb → Pt → List (Piece α) → Amb → Pt → Prop
  | nil {a p} : Reads sep f a p [] a p
  | element {a p v a' p' c a'' p''} : Succeeds f a p v a' p' → Reads sep f a' p' c a'' p'' →
      Reads sep f a p (.element v :: c) a'' p''
  | separator {a p v a' p' c a'' p''} : Succeeds sep a p v a' p' → Reads sep f a' p' c a'' p'' →
      Reads sep f a p (.separator :: c) a'' p''

/-- Elements and separators take turns, beginning with an element. -/
def alternating : List (Piece α) → Bool
  | [] => true
  | [.element _] => true
  | .element _ :: .separator :: c => alternating c
  | _ => false

/-- The same, but after some elements (`impl`) the separator may be missing. -/
def alternatingImpl (impl : α → Bool) : List (Piece α) → Bool
  | [] => true
  | [.element _] => true
  | .element _ :: .separator :: c => alternatingImpl impl c
  | .element v :: .element w :: c => impl v && alternatingImpl impl (.element w :: c)
  | _ => false

/-- The elements, in order. -/
def elements (c : List (Piece α)) : List α := c.filterMap fun | .element v => some v | .separator => none

/-- The number of separators. -/
def separators (c : List (Piece α)) : Nat := c.countP fun | .element _ => false | .separator => true

/-- The last piece is a separator. -/
def trailing (c : List (Piece α)) : Bool := match c.getLast? with | some .separator => true | _ => false

/-- The last piece is an element. -/
def endsInElement (c : List (Piece α)) : Bool := match c.getLast? with | some (.element _) => true | _ => false

/-- The reading ends because what has to come next is not there: a separator after an element, else an element. -/
def Stops (sep : P β) (f : P α) (c : List (Piece α)) (a : Amb) (p q : Pt) : Prop :=
  if endsInElement c then Fails sep a p q else Fails f a p q

end

end Verif.Spec
