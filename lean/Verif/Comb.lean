import Verif.Point
/-!
# Parsers over tokens and their combinators

`src/parser/combinators.rs`, the used part of `peresil::combinators` (external, see DESIGN.md), `token` of
`src/parser/mod.rs` and the ambiguity switch of `src/parser/expression.rs`.

As in the tokenizer, the failures recovered from are returned as a log.  The expression ambiguity of `State` stays a threaded
state.  `hang` is the result of a loop that runs out of fuel (shown impossible), `panic` is a Rust panic.
-/

namespace Verif

/-- `src/parser/mod.rs` 176-288, `enum Error`: `Expected TK` stands for the variant `Expected…` of the token kind.
All errors are recoverable (290-292). -/
inductive PErr
  | Expected (k : TK)
  | ExpectedNumber
  | ExpectedExpression
  | BlockNotAllowedHere
deriving DecidableEq, Repr, Inhabited

/-- `src/parser/expression.rs` 1416-1421, `ExpressionAmbiguity`. -/
inductive Amb | Unambiguous | OnlyStructLiterals | Maximum
deriving DecidableEq, Repr, Inhabited

/-- `src/parser/expression.rs` 1423-1432, `is_ambiguous`. -/
def Amb.isAmbiguous : Amb → Bool
  | .Unambiguous => false
  | _ => true

/-- `peresil::Progress`, with `panic` and `hang`. -/
inductive Out (α : Type)
  | ok (pt : Pt) (v : α)
  | fail (pt : Pt) (e : PErr)
  | panic
  | hang
deriving DecidableEq, Repr

abbrev Log := List (Pt × PErr)

/-- What a parser returns: its progress, the ambiguity state it leaves behind, and the failures it recovered from. -/
structure Res (α : Type) where
  out : Out α
  amb : Amb
  log : Log
deriving Repr

/-- A parser, `fn(&mut Master, Point) -> Progress<T>`. -/
abbrev P (α : Type) := Amb → Pt → Res α

namespace P
variable {α β γ : Type}

/-- `Progress::success(pt, v)`. -/
def pure (v : α) : P α := fun a pt => ⟨.ok pt v, a, []⟩

/-- `Progress::failure(pt, e)`. -/
def failure (e : PErr) : P α := fun a pt => ⟨.fail pt e, a, []⟩

/-- One step of `sequence!` / `try_parse!`: failures return early. -/
def bind (p : P α) (f : α → P β) : P β := fun a pt =>
  match p a pt with
  | ⟨.ok pt' v, a', l⟩ => match f v a' pt' with | ⟨r, a'', l'⟩ => ⟨r, a'', l ++ l'⟩
  | ⟨.fail pt' e, a', l⟩ => ⟨.fail pt' e, a', l⟩
  | ⟨.panic, a', l⟩ => ⟨.panic, a', l⟩
  | ⟨.hang, a', l⟩ => ⟨.hang, a', l⟩

/-- `peresil::combinators::map`. -/
def map (f : α → β) (p : P α) : P β := fun a pt =>
  match p a pt with
  | ⟨.ok pt' v, a', l⟩ => ⟨.ok pt' (f v), a', l⟩
  | ⟨.fail pt' e, a', l⟩ => ⟨.fail pt' e, a', l⟩
  | ⟨.panic, a', l⟩ => ⟨.panic, a', l⟩
  | ⟨.hang, a', l⟩ => ⟨.hang, a', l⟩

/-- `Progress::map_err`. -/
def mapErr (e : PErr) (p : P α) : P α := fun a pt =>
  match p a pt with
  | ⟨.fail pt' _, a', l⟩ => ⟨.fail pt' e, a', l⟩
  | r => r

/-- `pm.alternate(pt).one(p).one(q).finish()`: `q` runs at the same point when `p` fails; then the failure of `p` is
consumed. -/
def orElse (p q : P α) : P α := fun a pt =>
  match p a pt with
  | ⟨.fail pt' e, a', l⟩ => match q a' pt with | ⟨r, a'', l'⟩ => ⟨r, a'', l ++ l' ++ [(pt', e)]⟩
  | r => r

/-- `peresil::combinators::optional`. -/
def optional (p : P α) : P (Option α) := fun a pt =>
  match p a pt with
  | ⟨.ok pt' v, a', l⟩ => ⟨.ok pt' (some v), a', l⟩
  | ⟨.fail pt' e, a', l⟩ => ⟨.ok pt none, a', l ++ [(pt', e)]⟩
  | ⟨.panic, a', l⟩ => ⟨.panic, a', l⟩
  | ⟨.hang, a', l⟩ => ⟨.hang, a', l⟩

/-- `peresil::combinators::zero_or_more`, with fuel for the loop. -/
def zeroOrMore (p : P α) : Nat → P (List α)
  | 0 => fun a _ => ⟨.hang, a, []⟩
  | n + 1 => fun a pt =>
    match p a pt with
    | ⟨.ok pt' v, a', l⟩ =>
      match zeroOrMore p n a' pt' with
      | ⟨.ok pt'' vs, a'', l'⟩ => ⟨.ok pt'' (v :: vs), a'', l ++ l'⟩
      | ⟨r, a'', l'⟩ => ⟨r, a'', l ++ l'⟩
    | ⟨.fail pt' e, a', l⟩ => ⟨.ok pt [], a', l ++ [(pt', e)]⟩
    | ⟨.panic, a', l⟩ => ⟨.panic, a', l⟩
    | ⟨.hang, a', l⟩ => ⟨.hang, a', l⟩

/-- `src/combinators.rs` 22-39, `peek`. -/
def peek (p : P α) : P α := fun a pt =>
  match p a pt with
  | ⟨.ok _ v, a', l⟩ => ⟨.ok pt v, a', l⟩
  | ⟨.fail _ e, a', l⟩ => ⟨.fail pt e, a', l⟩
  | r => r

/-- `src/parser/expression.rs` 1467-1483, `set_ambiguity_level`. -/
def setAmbiguityLevel (level : Amb) (p : P α) : P α := fun a pt =>
  match p level pt with
  | ⟨r, _, l⟩ => ⟨r, a, l⟩

/-- `src/parser/expression.rs` 1443-1448, `control_flow_head_expression`. -/
def controlFlowHead (p : P α) : P α := setAmbiguityLevel .OnlyStructLiterals p

/-- `src/parser/expression.rs` 1450-1455, `head_expression_maximally_ambiguous`. -/
def maximallyAmbiguous (p : P α) : P α := setAmbiguityLevel .Maximum p

/-- `src/parser/expression.rs` 1457-1462, `head_expression_no_longer_ambiguous`. -/
def noLongerAmbiguous (p : P α) : P α := setAmbiguityLevel .Unambiguous p

/-- `src/parser/combinators.rs` 47-51, `TailedState`; its point is the point of the enclosing `Out.ok`. -/
inductive TailedState (α : Type)
  | nothing (e : PErr)
  | valueOnly (v : α)
  | valueAndSeparator (v : α)
deriving Repr

/-- `src/parser/combinators.rs` 53-74, `parse_tailed`. -/
def parseTailed (sep : P β) (f : P α) : P (TailedState α) := fun a pt =>
  match f a pt with
  | ⟨.fail pt' e, a', l⟩ => ⟨.ok pt' (.nothing e), a', l⟩
  | ⟨.ok pt' v, a', l⟩ =>
    match sep a' pt' with
    | ⟨.fail pt'' _, a'', l'⟩ => ⟨.ok pt'' (.valueOnly v), a'', l ++ l'⟩
    | ⟨.ok pt'' _, a'', l'⟩ => ⟨.ok pt'' (.valueAndSeparator v), a'', l ++ l'⟩
    | ⟨.panic, a'', l'⟩ => ⟨.panic, a'', l ++ l'⟩
    | ⟨.hang, a'', l'⟩ => ⟨.hang, a'', l ++ l'⟩
  | ⟨.panic, a', l⟩ => ⟨.panic, a', l⟩
  | ⟨.hang, a', l⟩ => ⟨.hang, a', l⟩

/-- `src/parser/combinators.rs` 81-95, `Tailed` and its default. -/
structure Tailed (α : Type) where
  values : List α := []
  separatorCount : Nat := 0
  lastHadSeparator : Bool := false
deriving Repr

/-- `src/parser/combinators.rs` 100-126, `zero_or_more_tailed_append`, with fuel for the loop. -/
def zeroOrMoreTailedAppend (sep : P β) (f : P α) : Nat → Tailed α → P (Tailed α)
  | 0, _ => fun a _ => ⟨.hang, a, []⟩
  | n + 1, t =>
    (parseTailed sep f).bind fun
      | .nothing _ => .pure t
      | .valueOnly v => .pure { t with values := t.values ++ [v], lastHadSeparator := false }
      | .valueAndSeparator v =>
        zeroOrMoreTailedAppend sep f n
          { values := t.values ++ [v], separatorCount := t.separatorCount + 1, lastHadSeparator := true }

/-- `src/parser/combinators.rs` 128-134, `zero_or_more_tailed` (and 136-143, `…_values`, by `Tailed.values`). -/
def zeroOrMoreTailed (sep : P β) (f : P α) (n : Nat) : P (Tailed α) := zeroOrMoreTailedAppend sep f n {}

/-- `src/parser/combinators.rs` 240-264, `one_or_more_tailed`. -/
def oneOrMoreTailed (sep : P β) (f : P α) (n : Nat) : P (Tailed α) :=
  (parseTailed sep f).bind fun
    | .nothing e => .failure e
    | .valueOnly v => .pure { values := [v] }
    | .valueAndSeparator v => zeroOrMoreTailedAppend sep f n { values := [v], separatorCount := 1 }

/-- `src/parser/combinators.rs` 159-183, `zero_or_more_tailed_values_resume`. -/
def zeroOrMoreTailedValuesResume (sep : P β) (f : P α) (n : Nat) : P (List α) := fun a spt =>
  match sep a spt with
  | ⟨.fail pt _, a', l⟩ => ⟨.ok pt [], a', l⟩
  | ⟨.ok pt _, a', l⟩ =>
    match oneOrMoreTailed sep f n a' pt with
    | ⟨.fail _ _, a'', l'⟩ => ⟨.ok spt [], a'', l ++ l'⟩
    | ⟨.ok pt' t, a'', l'⟩ => ⟨.ok pt' t.values, a'', l ++ l'⟩
    | ⟨.panic, a'', l'⟩ => ⟨.panic, a'', l ++ l'⟩
    | ⟨.hang, a'', l'⟩ => ⟨.hang, a'', l ++ l'⟩
  | ⟨.panic, a', l⟩ => ⟨.panic, a', l⟩
  | ⟨.hang, a', l⟩ => ⟨.hang, a', l⟩

/-- `src/parser/combinators.rs` 185-218, `zero_or_more_implicitly_tailed_append`, with fuel for the loop; `impl` is
`ImplicitSeparator::is_implicit_separator`. -/
def zeroOrMoreImplicitlyTailed (impl : α → Bool) (sep : P β) (f : P α) : Nat → Tailed α → P (Tailed α)
  | 0, _ => fun a _ => ⟨.hang, a, []⟩
  | n + 1, t =>
    (parseTailed sep f).bind fun
      | .nothing _ => .pure t
      | .valueOnly v =>
        if impl v then
          zeroOrMoreImplicitlyTailed impl sep f n
            { values := t.values ++ [v], separatorCount := t.separatorCount + 1, lastHadSeparator := false }
        else .pure { t with values := t.values ++ [v] }
      | .valueAndSeparator v =>
        zeroOrMoreImplicitlyTailed impl sep f n
          { values := t.values ++ [v], separatorCount := t.separatorCount + 1, lastHadSeparator := true }

end P

section
variable {α : Type} (toks : List Token)

/-- Attach to a result the extent `pm.state.ex(spt, pt)` of what was parsed. -/
def P.spanned (p : P α) : P (Extent × α) := fun a spt =>
  match p a spt with
  | ⟨.ok pt v, a', l⟩ =>
    match ex toks spt pt with
    | some e => ⟨.ok pt (e, v), a', l⟩
    | none => ⟨.panic, a', l⟩
  | ⟨.fail pt e, a', l⟩ => ⟨.fail pt e, a', l⟩
  | ⟨.panic, a', l⟩ => ⟨.panic, a', l⟩
  | ⟨.hang, a', l⟩ => ⟨.hang, a', l⟩

/-- `src/parser/mod.rs` 478-528, `token`. -/
def token (convert : Token → Option α) (error : PErr) : P α := fun a pt =>
  match toks[pt.off]? with
  | none => ⟨.fail pt error, a, []⟩
  | some original =>
    let current : Option Token :=
      match pt.sub with
      | some n => (split original n).map (·.2)
      | none => some original
    match current with
    | none => ⟨.panic, a, []⟩ -- "Cannot resume a split token"
    | some t =>
      match convert t with
      | some v => ⟨.ok (pt.advanceBy 1) v, a, []⟩
      | none =>
        let sub := match pt.sub with | some x => x + 1 | none => 0
        match split original sub with
        | some (h, _) =>
          match convert h with
          | some v => ⟨.ok ⟨pt.off, some sub⟩ v, a, []⟩
          | none => ⟨.fail pt error, a, []⟩
        | none => ⟨.fail pt error, a, []⟩

/-- How far the loop of `parse_nested_until` goes over a list of tokens. -/
def nestedLen (opn cls : Token → Bool) : Nat → List Token → Nat
  | _, [] => 0
  | depth, t :: ts =>
    if t.isEOF then 0
    else if opn t then nestedLen opn cls (depth + 1) ts + 1
    else if cls t then
      match depth with
      | 0 => 0
      | d + 1 => nestedLen opn cls d ts + 1
    else nestedLen opn cls depth ts + 1

/-- `src/parser/combinators.rs` 17-45, `parse_nested_until`. -/
def parseNestedUntil (opn cls : Token → Bool) : P Extent := fun a spt =>
  let pt := spt.advanceBy (nestedLen opn cls 0 (toks.drop spt.off))
  match ex toks spt pt with
  | some e => ⟨.ok pt e, a, []⟩
  | none => ⟨.panic, a, []⟩

end

end Verif
