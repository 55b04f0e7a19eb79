import Verif.Lex
import Verif.Eval
/-!
# Reading a file: tokens, trivia, items

`src/lib.rs` 278-345, up to the assignment of the whitespace to the nodes.
-/

namespace Verif

/-- What `extract_whitespace` returns. -/
inductive Extracted
  | ok (ws : List Ws) (toks : List Token)
  | err (d : LErrorDetail)
  | panic
  | hang
deriving Repr, DecidableEq

/-- The trivia a token stands for, if it is one (`src/lib.rs` 287-300). -/
def Token.trivia? : Token → Option Ws
  | .plain .Whitespace e => some (.whitespace e)
  | .plain .CommentLine e => some (.commentLine e)
  | .plain .CommentBlock e => some (.commentBlock e)
  | _ => none

/-- The loop of `extract_whitespace` (`src/lib.rs` 284-301) over the tokens. -/
def partitionTokens : List Token → List Ws × List Token
  | [] => ([], [])
  | t :: ts =>
    let (ws, toks) := partitionTokens ts
    match t.trivia? with
    | some w => (w :: ws, toks)
    | none => (ws, t :: toks)

/-- `src/lib.rs` 278-304, `extract_whitespace`.  Simplified: all tokens are produced before they are sorted; an error of the
tokenizer is returned in either case. -/
def extractWhitespace (X : Xid) (clear : Bool) (code : Text) : Extracted :=
  match lex X clear code with
  | .ok ts => .ok (partitionTokens ts).1 (partitionTokens ts).2
  | .err d => .err d
  | .panic => .panic
  | .hang => .hang

/-- `peresil::Failures { point, kinds }` for token points. -/
structure PFailures where
  point : Pt
  kinds : List PErr
deriving Repr, DecidableEq

/-- `Failures::new`: the point is `Point::zero()`. -/
def PFailures.new : PFailures := ⟨.zero, []⟩

/-- `Failures::add`: only the furthest failures are kept. -/
def PFailures.add (f : PFailures) (p : Pt) (e : PErr) : PFailures :=
  if p.lt f.point then f
  else if f.point.lt p then ⟨p, [e]⟩
  else ⟨f.point, f.kinds ++ [e]⟩

/-- The failures of a log, in order. -/
def PFailures.addAll (f : PFailures) : Log → PFailures
  | [] => f
  | (p, e) :: l => PFailures.addAll (f.add p e) l

/-- What parsing all items leads to. -/
inductive ParseResult (α : Type)
  | ok (v : α)
  /-- `ErrorDetail { location, errors }`; simplified: the errors are a list instead of a `BTreeSet` -/
  | err (location : Nat) (errors : List PErr)
  | panic
  | hang
deriving Repr

/-- `attributed(item)` -/
def itemG : G := .attributed .AttributedItem (.r .item)

/-- Enough depth of recursion (`Proofs/Terminate.lean`). -/
def evalFuel (toks : List Token) : Nat := 10 * (4 * toks.length + 4)

/-- One call of `attributed(item)(&mut pm, pt)`. -/
def parseItem (toks : List Token) : P (List V) := evalG toks (eval toks (evalFuel toks)) itemG

/-- `src/lib.rs` 319-341, the loop of `parse_rust_file`, with fuel; `fails` and `a` are the failures and the ambiguity
kept in `pm`.  Whether `pm.finish` forgets the failures on success is left open (`clear`). -/
def parseItems (toks : List Token) (clear : Bool) : Nat → PFailures → Amb → Pt → List V → ParseResult (List V)
  | 0, _, _, _, _ => .hang
  | n + 1, fails, a, pt, items =>
    match toks[pt.off]? with
    | none => .ok items
    | some t =>
      if t.isEOF then .ok items
      else
        match parseItem toks a pt with
        | ⟨.ok next vs, a', l⟩ =>
          if pt.off < next.off then
            parseItems toks clear n (if clear then .new else fails.addAll l) a' next (items ++ vs)
          else .panic -- "Unable to make progress"
        | ⟨.fail q e, _, l⟩ =>
          let f := (fails.addAll l).add q e
          match toks[f.point.off]? with
          | some t => .err t.extent.s f.kinds
          | none => .panic -- index out of bounds
        | ⟨.panic, _, _⟩ => .panic
        | ⟨.hang, _, _⟩ => .hang

/-- All items of a token list. -/
def parseTokens (toks : List Token) (clear : Bool) : ParseResult (List V) :=
  parseItems toks clear (toks.length + 1) .new .Unambiguous .zero []

end Verif
