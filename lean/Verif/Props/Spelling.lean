import Verif.Props.Core
import Verif.Props.Shape
import Verif.Proofs.LexLines
/-!
# The lexical grammar

C48-C50.
-/

namespace Verif
open Verif.Spec Verif.Spec.Core

namespace Props

/-- C48: the tokenizer reads exactly the texts of the lexical grammar, and gives exactly the tokens that the grammar says. -/
theorem C48_lexical_grammar (X : Xid) (hX : Sane X) (cl : Bool) (code : Text) (ts : List Token) :
    lex X cl code = .ok ts ↔ Spelled X 0 ts code := lex_spelled hX cl code ts

/-- C48: so the grammar is unambiguous. -/
theorem C48_unambiguous (X : Xid) (hX : Sane X) (code : Text) (ts ts' : List Token) (h : Spelled X 0 ts code) (h' : Spelled X 0 ts' code) :
    ts = ts' := by
  have e := (lex_spelled hX true code ts).mpr h
  rw [(lex_spelled hX true code ts').mpr h'] at e
  cases e; rfl

/-- C48: and texts that are not of the grammar are rejected with an error. -/
theorem C48_rejected (X : Xid) (hX : Sane X) (cl : Bool) (code : Text) :
    (∃ d, lex X cl code = .err d) ↔ ¬ ∃ ts, Spelled X 0 ts code := by
  constructor
  · rintro ⟨d, hd⟩ ⟨ts, h⟩
    rw [(lex_spelled hX cl code ts).mpr h] at hd
    cases hd
  · intro h
    rcases lex_cases X cl code with ⟨ts, h1, -⟩ | ⟨_, d, h1, -⟩
    · exact absurd ⟨ts, (lex_spelled hX cl code ts).mp h1⟩ h
    · exact ⟨d, h1⟩

/-- The ASCII tables are sane. -/
theorem asciiXid_sane : Sane asciiXid :=
  ⟨fun _ _ => rfl, fun _ _ => rfl, by decide⟩

/-- A text of the grammar: `a+1` and its tokens, spelt out by hand. -/
example : Spelled asciiXid 0 [.plain .Ident ⟨0, 1⟩, .plain .Plus ⟨1, 2⟩,
    .number ⟨.Decimal, ⟨2, 3⟩, ⟨2, 3⟩, none, none, none, 0⟩, .plain .EndOfFile ⟨3, 3⟩] c!"a+1" := by
  refine .token (body := c!"a") (post := c!"+1") (.ident ⟨'a', [], rfl, .inl rfl, by simp⟩ ?_ ?_ ?_ (by decide)) ?_
  · intro k; cases k <;> decide
  · rintro d t ⟨⟩; rfl
  · intro h
    rcases literalAt_cases h with ⟨_, _, e, _⟩ | ⟨_, _, e, _⟩ | ⟨_, _, e, _⟩ <;> cases e
  refine .token (body := c!"+") (post := c!"1") (.symbol (k := .Plus) rfl ?_ (by decide)) ?_
  · intro k w; cases k <;> rintro ⟨⟩ <;> decide
  refine .token (body := c!"1") (post := []) (t := .number (NumParts.number ⟨.Decimal, c!"1", none, none, none⟩ 2)) ?_ .done
  refine .number (p := ⟨.Decimal, c!"1", none, none, none⟩) ⟨by simp, ?_, ?_, ?_, nofun, ?_, nofun, ?_, nofun, ?_⟩ ?_
  · intro c hc
    obtain rfl : c = '1' := by simpa using hc
    exact .inl (by decide)
  · rintro ⟨_, _, e, _⟩; cases e
  · intro _ b hb t e; cases b <;> cases e <;> exact absurd rfl hb
  · intro _ t e; cases e
  · intro _ m t e; cases e
  · rintro - ⟨_, _, e, _⟩; cases e
  · rintro ⟨_, _, e, h⟩; cases e; revert h; decide

/-- A text that is not of the grammar. -/
example : ¬ ∃ ts, Spelled asciiXid 0 ts c!"let s = \"abc" :=
  fun ⟨_, h⟩ => absurd (congrArg (LexResult.okWith · fun _ => true) ((lex_spelled asciiXid_sane true _ _).mpr h))
    (by rw [show LexResult.okWith (lex asciiXid true c!"let s = \"abc") (fun _ => true) = false by decide +kernel]; nofun)

/-- C49: a text written by the two grammars, of tokens and of programs, is accepted, and its tree is as the grammar says. -/
theorem C49_program (X : Xid) (hX : Sane X) (cl cp : Bool) (code : Text) (ts toks : List Token) (e : Extent) (xs : List Lexeme) (items : List V)
    (h : Spelled X 0 ts code) (ht : ts.filter (fun t => !isTrivia t) = toks ++ [.plain .EndOfFile e])
    (hw : Written xs toks) (hp : Writes .free (.many .attrItem) xs (L items)) :
    ∃ f, parseRustFile X cl cp code = .ok f ∧ shapes f.items = shapes items :=
  C47_accepted X cl cp code ts toks e xs items ((lex_spelled hX cl code ts).mpr h) ht hw hp

/-- A program with a comment. -/
example : ∃ ts toks e xs items, Spelled asciiXid 0 ts c!"struct S<T>(T); // tuple" ∧
    ts.filter (fun t => !isTrivia t) = toks ++ [.plain .EndOfFile e] ∧ Written xs toks ∧
    Writes .free (.many .attrItem) xs (L items) := by
  have ty : Writes .free .typ ([.t .Ident] ++ []) _ := .typSum (.kindB (.named (.sep1One (.comp (xs := [.t .Ident]) .seg .optNone)))) .noMore
  have f := Writes.tupleField .manyNil (.but (k := .Crate) ty (by simp [Lexeme.kind]))
  have g := Writes.genericsType (w := .free) .eachNil (.sepOne (.genType .name .optNone .optNone))
  have s := Writes.manyCons (.attrItem .manyNil (.structTuple .optNone .name (.optSome g) (.sepOne f) .noWheres)) .manyNil
  obtain ⟨ts, toks, e, h1, h2, h3⟩ := written_of_spelt (X := asciiXid) (code := c!"struct S<T>(T); // tuple")
    (xs := [.t .Struct, .t .Ident, .j .LeftAngle, .t .Ident, .j .RightAngle, .t .LeftParen, .t .Ident, .t .RightParen, .t .Semicolon])
    (by decide +kernel)
  exact ⟨ts, toks, e, _, _, (lex_spelled asciiXid_sane true _ ts).mp h1, h2, h3, s⟩

/-- C50: the tokens of a text other than white space and comments, each copied to a line of its own, are read as the same kinds of tokens, and
the parser accepts or rejects the new text like the old one, with the same tree or for the same reasons. -/
theorem C50_one_per_line (X : Xid) (hX : Sane X) (cl cp : Bool) (code : Text) (ts : List Token) (h : lex X cl code = .ok ts) :
    ∃ text ts', OnePerLine code (ts.filter fun t => !isTrivia t) text ∧ lex X cl text = .ok ts' ∧
      SameKinds (ts.filter fun t => !isTrivia t) (ts'.filter fun t => !isTrivia t) ∧
      SameOutcome (ts.filter fun t => !isTrivia t) (ts'.filter fun t => !isTrivia t)
        (parseRustFile X cl cp code) (parseRustFile X cl cp text) := by
  obtain ⟨text, ts', h1, h2, h3, -⟩ := lines_spelled hX ((lex_spelled hX cl code ts).mp h) [] rfl 0
  have h2 := (lex_spelled hX cl text ts').mpr h2
  exact ⟨text, ts', h1, h2, h3, C41_layout X X cl cl cp code text ts ts' h h2 h3⟩

/-- The lines of a text. -/
example : OnePerLine c!"fn f(){1..2}" [.plain .Fn ⟨0, 2⟩, .plain .Ident ⟨3, 4⟩, .plain .LeftParen ⟨4, 5⟩, .plain .RightParen ⟨5, 6⟩,
      .plain .LeftCurly ⟨6, 7⟩, .number ⟨.Decimal, ⟨7, 8⟩, ⟨7, 8⟩, none, none, none, 0⟩, .plain .DoublePeriod ⟨8, 10⟩,
      .number ⟨.Decimal, ⟨10, 11⟩, ⟨10, 11⟩, none, none, none, 0⟩, .plain .RightCurly ⟨11, 12⟩, .plain .EndOfFile ⟨12, 12⟩]
    c!"fn\nf\n(\n)\n{\n1\n..\n2\n}\n" :=
  .line (body := c!"fn") (by decide +kernel) <| .line (body := c!"f") (by decide +kernel) <| .line (body := c!"(") (by decide +kernel) <|
  .line (body := c!")") (by decide +kernel) <| .line (body := c!"{") (by decide +kernel) <| .line (body := c!"1") (by decide +kernel) <|
  .line (body := c!"..") (by decide +kernel) <| .line (body := c!"2") (by decide +kernel) <| .line (body := c!"}") (by decide +kernel) .done

end Props
end Verif
