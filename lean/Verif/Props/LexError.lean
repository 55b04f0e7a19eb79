import Verif.Proofs.LexNear
import Verif.Props.Spelling
/-!
# Property theorems: where a text that is rejected by the tokenizer goes wrong (C64)
-/

namespace Verif.Props
open Verif Verif.Spec

/-- The error for a text that begins with `pre` and goes on with something that is no token: it is exactly at the place one gets to, and
names all that is missing there; and nothing else, if the failures of the tokens before are dropped. -/
def StopsAt (cl : Bool) (pre : Text) (n : Nat) (E : LErr → Prop) (d : LErrorDetail) : Prop :=
  d.location = blen pre + n ∧ (∀ e, E e → e ∈ d.errors) ∧ (cl = true → ∀ e ∈ d.errors, E e)

/-- The place of the error. -/
def LexResult.errAt : LexResult → Option Nat
  | .err d => some d.location
  | _ => none

/-- C64: a text that begins with tokens and goes on with something that is no token is rejected, with the error for that place. -/
theorem C64_reported (X : Xid) (hX : Sane X) (cl : Bool) (ts : List Token) (pre rest : Text) (n : Nat) (E : LErr → Prop)
    (h : Begins X 0 ts (pre ++ rest) rest) (hn : NoToken X rest n E) : ∃ d, lex X cl (pre ++ rest) = .err d ∧ StopsAt cl pre n E d := by
  obtain ⟨d, h1, -, h3⟩ := drain_begins hX h hn ((pre ++ rest).length + 2) .new cl [] (by omega) (fun _ => rfl)
  obtain ⟨d', h4, h5, h6⟩ := drain_place (L := blen pre + n) hX h hn ((pre ++ rest).length + 2) .new cl [] (by omega) (by simp; omega) (by simp [Failures.new])
  rw [h1] at h4
  cases h4
  exact ⟨d, h1, h5, h6, fun hc e he => ((h3 hc).2 e).mp he⟩

/-- C64: and every text that is rejected is of that kind. -/
theorem C64_rejected (X : Xid) (hX : Sane X) (cl : Bool) (code : Text) (d : LErrorDetail) (h : lex X cl code = .err d) :
    ∃ ts pre rest n E, code = pre ++ rest ∧ Begins X 0 ts code rest ∧ NoToken X rest n E ∧ StopsAt cl pre n E d := by
  obtain ⟨ts, rest, n, E, hb, hn⟩ := drain_stuck hX _ _ _ _ _ _ h
  obtain ⟨pre, rfl⟩ := hb.pre
  obtain ⟨d', h1, h2⟩ := C64_reported X hX cl ts pre rest n E hb hn
  rw [h] at h1
  cases h1
  exact ⟨ts, pre, rest, n, E, rfl, hb, hn, h2⟩

/-- A string that is never closed, after a word: its closing quote is missing at the end of the text. -/
example : Begins asciiXid 0 [.plain .Ident ⟨0, 1⟩] (c!"a" ++ c!"\"bc\\") c!"\"bc\\" ∧
    NoToken asciiXid c!"\"bc\\" 4 (· = .Literal c!"\"") ∧
    lex asciiXid true c!"a\"bc\\" = .err ⟨5, [.Literal c!"\""]⟩ := by
  refine ⟨.token (body := c!"a") (.ident ⟨'a', [], rfl, .inl rfl, by simp⟩ ?_ ?_ ?_ (by decide)) .none, ?_, by decide +kernel⟩
  · intro k; cases k <;> decide
  · rintro d t ⟨⟩; rfl
  · intro h
    rcases literalAt_cases h with ⟨_, _, e, _⟩ | ⟨_, _, e, _⟩ | ⟨_, _, e, _⟩ <;> cases e
  · exact .str (t := c!"bc\\") (.plain (by decide) (by decide) (.plain (by decide) (by decide) .slash))

/-- Each of the other ways of being stuck, with the error that comes out. -/
example : NoToken asciiXid c!"`a`" 0 AnyToken ∧ LexResult.errAt (lex asciiXid true c!"`a`") = some 0 := by
  refine ⟨.stray ?_ (by decide) (by decide) (by decide) (by decide) ?_, by decide +kernel⟩
  · rintro (h | h) <;> revert h <;> decide
  · intro k; cases k <;> decide

example : NoToken asciiXid c!"r##a" 3 (fun e => e = .Literal c!"#" ∨ e = .Literal c!"\"") ∧
    lex asciiXid true c!"r##a" = .err ⟨3, [.Literal c!"#", .Literal c!"\""]⟩ :=
  ⟨.rawStart (n := 2) (t := c!"a") (by decide) (by rintro ⟨c, u, h, h'⟩; cases h; revert h'; decide) (by omega), by decide +kernel⟩

example : NoToken asciiXid c!"r#\"a\"" 3 (· = .UnterminatedRawString) ∧ lex asciiXid true c!"r#\"a\"" = .err ⟨3, [.UnterminatedRawString]⟩ :=
  ⟨.rawEnd (n := 1) (t := c!"a\"") (by decide) (by
    intro a b h
    have hl := congrArg List.length h
    simp only [rawClose, List.length_append, List.length_cons, List.length_replicate, List.length_nil] at hl
    obtain rfl : a = [] := List.length_eq_zero_iff.mp (by omega)
    cases h), by decide +kernel⟩

example : NoToken asciiXid c!"'" 1 (· ∈ [LErr.ExpectedCharacter, .ExpectedIdent, .Literal c!"\\"]) ∧
    LexResult.errAt (lex asciiXid true c!"'") = some 1 :=
  ⟨.quoteEnd, by decide +kernel⟩

example : NoToken asciiXid c!"'1;" 2 (· = .Literal c!"'") ∧ lex asciiXid true c!"'1;" = .err ⟨2, [.Literal c!"'"]⟩ :=
  ⟨.quote (c := '1') (t := c!";") (by decide) (by rintro (h | h) <;> revert h <;> decide) (by rintro ⟨c, u, h, h'⟩; cases h; revert h'; decide),
    by decide +kernel⟩

example : NoToken asciiXid c!"'\\x41" 5 (· = .Literal c!"'") ∧ lex asciiXid true c!"'\\x41" = .err ⟨5, [.Literal c!"'"]⟩ :=
  ⟨.escaped (b := c!"x41") (t := []) (.hex (ds := c!"41") (by decide) (by decide)) (by rintro ⟨c, u, h, h'⟩; cases h) (by rintro _ _ ⟨c, u, h, h'⟩; cases h), by decide +kernel⟩

example : NoToken asciiXid c!"'\\q'" 2 AnyEscape ∧ LexResult.errAt (lex asciiXid true c!"'\\q'") = some 2 :=
  ⟨.escape (t := c!"q'") (by rintro ⟨c, u, h, h'⟩; cases h; revert h'; decide) (by decide), by decide +kernel⟩

example : NoToken asciiXid c!"'\\x'" 3 (· = .ExpectedHex) ∧ lex asciiXid true c!"'\\x'" = .err ⟨3, [.ExpectedHex]⟩ :=
  ⟨.hex (t := c!"'") (by rintro ⟨c, u, h, h'⟩; cases h; revert h'; unfold Hex; decide), by decide +kernel⟩

example : NoToken asciiXid c!"'\\u{}'" 4 (· = .ExpectedHex) ∧ lex asciiXid true c!"'\\u{}'" = .err ⟨4, [.ExpectedHex]⟩ :=
  ⟨.unicode (t := c!"}'") (by rintro ⟨c, u, h, h'⟩; cases h; revert h'; unfold Hex; decide), by decide +kernel⟩

example : NoToken asciiXid c!"'\\u{e9'" 6 (· = .Literal c!"}") ∧ lex asciiXid true c!"'\\u{e9'" = .err ⟨6, [.Literal c!"}"]⟩ :=
  ⟨.unicodeEnd (ds := c!"e9") (t := c!"'") (by decide) (by unfold Hex; decide) (by rintro ⟨c, u, h, h'⟩; cases h; revert h'; unfold Hex; decide), by decide +kernel⟩

end Verif.Props
