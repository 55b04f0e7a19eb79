import Verif.Props.Shape
import Verif.Props.LexError
import Verif.Props.Join
import Verif.Proofs.LineEnds
/-!
# C78: line ends

Whether lines end with a line feed or with a carriage return and a line feed makes no difference.
-/

namespace Verif.Props
open Verif Verif.Spec

theorem sameTokens_filter {code code' : Text} {ts ts' : List Token} (h : SameTokens code code' ts ts') :
    SameKinds (ts.filter fun t => !isTrivia t) (ts'.filter fun t => !isTrivia t) := by
  induction h with
  | nil => exact .nil
  | @cons t t' b b' ts ts' hk _ _ _ _ ih =>
    have : isTrivia t' = isTrivia t := by
      cases t <;> cases t' <;> simp only [SameKind] at hk
      · subst hk; rfl
      · rfl
    rw [List.filter_cons, List.filter_cons, this]
    cases isTrivia t with
    | true => exact ih
    | false => exact .cons hk ih

/-- What comes of two texts: the same tokens, and trees of the same shape or the same syntax errors at the same token; or no tokens, for the
same reasons. -/
def SameEnd (X : Xid) (cl : Bool) (code code' : Text) : Prop :=
  (∃ ts ts', lex X cl code = .ok ts ∧ lex X cl code' = .ok ts' ∧ SameTokens code code' ts ts' ∧
    ∀ cp, SameOutcome (ts.filter fun t => !isTrivia t) (ts'.filter fun t => !isTrivia t)
      (parseRustFile X cl cp code) (parseRustFile X cl cp code')) ∨
  ∃ d d', (∀ cp, parseRustFile X cl cp code = .lexErr d ∧ parseRustFile X cl cp code' = .lexErr d') ∧
    (cl = true → ∀ e, e ∈ d.errors ↔ e ∈ d'.errors)

/-- C78: two texts that differ only in the carriage returns before line feeds give the same, unless a line feed alone stands between single
quotes. -/
theorem C78_line_ends (X : Xid) (hX : Sane X) (cl : Bool) (code code' : Text) (hs : SameLines code code') (hq : ¬ QuotedFeed code)
    (hq' : ¬ QuotedFeed code') : SameEnd X cl code code' := by
  have rej : ∀ {code : Text} {d : LErrorDetail}, lex X cl code = .err d → ∀ cp, parseRustFile X cl cp code = .lexErr d := by
    intro code d h cp
    rcases file_outcome X cl cp code with ⟨d', h1, h2⟩ | ⟨ts, h1, -⟩
    · rw [h] at h1; cases h1; exact h2
    · rw [h] at h1; cases h1
  rcases file_outcome X cl true code with ⟨d, h, -⟩ | ⟨ts, h, -⟩
  · right
    obtain ⟨ts, pre, rest, n, E, rfl, hb, hn, h1, h2, h3⟩ := C64_rejected X hX cl _ _ h
    obtain ⟨ts', rest', hb', hr, -, hqr⟩ := begins_lines hX hb hs hq hq' 0
    obtain ⟨n', hn'⟩ := noToken_lines hX hn hr hqr
    obtain ⟨pre', rfl⟩ := hb'.pre
    obtain ⟨d', h', -, h4, h5⟩ := C64_reported X hX cl ts' pre' rest' n' E hb' hn'
    exact ⟨d, d', fun cp => ⟨rej h cp, rej h' cp⟩, fun hc e => ⟨fun he => h4 e (h3 hc e he), fun he => h2 e (h5 hc e he)⟩⟩
  · left
    have hl := (lex_spelled hX _ _ _).mp h
    obtain ⟨ts', h1, h2⟩ := spelled_lines (p := []) (p' := []) hX hl hs hq hq'
    have h' := (lex_spelled hX cl _ _).mpr h1
    exact ⟨ts, ts', h, h', h2, fun cp => C41_layout X X cl cl cp _ _ _ _ h h' (sameTokens_filter h2)⟩

/-- C78: turning each line feed into a carriage return and a line feed makes no difference. -/
theorem C78_crlf (X : Xid) (hX : Sane X) (cl : Bool) (code : Text) (hq : ¬ QuotedFeed code) : SameEnd X cl code (crlf code) :=
  C78_line_ends X hX cl code _ (crlf_lines code) hq (crlf_quoted code)

/-- The exception is needed: a character literal may hold a line feed, but not a carriage return and a line feed. -/
theorem C78_quoted : ∃ code f d, parseRustFile asciiXid true true code = .ok f ∧ parseRustFile asciiXid true true (crlf code) = .lexErr d := by
  have ok : ∀ r : FileResult, (match r with | .ok _ => true | _ => false) = true → ∃ f, r = .ok f := by
    intro r h
    cases r with
    | ok f => exact ⟨f, rfl⟩
    | _ => cases h
  have err : ∀ r : FileResult, (match r with | .lexErr _ => true | _ => false) = true → ∃ d, r = .lexErr d := by
    intro r h
    cases r with
    | lexErr d => exact ⟨d, rfl⟩
    | _ => cases h
  obtain ⟨f, h1⟩ := ok (parseRustFile asciiXid true true c!"const A:B='\n';") (by decide +kernel)
  obtain ⟨d, h2⟩ := err (parseRustFile asciiXid true true (crlf c!"const A:B='\n';")) (by decide +kernel)
  exact ⟨_, f, d, h1, h2⟩

/-- The hypotheses are met: a doc comment, a string that runs over two lines, a comment. -/
example : SameLines c!"///a\nconst A:B=\"\n\";//b\n" c!"///a\r\nconst A:B=\"\r\n\";//b\r\n" ∧
    ¬ QuotedFeed c!"///a\nconst A:B=\"\n\";//b\n" ∧
    crlf c!"///a\nconst A:B=\"\n\";//b\n" = c!"///a\r\nconst A:B=\"\r\n\";//b\r\n" :=
  ⟨crlf_lines _, by unfold QuotedFeed; decide, by decide⟩

end Verif.Props
