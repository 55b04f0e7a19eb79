import Verif.Proofs.JoinStop
import Verif.Proofs.Nodes
import Verif.Props.Append
import Verif.Props.LexError
import Verif.Props.Spelling
/-!
# Property theorems: a text can be moved, and two texts can be joined (C60, C61)
-/

namespace Verif
open Verif.Spec

/-- What comes out, in terms of the tokens. -/
theorem file_outcome (X : Xid) (cl cp : Bool) (code : Text) :
    (∃ d, lex X cl code = .err d ∧ parseRustFile X cl cp code = .lexErr d) ∨
    ∃ ts, lex X cl code = .ok ts ∧
      ((∃ loc errs, parseTokens (significant ts) cp = .err loc errs ∧ parseRustFile X cl cp code = .parseErr loc errs) ∨
       ∃ f, parseTokens (significant ts) cp = .ok (bareL f.items) ∧ parseRustFile X cl cp code = .ok f) := by
  rcases parseRustFile_cases X cl cp code (Ψ := fun _ _ _ _ _ _ => True) (fun _ _ => true_inductive) with
    ⟨d, hd, hr⟩ | ⟨ts, loc, errs, hl, hp, hr⟩ | ⟨f, ts, items, q, hr, hp, hf⟩
  · exact .inl ⟨d, hd, hr⟩
  · exact .inr ⟨ts, hl, .inl ⟨loc, errs, hp, hr⟩⟩
  · exact .inr ⟨ts, hf.lexed, .inr ⟨f, by rw [hf.bare]; exact hp, hr⟩⟩

end Verif

namespace Verif.Props
open Verif Verif.Spec

/-- The outcomes for a text and for the same text `d` bytes further on: the same tree with every extent `d` bytes further (the
whitespace recorded aside), the same syntax error `d` bytes further, or a lexical error `d` bytes further, naming the same things if the failures of the tokens
before it are dropped. -/
def MovedBy (cl : Bool) (d : Nat) : FileResult → FileResult → Prop
  | .ok f, .ok f' => bareL f'.items = moveds d (bareL f.items)
  | .parseErr loc errs, .parseErr loc' errs' => loc' = loc + d ∧ errs' = errs
  | .lexErr e, .lexErr e' => e'.location = e.location + d ∧ (cl = true → ∀ x, x ∈ e'.errors ↔ x ∈ e.errors)
  | _, _ => False

/-- White space in front of a text moves every extent in its tree, and the place of the error in it, by the length of the white space in
bytes; nothing else is different. -/
theorem C60_indent (X : Xid) (hX : Sane X) (cl cp : Bool) (w code : Text) (hw : ∀ c ∈ w, c ∈ wsChars) :
    MovedBy cl (blen w) (parseRustFile X cl cp code) (parseRustFile X cl cp (w ++ code)) := by
  rcases file_outcome X cl cp (w ++ code) with ⟨d', hd', hr'⟩ | ⟨ts', hl', h'⟩
  · rcases file_outcome X cl cp code with ⟨d, hd, hr⟩ | ⟨ts, hl, h⟩
    · rw [hr, hr']
      obtain ⟨ts, pre, rest, n, E, rfl, hb, hn, h0, h0', h1⟩ := C64_rejected X hX _ _ _ hd
      obtain ⟨us, hb'⟩ := begins_indent hX hb hn hw
      obtain ⟨d₁, h2, h4, h4', h3⟩ := C64_reported X hX cl us (w ++ pre) rest n E (by simpa using hb') hn
      rw [List.append_assoc, hd'] at h2
      cases h2
      rw [blen_append] at h4
      exact ⟨by omega, fun hc x => ⟨fun hx => h0' x (h3 hc x hx), fun hx => h4' x (h1 hc x hx)⟩⟩
    · exfalso
      refine ((C48_rejected X hX cl _).mp ⟨d', hd'⟩) ?_
      have h1 := (lex_spelled hX cl _ _).mp hl
      cases w with
      | nil => exact ⟨_, h1⟩
      | cons c w =>
        obtain ⟨e, us, h2, -⟩ := spelled_indent hX h1 (w := c :: w) (by simp) hw
        exact ⟨_, h2⟩
  · have h1' := (lex_spelled hX cl _ _).mp hl'
    rcases file_outcome X cl cp code with ⟨d, hd, hr⟩ | ⟨ts, hl, h⟩
    · exfalso
      exact ((C48_rejected X hX cl _).mp ⟨d, hd⟩) (spelled_outdent hX h1' hw 0)
    · have h1 := (lex_spelled hX cl _ _).mp hl
      have hs : significant ts' = (significant ts).map (·.moved (blen w)) := by
        cases w with
        | nil =>
          have := C48_unambiguous X hX code ts ts' h1 h1'
          subst this
          have : (fun x : Token => x.moved (blen [])) = id := by
            funext t
            cases t with
            | plain k e => rfl
            | number n =>
              simp [Token.moved, Number.moved, Extent.moved_zero]
          rw [this, List.map_id]
        | cons c w =>
          obtain ⟨e, us, h2, h3⟩ := spelled_indent hX h1 (w := c :: w) (by simp) hw
          have := C48_unambiguous X hX _ _ _ h2 h1'
          subst this
          rw [significant_cons, h3]
          rfl
      have hp := Move.parseTokens_moved (blen w) (significant ts) cp
      rw [← hs] at hp
      rcases h with ⟨loc, errs, h2, hr⟩ | ⟨f, h2, hr⟩ <;> rcases h' with ⟨loc', errs', h2', hr'⟩ | ⟨f', h2', hr'⟩ <;>
        rw [h2, h2'] at hp <;> simp only [ParseResult.moved, ParseResult.ok.injEq, ParseResult.err.injEq, reduceCtorEq] at hp <;>
        rw [hr, hr'] <;> exact hp

/-- The outcomes for a second text and for the first text joined with it, `d` being how far the second text has moved: the
items of the first text and then those of the second one, moved; or, if the second one is rejected, the same errors, moved. -/
def JoinedTo (cl : Bool) (first : File) (d : Nat) : FileResult → FileResult → Prop
  | .ok second, .ok both => bareL both.items = bareL first.items ++ moveds d (bareL second.items)
  | .parseErr loc errs, .parseErr loc' errs' => loc' = loc + d ∧ errs' = errs
  | .lexErr e, .lexErr e' => e'.location = e.location + d ∧ (cl = true → ∀ x, x ∈ e'.errors ↔ x ∈ e.errors)
  | _, _ => False

/-- If a text is accepted, its brackets match and it leaves nothing open, then any text can be put on the next line: there are the items
of the first text and then those of the second one, or the errors of the second one, all moved by the length of the first text
and one. -/
theorem C61_join (X : Xid) (hX : Sane X) (cl cp₁ cp : Bool) (code₁ code₂ : Text) (ts₁ toks : List Token) (eof : Token) (first : File)
    (h₁ : lex X cl code₁ = .ok ts₁) (hf : Finished code₁ ts₁) (htoks : ts₁.filter (fun t => !isTrivia t) = toks ++ [eof])
    (hb : Matched toks) (hok : parseRustFile X cl cp₁ code₁ = .ok first) :
    JoinedTo cl first (blen code₁ + 1) (parseRustFile X cl cp code₂) (parseRustFile X cl cp (code₁ ++ '\n' :: code₂)) := by
  rw [← significant_eq] at htoks
  have hs₁ := (lex_spelled hX cl _ _).mp h₁
  have hsrc : ∀ {code ts}, lex X cl code = .ok ts → Src code (significant ts) := by
    intro code ts h
    have h1 : extractWhitespace X cl code = .ok (partitionTokens ts).1 (partitionTokens ts).2 := by simp [extractWhitespace, h]
    have := Src.of_extract h1
    rwa [partitionTokens_snd] at this
  -- the tokens of both
  have both : ∀ ts₂, lex X cl code₂ = .ok ts₂ → ∃ vs, Spelled X 0 vs (code₁ ++ '\n' :: code₂) ∧
      significant vs = toks ++ (significant ts₂).map (·.moved (blen code₁ + 1)) := by
    intro ts₂ hl
    have h1 := spelled_moved ((lex_spelled hX cl _ _).mp hl) (blen code₁)
    obtain ⟨e, us, h2, h3⟩ := spelled_indent hX h1 (w := c!"\n") (by simp) (by decide)
    obtain ⟨vs, A, eof', h4, h5, h6⟩ := spelled_join hX hf hs₁ [] rfl rfl (fun _ h => h) h2
    rw [htoks] at h5
    obtain ⟨rfl, -⟩ := List.append_inj' h5 rfl
    refine ⟨vs, h4, ?_⟩
    rw [h6, h3, significant_eq, significant_eq, List.filter_map, List.map_map]
    have e1 : ((fun t => !isTrivia t) ∘ fun t => Token.moved (blen code₁) t) = fun t => !isTrivia t := by
      funext t
      simp [isTrivia_moved]
    have e2 : ((fun t => Token.moved (blen c!"\n") t) ∘ fun t => Token.moved (blen code₁) t) = fun t => t.moved (blen code₁ + 1) := by
      funext t
      exact Token.moved_add ..
    rw [e1, e2]
  rcases file_outcome X cl cp (code₁ ++ '\n' :: code₂) with ⟨d', hd', hr'⟩ | ⟨ts', hl', h'⟩
  · rcases file_outcome X cl cp code₂ with ⟨d, hd, hr⟩ | ⟨ts, hl, h⟩
    · rw [hr, hr']
      obtain ⟨ts, pre, rest, n, E, rfl, hb, hn, h0, h0', h1⟩ := C64_rejected X hX _ _ _ hd
      have hb := begins_moved hb (blen code₁)
      obtain ⟨us, hb⟩ := begins_indent hX hb hn (w := c!"\n") (by decide)
      obtain ⟨vs, hb⟩ := begins_join hX hf hs₁ [] rfl rfl (fun _ h => h) hn hb
      obtain ⟨d₁, h2, h4, h4', h3⟩ := C64_reported X hX cl vs (code₁ ++ '\n' :: pre) rest n E (by simpa using hb) hn
      rw [List.append_assoc, List.cons_append, hd'] at h2
      cases h2
      rw [blen_append, show blen ('\n' :: pre) = 1 + blen pre from rfl] at h4
      exact ⟨by omega, fun hc x => ⟨fun hx => h0' x (h3 hc x hx), fun hx => h4' x (h1 hc x hx)⟩⟩
    · exfalso
      obtain ⟨vs, h1, -⟩ := both ts hl
      exact ((C48_rejected X hX cl _).mp ⟨d', hd'⟩) ⟨_, h1⟩
  · have h1' := (lex_spelled hX cl _ _).mp hl'
    rcases file_outcome X cl cp code₂ with ⟨d, hd, hr⟩ | ⟨ts, hl, h⟩
    · exfalso
      exact ((C48_rejected X hX cl _).mp ⟨d, hd⟩) (spelled_unjoin hX hf hs₁ [] rfl rfl (fun _ h => h) h1' 0)
    · obtain ⟨vs, h1, h2⟩ := both ts hl
      have := C48_unambiguous X hX _ _ _ h1 h1'
      subst this
      -- the first text
      obtain ⟨i, e, h3, h4, h5⟩ : EofLast (toks ++ [eof]) := htoks ▸ (hsrc h₁).eof
      obtain ⟨rfl, h6⟩ := List.append_inj' h3 rfl
      cases h6
      obtain ⟨f, hp, hfo⟩ : ∃ f, parseTokens (toks ++ [eof]) cp₁ = .ok (bareL f.items) ∧ f = first := by
        rcases file_outcome X cl cp₁ code₁ with ⟨d, hd, -⟩ | ⟨us, hlu, ⟨loc, errs, -, hr⟩ | ⟨f, hp, hr⟩⟩
        · rw [h₁] at hd; cases hd
        · rw [hok] at hr; cases hr
        · rw [h₁] at hlu; cases hlu
          rw [hok] at hr; cases hr
          rw [htoks] at hp
          exact ⟨_, hp, rfl⟩
      subst hfo
      have he : EofLast ((significant ts).map (·.moved (blen code₁ + 1))) := by
        obtain ⟨j, u, h7, h8, h9⟩ := (hsrc hl).eof
        refine ⟨j.map (·.moved (blen code₁ + 1)), u.moved (blen code₁ + 1), by rw [h7]; simp, ?_, ?_⟩
        · rw [← Move.MT.eof (d := blen code₁ + 1) rfl]; exact h8
        · intro x hx
          obtain ⟨y, hy, rfl⟩ := List.mem_map.mp hx
          rw [← Move.MT.eof (d := blen code₁ + 1) rfl]; exact h9 y hy
      have h7 := parseTokens_append (clear' := cp) hb h4 h5 he hp
      rw [← h2, Move.parseTokens_moved] at h7
      rcases h with ⟨loc, errs, h3, hr⟩ | ⟨f, h3, hr⟩ <;> rcases h' with ⟨loc', errs', h3', hr'⟩ | ⟨f', h3', hr'⟩ <;>
        rw [h3, h3'] at h7 <;>
        simp only [ParseResult.moved, ParseResult.after, ParseResult.ok.injEq, ParseResult.err.injEq, reduceCtorEq] at h7 <;>
        rw [hr, hr'] <;> exact h7

/-- A decision procedure for the examples. -/
def finished (code : Text) (ts : List Token) : Bool :=
  ts.all fun t => match t.kind? with
    | none => true
    | some k =>
      (k != .Ident || sliceText code t.extent != some c!"br") &&
      match blockOpener k, sliceText code t.extent with
      | none, _ => true
      | some _, none => false
      | some op, some body => body == op ++ ((body.drop op.length).take (body.length - op.length - 2)) ++ c!"*/"

theorem Finished.of_finished {code : Text} {ts : List Token} (h : finished code ts = true) : Finished code ts := by
  unfold finished at h
  rw [List.all_eq_true] at h
  constructor
  · intro t ht k op hk ho
    have := h t ht
    rw [hk] at this
    simp only [ho, Bool.and_eq_true] at this
    cases hs : sliceText code t.extent with
    | none => rw [hs] at this; cases this.2
    | some body =>
      rw [hs] at this
      exact ⟨_, congrArg some (beq_iff_eq.mp this.2)⟩
  · intro pre n post e ht
    have := h _ ht
    have hs : sliceText code ⟨blen pre, blen pre + 2⟩ = some c!"br" := by
      rw [e, List.append_assoc, List.append_assoc, List.append_assoc]
      exact sliceText_append pre c!"br" _
    simp [Token.kind?, Token.extent, hs] at this

/-- For the examples: how many items there are. -/
def itemCount : FileResult → Option Nat
  | .ok f => some f.items.length
  | _ => none

/-- Indented, with a comment in front of it: accepted, and not empty. -/
example : (∀ c ∈ c!" \t\r\n", c ∈ wsChars) ∧ Sane asciiXid ∧
    itemCount (parseRustFile asciiXid true true c!"// x\nfn f() -> u8 { 1_u8 + a.b }") = some 1 :=
  ⟨by decide, asciiXid_sane, by decide +kernel⟩

/-- The hypotheses are met by a function with comments in it, and with a raw byte string. -/
example : ∃ ts₁ toks eof first, lex asciiXid true c!"/* é */ fn f() { /**/ br#\"a\"#; b'x'; b } // end" = .ok ts₁ ∧
    Finished c!"/* é */ fn f() { /**/ br#\"a\"#; b'x'; b } // end" ts₁ ∧
    ts₁.filter (fun t => !isTrivia t) = toks ++ [eof] ∧ Matched toks ∧
    parseRustFile asciiXid true true c!"/* é */ fn f() { /**/ br#\"a\"#; b'x'; b } // end" = .ok first := by
  obtain ⟨ts₁, toks, eof, rest, h1, h2, h⟩ := of_cutAt (n := 11) (r := lex asciiXid true c!"/* é */ fn f() { /**/ br#\"a\"#; b'x'; b } // end")
    (p := fun ts toks _ rest => rest.isEmpty && closes [] toks && finished c!"/* é */ fn f() { /**/ br#\"a\"#; b'x'; b } // end" ts)
    (by decide +kernel)
  simp only [Bool.and_eq_true, List.isEmpty_iff] at h
  obtain ⟨⟨rfl, h5⟩, h7⟩ := h
  obtain ⟨first, h8⟩ := FileResult.of_isOk (r := parseRustFile asciiXid true true c!"/* é */ fn f() { /**/ br#\"a\"#; b'x'; b } // end")
    (by decide +kernel)
  exact ⟨ts₁, toks, eof, first, h1, Finished.of_finished h7, h2, Matched.of_closes h5, h8⟩

theorem JoinedTo.count {cl : Bool} {first : File} {d n m : Nat} {r r' : FileResult} (h : JoinedTo cl first d r r') (hn : itemCount r = some n)
    (hm : itemCount r' = some m) : m = first.items.length + n := by
  cases r <;> simp [itemCount] at hn
  cases r' <;> simp [itemCount] at hm
  have := congrArg List.length (show bareL _ = bareL _ ++ moveds _ (bareL _) from h)
  rw [List.length_append, Move.moveds_map, List.length_map, bareL_length, bareL_length, bareL_length] at this
  omega

theorem JoinedTo.not {cl : Bool} {first : File} {d n m : Nat} {r r' : FileResult} (hn : itemCount r = some n) (hm : itemCount r' = some m)
    (h : m ≠ first.items.length + n) : ¬ JoinedTo cl first d r r' := fun hj => h (hj.count hn hm)

theorem FileResult.of_itemCount {r : FileResult} {n : Nat} (h : itemCount r = some n) : ∃ f, r = .ok f ∧ f.items.length = n := by
  cases r <;> simp_all [itemCount]

/-- Without the first condition of `Finished` this is false: a comment that is never closed is accepted, and takes in all of the second
text. -/
theorem C61_open_comment : ∃ ts₁ toks eof first, lex asciiXid true c!"fn f(){}/*" = .ok ts₁ ∧
    ts₁.filter (fun t => !isTrivia t) = toks ++ [eof] ∧ Matched toks ∧ parseRustFile asciiXid true true c!"fn f(){}/*" = .ok first ∧
    ¬ JoinedTo true first (blen c!"fn f(){}/*" + 1) (parseRustFile asciiXid true true c!"fn g(){}")
      (parseRustFile asciiXid true true c!"fn f(){}/*\nfn g(){}") := by
  obtain ⟨ts₁, toks, eof, rest, h1, h2, h⟩ := of_cutAt (n := 6) (r := lex asciiXid true c!"fn f(){}/*")
    (p := fun _ toks _ rest => rest.isEmpty && closes [] toks) (by decide +kernel)
  simp only [Bool.and_eq_true, List.isEmpty_iff] at h
  obtain ⟨rfl, h5⟩ := h
  obtain ⟨first, h8, h9⟩ := FileResult.of_itemCount (n := 1) (r := parseRustFile asciiXid true true c!"fn f(){}/*") (by decide +kernel)
  exact ⟨ts₁, toks, eof, first, h1, h2, Matched.of_closes h5, h8, JoinedTo.not (n := 1) (m := 1) (by decide +kernel) (by decide +kernel) (by omega)⟩

/-- Nor is it true without the second condition: a raw byte string that is never closed is read as the word `br`, a hash and a string, and
closed by the second text. -/
theorem C61_open_raw_bytes : ∃ ts₁ toks eof first, lex asciiXid true c!"m!{br#\"a\"}" = .ok ts₁ ∧
    ts₁.filter (fun t => !isTrivia t) = toks ++ [eof] ∧ Matched toks ∧ parseRustFile asciiXid true true c!"m!{br#\"a\"}" = .ok first ∧
    ¬ JoinedTo true first (blen c!"m!{br#\"a\"}" + 1) (parseRustFile asciiXid true true c!"m!{\"#\"'\"'a}")
      (parseRustFile asciiXid true true c!"m!{br#\"a\"}\nm!{\"#\"'\"'a}") := by
  obtain ⟨ts₁, toks, eof, rest, h1, h2, h⟩ := of_cutAt (n := 7) (r := lex asciiXid true c!"m!{br#\"a\"}")
    (p := fun _ toks _ rest => rest.isEmpty && closes [] toks) (by decide +kernel)
  simp only [Bool.and_eq_true, List.isEmpty_iff] at h
  obtain ⟨rfl, h5⟩ := h
  obtain ⟨first, h8, h9⟩ := FileResult.of_itemCount (n := 1) (r := parseRustFile asciiXid true true c!"m!{br#\"a\"}") (by decide +kernel)
  exact ⟨ts₁, toks, eof, first, h1, h2, Matched.of_closes h5, h8, JoinedTo.not (n := 1) (m := 1) (by decide +kernel) (by decide +kernel) (by omega)⟩

end Verif.Props
