import Verif.Proofs.Append
import Verif.Props.Local
import Verif.Spec.Brackets
/-!
# Property theorem: a program can be appended to another one (C59)
-/

namespace Verif
open Verif.Spec

theorem Spec.Matched.sameKinds {a : List Token} (h : Matched a) : ∀ {b}, SameKinds a b → Matched b := by
  induction h with
  | nil => intro b h; cases h; exact .nil
  | plain h1 _ ih =>
    intro b h
    cases h with
    | cons h2 h3 => exact .plain (fun k hk => by rw [← h2.kind]; exact h1 k hk) (ih h3)
  | group h1 h2 h3 _ _ ih1 ih2 =>
    intro b h
    rw [List.cons_append] at h
    cases h with
    | cons h4 h5 =>
      obtain ⟨i, r, rfl, h6, h7⟩ := h5.symm.of_append
      cases h7 with
      | cons h8 h9 =>
        rw [← List.cons_append]
        exact .group (by rw [← h4.kind]; exact h1) (by rw [h8.kind]; exact h2) h3 (ih1 h6.symm) (ih2 h9.symm)

theorem Spec.SameKinds.refl : ∀ a : List Token, SameKinds a a
  | [] => .nil
  | t :: ts => .cons (by cases t <;> simp [SameKind]) (.refl ts)

end Verif

namespace Verif.Props
open Verif Verif.Spec

/-- What comes out for a text made of two programs: the items of the first one and then those of the second one, or, if the second one is
rejected, the same errors at the same token of it.  `toks` and `toks'` are the tokens of the second program and of both, `n` is how many
tokens the first program has. -/
def Appended (n : Nat) (toks toks' : List Token) (first : File) : FileResult → FileResult → Prop
  | .ok second, .ok both => shapes both.items = shapes first.items ++ shapes second.items
  | .parseErr loc errs, .parseErr loc' errs' =>
    errs' = errs ∧ ∃ (i : Nat) (t t' : Token), toks[i]? = some t ∧ toks'[n + i]? = some t' ∧ loc = t.extent.s ∧ loc' = t'.extent.s
  | _, _ => False

/-- If a text is accepted whose brackets match, and a second text is appended to it (so that the tokens of both, whitespace and
comments aside, are those of the first text, without the end of the file, and then those of the second text), then the items
are those of the first text and then those of the second one; or the errors are those of the second text alone, at the same token. -/
theorem C59_append (X₁ X₂ X : Xid) (cl₁ cl₂ cl cp₁ cp : Bool) (code₁ code₂ code : Text) (ts₁ ts₂ ts toks : List Token) (eof : Token)
    (first : File) (h₁ : lex X₁ cl₁ code₁ = .ok ts₁) (h₂ : lex X₂ cl₂ code₂ = .ok ts₂) (h : lex X cl code = .ok ts)
    (htoks : ts₁.filter (fun t => !isTrivia t) = toks ++ [eof]) (hb : Matched toks)
    (hok : parseRustFile X₁ cl₁ cp₁ code₁ = .ok first)
    (hk : SameKinds (toks ++ ts₂.filter fun t => !isTrivia t) (ts.filter fun t => !isTrivia t)) :
    Appended toks.length (ts₂.filter fun t => !isTrivia t) (ts.filter fun t => !isTrivia t) first
      (parseRustFile X₂ cl₂ cp code₂) (parseRustFile X cl cp code) := by
  rw [← significant_eq] at *
  rw [← significant_eq] at hk ⊢
  have hsrc : ∀ {X cl code ts}, lex X cl code = .ok ts → Src code (significant ts) := by
    intro X cl code ts h
    have h1 : extractWhitespace X cl code = .ok (partitionTokens ts).1 (partitionTokens ts).2 := by simp [extractWhitespace, h]
    have := Src.of_extract h1
    rwa [partitionTokens_snd] at this
  -- the first text
  have he : EofLast (toks ++ [eof]) := htoks ▸ (hsrc h₁).eof
  obtain ⟨i, e, h3, h4, h5⟩ := he
  obtain ⟨rfl, h6⟩ := List.append_inj' h3 rfl
  cases h6
  obtain ⟨items, hp, hsh⟩ : ∃ items, parseTokens (toks ++ [eof]) cp₁ = .ok items ∧ shapes first.items = shapes items := by
    rcases parseRustFile_cases X₁ cl₁ cp₁ code₁ (Ψ := fun _ _ _ _ _ _ => True) (fun _ _ => true_inductive) with
      ⟨d, hd, -⟩ | ⟨us, loc, errs, hl, hp, hr⟩ | ⟨f, us, items, q, hr, hp, hf⟩
    · rw [h₁] at hd; cases hd
    · rw [hok] at hr; cases hr
    · have hl := hf.lexed
      rw [h₁] at hl; cases hl
      rw [hok] at hr; cases hr
      rw [htoks] at hp
      exact ⟨items, hp, by rw [← shapes_bareL, hf.took.bare, shapes_bareL]⟩
  -- the tokens of both
  obtain ⟨A, B, hAB, hA, hB⟩ := hk.symm.of_append
  have hlen : A.length = toks.length := hA.length
  have h6 := parseTokens_sim (hA.symm.append (.refl [eof])) cp₁
  rw [hp] at h6
  generalize hx : parseTokens (A ++ [eof]) cp₁ = x at h6
  cases h6 with
  | @ok _ items' hlike =>
  have h7 := parseTokens_append (clear' := cp) (hb.sameKinds hA.symm) h4
    (hA.eof (fun u hu => by simpa using h5 u hu)) (EofLast.of_sameKinds hB (hsrc h₂).eof) hx
  rw [← hAB] at h7
  have hs := parseTokens_sim hB.symm cp
  -- the two outcomes
  rcases parseRustFile_cases X₂ cl₂ cp code₂ (Ψ := fun _ _ _ _ _ _ => True) (fun _ _ => true_inductive) with
    ⟨d, hd, -⟩ | ⟨us, loc, errs, hl, hp2, hr⟩ | ⟨f, us, its, q, hr, hp2, hf⟩
  · rw [h₂] at hd; cases hd
  · rw [h₂] at hl; cases hl
    rw [hp2] at hs
    generalize hy : parseTokens B cp = y at hs
    cases hs with
    | err h8 h9 =>
    rw [hy] at h7
    rcases parseRustFile_cases X cl cp code (Ψ := fun _ _ _ _ _ _ => True) (fun _ _ => true_inductive) with
      ⟨d, hd, -⟩ | ⟨us, loc', errs', hl, hp', hr'⟩ | ⟨f, us, items, q, hr', hp', hf⟩
    · rw [h] at hd; cases hd
    · rw [h] at hl; cases hl
      rw [hp'] at h7
      cases h7
      rw [hr, hr']
      exact ⟨rfl, _, _, _, h8, by rw [hAB, ← hlen, Nat.add_comm, up_get?]; exact h9, rfl, rfl⟩
    · have hl := hf.lexed
      rw [h] at hl; cases hl
      rw [hp'] at h7
      cases h7
  · have hl := hf.lexed
    rw [h₂] at hl; cases hl
    rw [hp2] at hs
    generalize hy : parseTokens B cp = y at hs
    cases hs with
    | ok h8 =>
    rw [hy] at h7
    rcases parseRustFile_cases X cl cp code (Ψ := fun _ _ _ _ _ _ => True) (fun _ _ => true_inductive) with
      ⟨d, hd, -⟩ | ⟨us, loc', errs', hl, hp', hr'⟩ | ⟨f', us, items, q, hr', hp', hf'⟩
    · rw [h] at hd; cases hd
    · rw [h] at hl; cases hl
      rw [hp'] at h7
      cases h7
    · have hl := hf'.lexed
      rw [h] at hl; cases hl
      rw [hp'] at h7
      cases h7
      rw [hr, hr']
      show shapes f'.items = shapes first.items ++ shapes f.items
      rw [← shapes_bareL f'.items, hf'.took.bare, shapes_bareL, shapes_append, ← hlike, ← h8, hsh, ← shapes_bareL f.items, hf.took.bare,
        shapes_bareL]

/-- In particular: if the second text is accepted, then so is the text made of both, and conversely. -/
theorem C59_accepted_iff (X₁ X₂ X : Xid) (cl₁ cl₂ cl cp₁ cp : Bool) (code₁ code₂ code : Text) (ts₁ ts₂ ts toks : List Token) (eof : Token)
    (first : File) (h₁ : lex X₁ cl₁ code₁ = .ok ts₁) (h₂ : lex X₂ cl₂ code₂ = .ok ts₂) (h : lex X cl code = .ok ts)
    (htoks : ts₁.filter (fun t => !isTrivia t) = toks ++ [eof]) (hb : Matched toks)
    (hok : parseRustFile X₁ cl₁ cp₁ code₁ = .ok first)
    (hk : SameKinds (toks ++ ts₂.filter fun t => !isTrivia t) (ts.filter fun t => !isTrivia t)) :
    (∃ second, parseRustFile X₂ cl₂ cp code₂ = .ok second) ↔ (∃ both, parseRustFile X cl cp code = .ok both) := by
  have h := C59_append X₁ X₂ X cl₁ cl₂ cl cp₁ cp code₁ code₂ code ts₁ ts₂ ts toks eof first h₁ h₂ h htoks hb hok hk
  unfold Appended at h
  split at h <;> simp_all

/-- For the examples: whether all brackets are closed, with these still to be closed. -/
def closes (s : List TK) (ts : List Token) : Bool :=
  match ts with
  | [] => s.isEmpty
  | t :: ts =>
    match t.kind? with
    | some .LeftParen => closes (.RightParen :: s) ts
    | some .LeftSquare => closes (.RightSquare :: s) ts
    | some .LeftCurly => closes (.RightCurly :: s) ts
    | some .RightParen => match s with | .RightParen :: s => closes s ts | _ => false
    | some .RightSquare => match s with | .RightSquare :: s => closes s ts | _ => false
    | some .RightCurly => match s with | .RightCurly :: s => closes s ts | _ => false
    | _ => closes s ts

/-- What `closes` says. -/
def Closes : List TK → List Token → Prop
  | [], ts => Matched ts
  | k :: s, ts => ∃ inner c rest, ts = inner ++ c :: rest ∧ Matched inner ∧ c.kind? = some k ∧ Closes s rest

theorem Closes.plain {s : List TK} {t : Token} {ts : List Token} (ht : NoBracket t) (h : Closes s ts) : Closes s (t :: ts) := by
  cases s with
  | nil => exact Matched.plain ht h
  | cons k s =>
    obtain ⟨i, c, r, rfl, h1, h2, h3⟩ := h
    exact ⟨t :: i, c, r, rfl, .plain ht h1, h2, h3⟩

theorem Closes.group {s : List TK} {t : Token} {ts : List Token} {ko kc : TK} (ht : t.kind? = some ko) (hp : Pair ko kc)
    (h : Closes (kc :: s) ts) : Closes s (t :: ts) := by
  obtain ⟨i, c, r, rfl, h1, h2, h3⟩ := h
  cases s with
  | nil => exact Matched.group ht h2 hp h1 h3
  | cons k s =>
    obtain ⟨i', c', r', rfl, h4, h5, h6⟩ := h3
    exact ⟨t :: i ++ c :: i', c', r', by simp, .group ht h2 hp h1 h4, h5, h6⟩

theorem of_closes {ts : List Token} : ∀ {s}, closes s ts = true → Closes s ts := by
  induction ts with
  | nil => intro s h; cases s <;> simp [closes] at h; exact Matched.nil
  | cons t ts ih =>
    intro s h
    unfold closes at h
    split at h
    · exact .group ‹_› .paren (ih h)
    · exact .group ‹_› .square (ih h)
    · exact .group ‹_› .curly (ih h)
    · split at h
      · exact ⟨[], t, ts, rfl, .nil, ‹_›, ih h⟩
      · cases h
    · split at h
      · exact ⟨[], t, ts, rfl, .nil, ‹_›, ih h⟩
      · cases h
    · split at h
      · exact ⟨[], t, ts, rfl, .nil, ‹_›, ih h⟩
      · cases h
    · refine .plain ?_ (ih h)
      intro k hk
      simp at hk
      rcases hk with rfl | rfl | rfl | rfl | rfl | rfl <;> assumption

theorem Matched.of_closes {ts : List Token} (h : closes [] ts = true) : Matched ts := Props.of_closes h

/-- The hypotheses are met by two functions, written one after the other: the second one is accepted. -/
example : ∃ ts₁ ts₂ ts toks eof first second, lex asciiXid true c!"#[a(b)] fn f(x: T) -> [u8; 2] { g!{x[1]} }" = .ok ts₁ ∧
    lex asciiXid true c!"fn g() {}" = .ok ts₂ ∧
    lex asciiXid true c!"#[a(b)] fn f(x: T) -> [u8; 2] { g!{x[1]} }\nfn g() {}" = .ok ts ∧
    ts₁.filter (fun t => !isTrivia t) = toks ++ [eof] ∧ Matched toks ∧ toks.length = 30 ∧
    parseRustFile asciiXid true true c!"#[a(b)] fn f(x: T) -> [u8; 2] { g!{x[1]} }" = .ok first ∧
    parseRustFile asciiXid true true c!"fn g() {}" = .ok second ∧
    SameKinds (toks ++ ts₂.filter fun t => !isTrivia t) (ts.filter fun t => !isTrivia t) := by
  obtain ⟨ts₁, toks, eof, rest, h1, h2, h⟩ := of_cutAt (n := 30) (r := lex asciiXid true c!"#[a(b)] fn f(x: T) -> [u8; 2] { g!{x[1]} }")
    (p := fun _ toks _ rest => LexResult.okWith (lex asciiXid true c!"fn g() {}") fun ts₂ =>
      LexResult.okWith (lex asciiXid true c!"#[a(b)] fn f(x: T) -> [u8; 2] { g!{x[1]} }\nfn g() {}") fun ts =>
        rest.isEmpty && closes [] toks && toks.length == 30 &&
        sameKinds (toks ++ ts₂.filter fun t => !isTrivia t) (ts.filter fun t => !isTrivia t))
    (by decide +kernel)
  obtain ⟨ts₂, h3, h⟩ := LexResult.of_okWith h
  obtain ⟨ts, h4, h⟩ := LexResult.of_okWith h
  simp only [Bool.and_eq_true, beq_iff_eq, List.isEmpty_iff] at h
  obtain ⟨⟨⟨rfl, h5⟩, h6⟩, h7⟩ := h
  obtain ⟨first, h8⟩ := FileResult.of_isOk (r := parseRustFile asciiXid true true c!"#[a(b)] fn f(x: T) -> [u8; 2] { g!{x[1]} }")
    (by decide +kernel)
  obtain ⟨second, h9⟩ := FileResult.of_isOk (r := parseRustFile asciiXid true true c!"fn g() {}") (by decide +kernel)
  exact ⟨ts₁, ts₂, ts, toks, eof, first, second, h1, h3, h4, h2, Matched.of_closes h5, h6, h8, h9, sameKinds_iff h7⟩

/-- The hypotheses are met by a function and a text that is rejected. -/
example : ∃ ts₁ ts₂ ts toks eof first errs, lex asciiXid true c!"fn f() { a::<b>(c) }" = .ok ts₁ ∧
    lex asciiXid true c!"struct } fn" = .ok ts₂ ∧ lex asciiXid true c!"fn f() { a::<b>(c) } struct } fn" = .ok ts ∧
    ts₁.filter (fun t => !isTrivia t) = toks ++ [eof] ∧ Matched toks ∧
    parseRustFile asciiXid true true c!"fn f() { a::<b>(c) }" = .ok first ∧
    parseRustFile asciiXid true true c!"struct } fn" = .parseErr 7 errs ∧
    SameKinds (toks ++ ts₂.filter fun t => !isTrivia t) (ts.filter fun t => !isTrivia t) := by
  obtain ⟨ts₁, toks, eof, rest, h1, h2, h⟩ := of_cutAt (n := 14) (r := lex asciiXid true c!"fn f() { a::<b>(c) }")
    (p := fun _ toks _ rest => LexResult.okWith (lex asciiXid true c!"struct } fn") fun ts₂ =>
      LexResult.okWith (lex asciiXid true c!"fn f() { a::<b>(c) } struct } fn") fun ts =>
        rest.isEmpty && closes [] toks &&
        sameKinds (toks ++ ts₂.filter fun t => !isTrivia t) (ts.filter fun t => !isTrivia t))
    (by decide +kernel)
  obtain ⟨ts₂, h3, h⟩ := LexResult.of_okWith h
  obtain ⟨ts, h4, h⟩ := LexResult.of_okWith h
  simp only [Bool.and_eq_true, List.isEmpty_iff] at h
  obtain ⟨⟨rfl, h5⟩, h7⟩ := h
  obtain ⟨first, h8⟩ := FileResult.of_isOk (r := parseRustFile asciiXid true true c!"fn f() { a::<b>(c) }") (by decide +kernel)
  obtain ⟨errs, h9⟩ := FileResult.of_errAt (r := parseRustFile asciiXid true true c!"struct } fn") (n := 7) (by decide +kernel)
  exact ⟨ts₁, ts₂, ts, toks, eof, first, errs, h1, h3, h4, h2, Matched.of_closes h5, h8, h9, sameKinds_iff h7⟩

end Verif.Props
