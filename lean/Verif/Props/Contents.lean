import Verif.Proofs.HeadSwap
import Verif.Props.Rename
/-!
# Property theorem: what is in a string or in a comment does not matter (C68)
-/

namespace Verif.Props
open Verif Verif.Spec

/-- `w`, in front of `b`, is a comment of kind `k`. -/
def CommentText (k : TK) (w b : Text) : Prop :=
  commentKind (w ++ b) = some k ∧ ((isLineKind k ∧ LineTo w b) ∨ ∃ op, blockOpener k = some op ∧ BlockTo op w b)

theorem commentKind_head {s : Text} {k : TK} (h : commentKind s = some k) : ∃ d t, s = '/' :: d :: t ∧ (d = '/' ∨ d = '*') := by
  unfold commentKind at h
  split at h
  · rename_i h1
    rw [List.isPrefixOf_iff_prefix] at h1
    obtain ⟨t, rfl⟩ := h1
    exact ⟨_, t, rfl, .inl rfl⟩
  · split at h
    · rename_i h1
      rw [List.isPrefixOf_iff_prefix] at h1
      obtain ⟨t, rfl⟩ := h1
      exact ⟨_, t, rfl, .inr rfl⟩
    · cases h

theorem CommentText.head {k : TK} {w b : Text} (h : CommentText k w b) : ∃ d t, w = '/' :: d :: t ∧ (d = '/' ∨ d = '*') := by
  obtain ⟨hk, hb⟩ := h
  obtain ⟨d, t, e, hd⟩ := commentKind_head hk
  rcases hb with ⟨-, hl⟩ | ⟨op, ho, hb⟩
  · match w with
    | [] => simp at e; have := hl.2 _ _ e; cases this
    | [x] =>
      simp at e
      have := hl.2 _ _ e.2
      subst this
      rcases hd with h | h <;> cases h
    | x :: y :: r => simp at e; obtain ⟨rfl, rfl, -⟩ := e; exact ⟨y, r, rfl, hd⟩
  · have : ∃ x y r, op = x :: y :: r := by
      cases k <;> simp [blockOpener] at ho <;> subst ho <;> exact ⟨_, _, _, rfl⟩
    obtain ⟨x, y, r, rfl⟩ := this
    rcases hb with ⟨inner, rfl, -⟩ | ⟨inner, rfl, -⟩
    · simp at e; obtain ⟨rfl, rfl, -⟩ := e; exact ⟨y, _, rfl, hd⟩
    · simp at e; obtain ⟨rfl, rfl, -⟩ := e; exact ⟨y, _, rfl, hd⟩

theorem CommentText.kind {k : TK} {w b : Text} (h : CommentText k w b) : k ∈ commentKinds := by
  rcases h.2 with ⟨rfl | rfl | rfl, -⟩ | ⟨op, ho, -⟩
  · decide
  · decide
  · decide
  · cases k <;> first | decide | cases ho

theorem CommentText.spelling {X : Xid} {k : TK} {w b : Text} (h : CommentText k w b) (o : Nat) :
    Spelling X o (.plain k ⟨o, o + blen w⟩) w b := by
  rcases h.2 with ⟨h1, h2⟩ | ⟨op, h1, h2⟩
  · exact .line h1 h.1 h2
  · exact .block h1 h.1 h2

/-- How a comment token is written. -/
theorem spelling_comment {X : Xid} {o : Nat} {t : Token} {w b : Text} (h : Spelling X o t w b) {k : TK} (hk : t.kind? = some k)
    (hc : k ∈ commentKinds) : CommentText k w b := by
  cases h with
  | line h1 h2 h3 => cases hk; exact ⟨h2, .inl ⟨h1, h3⟩⟩
  | block h1 h2 h3 => cases hk; exact ⟨h2, .inr ⟨_, h1, h3⟩⟩
  | keyword h1 => cases hk; exfalso; cases k <;> first | exact absurd hc (by decide) | cases h1
  | symbol h1 => cases hk; exfalso; cases k <;> first | exact absurd hc (by decide) | cases h1
  | number => cases hk
  | _ => cases hk; exact absurd hc (by decide)

/-- How a string token is written. -/
theorem spelling_string {X : Xid} {o : Nat} {t : Token} {w b : Text} (h : Spelling X o t w b) (hk : t.kind? = some .String) : StrLit w := by
  cases h with
  | str h => exact h
  | keyword h1 => cases hk; cases h1
  | symbol h1 => cases hk; cases h1
  | line h1 => cases hk; rcases h1 with h | h | h <;> cases h
  | block h1 => cases hk; cases h1
  | number => cases hk
  | _ => cases hk

/-- The text of one token is replaced behind its first character. -/
theorem swap_tail {X : Xid} (hX : Sane X) {cl : Bool} {a w w' b : Text} {k : TK} {ts : List Token} (hk : k ≠ .EndOfFile)
    (h : lex X cl (a ++ w ++ b) = .ok ts) (ht : .plain k ⟨blen a, blen (a ++ w)⟩ ∈ ts)
    (hw : ∀ o, Spelling X o (.plain k ⟨blen a, blen (a ++ w)⟩) w b → ∃ c cs cs' r,
      (c = '"' ∨ c = '/' ∨ (c = '\'' ∧ Ticks (c :: cs ++ r) (c :: cs' ++ r))) ∧ w ++ b = c :: cs ++ r ∧ w' ++ b = c :: cs' ++ r ∧
      '"' ∉ cs' ∧ (c = '"' → ¬ StartsIn (· = '#') (cs' ++ r)) ∧ Spelling X (blen a) (.plain k ⟨blen a, blen (a ++ w')⟩) w' b) :
    ∃ A B : List Token, ts = A ++ .plain k ⟨blen a, blen (a ++ w)⟩ :: B.map (·.moved (blen (a ++ w))) ∧
      lex X cl (a ++ w' ++ b) = .ok (A ++ .plain k ⟨blen a, blen (a ++ w')⟩ :: B.map (·.moved (blen (a ++ w')))) := by
  rw [lex_spelled hX] at h
  obtain ⟨A, B0, rfl⟩ := List.append_of_mem ht
  obtain ⟨P, v, c0, he, h1, h2, h3, h4⟩ := spelled_tail hX (by simpa [Token.kind?] using hk) A h
  have hext := (spelling_ext hX h1).2.1
  simp only [Token.extent, Extent.mk.injEq] at hext
  rw [List.append_assoc] at he
  obtain ⟨rfl, he2⟩ := front_unique he (by omega)
  have hlen : blen w = blen v := by have := hext.2; rw [blen_append] at this; omega
  obtain ⟨rfl, rfl⟩ := front_unique he2 hlen
  obtain ⟨U, hU, rfl⟩ := spelled_base hX h2
  refine ⟨A, U, by rw [blen_append, Nat.zero_add], ?_⟩
  rw [lex_spelled hX]
  have h5 := spelled_moved hU (blen (a ++ w'))
  obtain ⟨c, cs, cs', r, hc, e1, e2, hq, hh, h6⟩ := hw _ h1
  have := h4 hc e1 e2 hq hh (by simpa using h6) (by simpa using h5)
  simpa using this

/-- The contents of a string are replaced by others without quotes, not starting with `#`.  It is still one string, and nothing else
about the tokens changes, but those behind it are moved. -/
theorem C68_string_tokens (X : Xid) (hX : Sane X) (cl : Bool) (a s s' b : Text) (ts : List Token)
    (h : lex X cl (a ++ (c!"\"" ++ s ++ c!"\"") ++ b) = .ok ts)
    (ht : .plain .String ⟨blen a, blen (a ++ (c!"\"" ++ s ++ c!"\""))⟩ ∈ ts)
    (hs : StrBody s') (hq : '"' ∉ s') (hh : ¬ StartsIn (· = '#') s') :
    ∃ A B : List Token, ts = A ++ .plain .String ⟨blen a, blen (a ++ (c!"\"" ++ s ++ c!"\""))⟩ ::
        B.map (·.moved (blen (a ++ (c!"\"" ++ s ++ c!"\"")))) ∧
      lex X cl (a ++ (c!"\"" ++ s' ++ c!"\"") ++ b) = .ok (A ++ .plain .String ⟨blen a, blen (a ++ (c!"\"" ++ s' ++ c!"\""))⟩ ::
        B.map (·.moved (blen (a ++ (c!"\"" ++ s' ++ c!"\""))))) := by
  refine swap_tail hX (by simp) h ht fun o _ => ⟨'"', s, s', '"' :: b, .inl rfl, by simp, by simp, hq, ?_, ?_⟩
  · rintro - ⟨d, t, e, rfl⟩
    cases s' with
    | nil => simp at e
    | cons x s' => simp at e; exact hh ⟨x, s', rfl, e.1⟩
  · rw [blen_append]
    exact .str ⟨s', hs, rfl⟩

/-- The result is then the same, at the places where things are in the new text. -/
theorem C68_string (X : Xid) (hX : Sane X) (cl cp : Bool) (a s s' b : Text) (ts : List Token)
    (h : lex X cl (a ++ (c!"\"" ++ s ++ c!"\"") ++ b) = .ok ts)
    (ht : .plain .String ⟨blen a, blen (a ++ (c!"\"" ++ s ++ c!"\""))⟩ ∈ ts)
    (hs : StrBody s') (hq : '"' ∉ s') (hh : ¬ StartsIn (· = '#') s') :
    parseRustFile X cl cp (a ++ (c!"\"" ++ s' ++ c!"\"") ++ b) = (parseRustFile X cl cp (a ++ (c!"\"" ++ s ++ c!"\"") ++ b)).placed
      (replacedAt 0 (blen a) (blen (a ++ (c!"\"" ++ s ++ c!"\""))) (blen (a ++ (c!"\"" ++ s' ++ c!"\"")))) := by
  have hne := Place.lex_nonempty h _ ht (by simp [Token.kind?])
  obtain ⟨A, B, rfl, h'⟩ := C68_string_tokens X hX cl a s s' b ts h ht hs hq hh
  exact Place.replace_token h h' hne (by simp) (.inl rfl) (.inl rfl) fun _ => rfl

/-- A comment is replaced by another one of the same kind, without quotes.  Nothing else about the tokens changes, but those behind it
are moved. -/
theorem C68_comment_tokens (X : Xid) (hX : Sane X) (cl : Bool) (a w w' b : Text) (k : TK) (ts : List Token)
    (h : lex X cl (a ++ w ++ b) = .ok ts) (ht : .plain k ⟨blen a, blen (a ++ w)⟩ ∈ ts) (hw : CommentText k w' b) (hq : '"' ∉ w') :
    ∃ A B : List Token, ts = A ++ .plain k ⟨blen a, blen (a ++ w)⟩ :: B.map (·.moved (blen (a ++ w))) ∧
      lex X cl (a ++ w' ++ b) = .ok (A ++ .plain k ⟨blen a, blen (a ++ w')⟩ :: B.map (·.moved (blen (a ++ w')))) := by
  have hkind := hw.kind
  refine swap_tail hX (by rintro rfl; exact absurd hkind (by decide)) h ht fun o h1 => ?_
  obtain ⟨d, t, rfl, hd⟩ := (spelling_comment h1 rfl hkind).head
  obtain ⟨d', t', rfl, hd'⟩ := hw.head
  refine ⟨'/', d :: t, d' :: t', b, .inr (.inl rfl), by simp, by simp, fun hm => hq (by simp at hm ⊢; exact hm), ?_, ?_⟩
  · intro h
    cases h
  · rw [blen_append]
    exact hw.spelling _

/-- The result is then the same, at the places where things are in the new text.  The parser may take a place up to two bytes inside the
comment for the end of what is before it (see C51); this stays too. -/
theorem C68_comment (X : Xid) (hX : Sane X) (cl cp : Bool) (a w w' b : Text) (k : TK) (ts : List Token)
    (h : lex X cl (a ++ w ++ b) = .ok ts) (ht : .plain k ⟨blen a, blen (a ++ w)⟩ ∈ ts) (hw : CommentText k w' b) (hq : '"' ∉ w')
    (hlong : 2 < blen w) :
    parseRustFile X cl cp (a ++ w' ++ b) =
      (parseRustFile X cl cp (a ++ w ++ b)).placed (replacedAt 2 (blen a) (blen (a ++ w)) (blen (a ++ w'))) := by
  have hkind := hw.kind
  obtain ⟨A, B, rfl, h'⟩ := C68_comment_tokens X hX cl a w w' b k ts h ht hw hq
  refine Place.replace_token h h' (by simp; omega) ?_ (.inr (.inl (by decide))) (.inr (.inl (by decide))) fun n => ?_
  · obtain ⟨d', t', rfl, hd'⟩ := hw.head
    have := d'.utf8Size_pos
    have h2 : ('/' : Char).utf8Size = 1 := by decide
    simp
    omega
  · cases k <;> first | exact absurd hkind (by decide) | rfl

/-- The hypotheses are met: a string with a quote and something like a comment in it is replaced. -/
example : (∃ ts, lex asciiXid true (c!"fn f() { g(1, " ++ (c!"\"" ++ c!"\\\" // \\n" ++ c!"\"") ++ c!") }") = .ok ts ∧
      .plain .String ⟨blen c!"fn f() { g(1, ", blen (c!"fn f() { g(1, " ++ (c!"\"" ++ c!"\\\" // \\n" ++ c!"\""))⟩ ∈ ts) ∧
    StrBody c!"/* '\\\\" ∧ '"' ∉ c!"/* '\\\\" ∧ ¬ StartsIn (· = '#') c!"/* '\\\\" := by
  refine ⟨?_, ?_, by decide, ?_⟩
  · obtain ⟨ts, h1, h2⟩ := LexResult.of_okWith
      (r := lex asciiXid true (c!"fn f() { g(1, " ++ (c!"\"" ++ c!"\\\" // \\n" ++ c!"\"") ++ c!") }"))
      (p := fun ts => ts.contains (.plain .String ⟨blen c!"fn f() { g(1, ", blen (c!"fn f() { g(1, " ++ (c!"\"" ++ c!"\\\" // \\n" ++ c!"\""))⟩)) (by decide +kernel)
    exact ⟨ts, h1, by simpa using h2⟩
  · exact .plain (by decide) (by decide) (.plain (by decide) (by decide) (.plain (by decide) (by decide) (.plain (by decide) (by decide) (.esc .nil))))
  · rintro ⟨d, t, e, rfl⟩
    simp at e

/-- The hypotheses are met: a comment, in front of a token that is cut, is replaced by one with a whole program in it. -/
example : (∃ ts, lex asciiXid true (c!"type T = A<B<u8" ++ c!"/* x */" ++ c!">>;") = .ok ts ∧
      .plain .CommentBlock ⟨blen c!"type T = A<B<u8", blen (c!"type T = A<B<u8" ++ c!"/* x */")⟩ ∈ ts) ∧
    CommentText .CommentBlock c!"/* fn f() {} // */" c!">>;" ∧ '"' ∉ c!"/* fn f() {} // */" ∧ 2 < blen c!"/* x */" := by
  refine ⟨?_, ⟨by decide, .inr ⟨_, rfl, .inl ⟨c!" fn f() {} // ", by decide, ⟨c!">>;", by decide⟩, ?_⟩⟩⟩, by decide, by decide⟩
  · obtain ⟨ts, h1, h2⟩ := LexResult.of_okWith (r := lex asciiXid true (c!"type T = A<B<u8" ++ c!"/* x */" ++ c!">>;"))
      (p := fun ts => ts.contains (.plain .CommentBlock ⟨blen c!"type T = A<B<u8", blen (c!"type T = A<B<u8" ++ c!"/* x */")⟩)) (by decide +kernel)
    exact ⟨ts, h1, by simpa using h2⟩
  · intro a' b' e
    apply Classical.byContradiction
    intro hl
    have h1 : c!"*/" <+: (c!" fn f() {} // " ++ c!"*/" ++ c!">>;").drop a'.length := by
      rw [e]; simp
    have h2 : ∀ n < 14, ¬ c!"*/" <+: (c!" fn f() {} // " ++ c!"*/" ++ c!">>;").drop n := by decide
    exact h2 a'.length (by simpa using hl) h1

/-- The condition on the hash is needed: behind `br#` it can complete a raw byte string. -/
example : (∃ ts, lex asciiXid true c!"br#\"a\"\"b\" // \"" = .ok ts ∧ ts.length = 7) ∧ ∃ ts, lex asciiXid true c!"br#\"a\"\"#b\" // \"" = .ok ts ∧ ts.length = 3 := by
  refine ⟨?_, ?_⟩
  · obtain ⟨ts, h1, h2⟩ := LexResult.of_okWith (r := lex asciiXid true c!"br#\"a\"\"b\" // \"") (p := fun ts => ts.length == 7) (by decide +kernel)
    exact ⟨ts, h1, by simpa using h2⟩
  · obtain ⟨ts, h1, h2⟩ := LexResult.of_okWith (r := lex asciiXid true c!"br#\"a\"\"#b\" // \"") (p := fun ts => ts.length == 3) (by decide +kernel)
    exact ⟨ts, h1, by simpa using h2⟩

end Verif.Props
