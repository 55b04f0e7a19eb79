import Verif.Props.Number
/-!
# Property theorem: any word can be a name when it is written raw, and words can be exchanged (C74)
-/

namespace Verif.Props
open Verif Verif.Spec

/-- The token of a name or a keyword. -/
def IsWord (k : TK) : Prop := k = .Ident ∨ ∃ w, keywordText k = some w

theorem keyword_table : ∀ k, (match keywordText k with
    | none => true
    | some (c :: cs) => (c :: cs).all fun d => decide (d.toNat < 128) && (d.isAlphanum || d == '_')
    | some [] => false) = true ∧ (match keywordText k with
    | some (c :: _) => c.isAlpha
    | _ => true) = true := by
  intro k
  cases k <;> exact ⟨by decide, by decide⟩

/-- Keywords are words. -/
theorem keyword_word {X : Xid} (hX : Sane X) {k : TK} {w : Text} (h : keywordText k = some w) : Word X w := by
  obtain ⟨h1, h2⟩ := keyword_table k
  rw [h] at h1 h2
  cases w with
  | nil => cases h1
  | cons c cs =>
    simp only [List.all_eq_true, Bool.and_eq_true, decide_eq_true_eq] at h1
    refine ⟨c, cs, rfl, .inl ?_, fun d hd => ?_⟩
    · rw [hX.start c (h1 c (by simp)).1]; exact h2
    · have := h1 d (by simp [hd])
      rw [hX.cont d this.1]
      simpa using this.2

theorem word_letter {X : Xid} (hX : Sane X) (hS : ∀ c, X.start c = true → X.cont c = true) {w : Text} (h : Word X w) :
    ∃ c cs, w = c :: cs ∧ Letter X c ∧ '"' ∉ w := by
  obtain ⟨c, cs, rfl, hc, hcs⟩ := h
  refine ⟨c, cs, rfl, ⟨hc, ?_⟩, ?_⟩
  · rcases hc with hc | rfl
    · exact hS c hc
    · rw [hX.cont '_' (by decide)]; decide
  · simp only [List.mem_cons, not_or]
    refine ⟨fun e => not_start hX '"' (by decide) (e ▸ hc), fun hm => ?_⟩
    have := hcs _ hm
    rw [not_cont hX '"' (by decide)] at this
    cases this

/-- How a name or keyword is written. -/
theorem spelling_isWord {X : Xid} (hX : Sane X) (hS : ∀ c, X.start c = true → X.cont c = true) {o : Nat} {k : TK} {e : Extent} {w b : Text}
    (h : Spelling X o (.plain k e) w b) (hk : IsWord k) : (∃ c cs, w = c :: cs ∧ Letter X c) ∧ NoCont X b := by
  have no : ∀ {k' : TK}, k' = k → k' ≠ .Ident → keywordText k' = none → False := by
    rintro k' rfl h1 h2
    rcases hk with hk | ⟨w, hk⟩
    · exact h1 hk
    · rw [h2] at hk; cases hk
  have sym : ∀ (k : TK) (w : Text), symbolText k = some w → k ≠ .Ident ∧ keywordText k = none := by
    intro k w h
    cases k <;> first | exact ⟨by decide, rfl⟩ | cases h
  have blk : ∀ (k : TK) (w : Text), blockOpener k = some w → k ≠ .Ident ∧ keywordText k = none := by
    intro k w h
    cases k <;> first | exact ⟨by decide, rfl⟩ | cases h
  cases h with
  | ident h1 _ h2 _ _ =>
    obtain ⟨c, cs, e, hc, -⟩ := word_letter hX hS h1
    exact ⟨⟨c, cs, e, hc⟩, h2⟩
  | keyword h1 h2 =>
    obtain ⟨c, cs, e, hc, -⟩ := word_letter hX hS (keyword_word hX h1)
    exact ⟨⟨c, cs, e, hc⟩, h2⟩
  | rawIdent h1 h2 => exact ⟨⟨'r', _, rfl, letter_ascii hX _ (by decide)⟩, h2⟩
  | symbol h1 => exact (no rfl (sym _ _ h1).1 (sym _ _ h1).2).elim
  | block h1 => exact (no rfl (blk _ _ h1).1 (blk _ _ h1).2).elim
  | line h1 => exact (no rfl (by rcases h1 with rfl | rfl | rfl <;> decide) (by rcases h1 with rfl | rfl | rfl <;> rfl)).elim
  | _ => exact (no rfl (by decide) rfl).elim

theorem swap_isWord {X : Xid} (hX : Sane X) (hS : ∀ c, X.start c = true → X.cont c = true) {cl : Bool} {a w w' b : Text} {k k' : TK}
    {ts : List Token} (h : lex X cl (a ++ w ++ b) = .ok ts) (hk : IsWord k) (ht : .plain k ⟨blen a, blen (a ++ w)⟩ ∈ ts)
    (hc : ∃ c cs, w' = c :: cs ∧ Letter X c) (hq : '"' ∉ w') (hw : NoCont X b → Spelling X (blen a) (.plain k' ⟨blen a, blen (a ++ w')⟩) w' b) :
    ∃ A B : List Token, ts = A ++ .plain k ⟨blen a, blen (a ++ w)⟩ :: B.map (·.moved (blen (a ++ w))) ∧
      lex X cl (a ++ w' ++ b) = .ok (A ++ .plain k' ⟨blen a, blen (a ++ w')⟩ :: B.map (·.moved (blen (a ++ w')))) := by
  have hend : k ≠ .EndOfFile := by rintro rfl; rcases hk with hk | ⟨w, hk⟩ <;> cases hk
  refine swap_word hX (by simpa [Token.kind?] using hend) h ht rfl fun o h1 => ?_
  obtain ⟨⟨c, cs, rfl, hl⟩, hb⟩ := spelling_isWord hX hS h1 hk
  obtain ⟨c', cs', rfl, hl'⟩ := hc
  refine ⟨⟨c, c', _, _, rfl, rfl, .inr ⟨hl, hl'⟩⟩, closes_plain hq, ?_, hw hb⟩
  rintro ⟨d, t, e, hd⟩
  cases e
  have key : ∀ d ∈ digitHeads, d ∈ symHeads ++ c!"'\"0123456789" := by decide
  exact (not_start hX _ (key _ hd) hl.1).elim

/-- A name or keyword is replaced by a word written raw, which may be any word, also a keyword.  It is then a name, and nothing else about
the tokens changes, but those behind it are moved. -/
theorem C74_raw_tokens (X : Xid) (hX : Sane X) (hS : ∀ c, X.start c = true → X.cont c = true) (cl : Bool) (a w v b : Text) (k : TK)
    (ts : List Token) (h : lex X cl (a ++ w ++ b) = .ok ts) (hk : IsWord k) (ht : .plain k ⟨blen a, blen (a ++ w)⟩ ∈ ts) (hv : Word X v) :
    ∃ A B : List Token, ts = A ++ .plain k ⟨blen a, blen (a ++ w)⟩ :: B.map (·.moved (blen (a ++ w))) ∧
      lex X cl (a ++ (c!"r#" ++ v) ++ b) =
        .ok (A ++ .plain .Ident ⟨blen a, blen (a ++ (c!"r#" ++ v))⟩ :: B.map (·.moved (blen (a ++ (c!"r#" ++ v))))) := by
  refine swap_isWord hX hS h hk ht ⟨'r', _, rfl, letter_ascii hX _ (by decide)⟩ ?_ fun hb => ?_
  · obtain ⟨_, _, -, -, hq⟩ := word_letter hX hS hv
    simpa using hq
  · rw [blen_append a]
    exact .rawIdent hv hb

/-- A name is replaced by a word written raw: the result is the same, at the places where things are in the new text. -/
theorem C74_raw (X : Xid) (hX : Sane X) (hS : ∀ c, X.start c = true → X.cont c = true) (cl cp : Bool) (a w v b : Text)
    (ts : List Token) (h : lex X cl (a ++ w ++ b) = .ok ts) (ht : .plain .Ident ⟨blen a, blen (a ++ w)⟩ ∈ ts) (hv : Word X v) :
    parseRustFile X cl cp (a ++ (c!"r#" ++ v) ++ b) =
      (parseRustFile X cl cp (a ++ w ++ b)).placed (replacedAt 0 (blen a) (blen (a ++ w)) (blen (a ++ (c!"r#" ++ v)))) := by
  have hne := Place.lex_nonempty h _ ht (by simp [Token.kind?])
  obtain ⟨A, B, rfl, h'⟩ := C74_raw_tokens X hX hS cl a w v b .Ident ts h (.inl rfl) ht hv
  exact Place.replace_token h h' hne (by simp) (.inl rfl) (.inl rfl) fun _ => rfl

/-- A name or keyword is replaced by a keyword.  Only that token changes, and those behind it are moved. -/
theorem C74_keyword_tokens (X : Xid) (hX : Sane X) (hS : ∀ c, X.start c = true → X.cont c = true) (cl : Bool) (a w v b : Text) (k k' : TK)
    (ts : List Token) (h : lex X cl (a ++ w ++ b) = .ok ts) (hk : IsWord k) (ht : .plain k ⟨blen a, blen (a ++ w)⟩ ∈ ts)
    (hv : keywordText k' = some v) :
    ∃ A B : List Token, ts = A ++ .plain k ⟨blen a, blen (a ++ w)⟩ :: B.map (·.moved (blen (a ++ w))) ∧
      lex X cl (a ++ v ++ b) = .ok (A ++ .plain k' ⟨blen a, blen (a ++ v)⟩ :: B.map (·.moved (blen (a ++ v)))) := by
  obtain ⟨c, cs, e, hc, hq⟩ := word_letter hX hS (keyword_word hX hv)
  refine swap_isWord hX hS h hk ht ⟨c, cs, e, hc⟩ hq fun hb => ?_
  rw [blen_append a]
  exact .keyword hv hb

/-- A name or keyword is replaced by a name. -/
theorem C74_name_tokens (X : Xid) (hX : Sane X) (hS : ∀ c, X.start c = true → X.cont c = true) (cl : Bool) (a w v b : Text) (k : TK)
    (ts : List Token) (h : lex X cl (a ++ w ++ b) = .ok ts) (hk : IsWord k) (ht : .plain k ⟨blen a, blen (a ++ w)⟩ ∈ ts)
    (hv : Word X v) (hkv : ∀ k, keywordText k ≠ some v) (hl : ¬ LiteralAt (v ++ b)) (hr : ¬ c!"r#" <+: v ++ b) :
    ∃ A B : List Token, ts = A ++ .plain k ⟨blen a, blen (a ++ w)⟩ :: B.map (·.moved (blen (a ++ w))) ∧
      lex X cl (a ++ v ++ b) = .ok (A ++ .plain .Ident ⟨blen a, blen (a ++ v)⟩ :: B.map (·.moved (blen (a ++ v)))) := by
  obtain ⟨c, cs, e, hc, hq⟩ := word_letter hX hS hv
  refine swap_isWord hX hS h hk ht ⟨c, cs, e, hc⟩ hq fun hb => ?_
  rw [blen_append a]
  exact .ident hv hkv hb hl hr

/-- The hypotheses are met: the name of a function becomes `r#match`, which is otherwise a keyword. -/
example : (∃ ts, lex asciiXid true (c!"fn " ++ c!"x" ++ c!"() {}") = .ok ts ∧
      .plain .Ident ⟨blen c!"fn ", blen (c!"fn " ++ c!"x")⟩ ∈ ts) ∧
    Word asciiXid c!"match" ∧ keywordText .Match = some c!"match" ∧ IsWord .Ident ∧ IsWord .Match ∧
    (∃ f, parseRustFile asciiXid true true c!"fn r#match() {}" = .ok f) ∧ ¬ ∃ f, parseRustFile asciiXid true true c!"fn match() {}" = .ok f := by
  refine ⟨?_, ⟨'m', c!"atch", rfl, by decide, by decide⟩, rfl, .inl rfl, .inr ⟨_, rfl⟩, ?_, ?_⟩
  · obtain ⟨ts, h1, h2⟩ := LexResult.of_okWith (r := lex asciiXid true (c!"fn " ++ c!"x" ++ c!"() {}"))
      (p := fun ts => ts.contains (.plain .Ident ⟨blen c!"fn ", blen (c!"fn " ++ c!"x")⟩)) (by decide +kernel)
    exact ⟨ts, h1, by simpa using h2⟩
  · have : (match parseRustFile asciiXid true true c!"fn r#match() {}" with | .ok _ => true | _ => false) = true := by decide +kernel
    split at this
    · rename_i f h; exact ⟨f, h⟩
    · cases this
  · have : (match parseRustFile asciiXid true true c!"fn match() {}" with | .ok _ => true | _ => false) = false := by decide +kernel
    rintro ⟨f, h⟩
    rw [h] at this
    cases this

end Verif.Props
