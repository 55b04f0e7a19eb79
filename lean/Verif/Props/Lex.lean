import Verif.Proofs.LexComplete
import Verif.Proofs.LexTables
/-!
# Property theorems about the tokenizer (C01-C14)

`(Tokens.new code).calls X clear n` are the results of the first `n` calls of the public token iterator on `code`;
`lex X clear code` is what `parse_rust_file` gets by draining it.  `X` are arbitrary Unicode identifier tables and
`clear` is the unknown detail of `peresil` (see DESIGN.md); everything is for all of them.
-/

namespace Verif.Props
open Verif Verif.Spec

attribute [local irreducible] singleToken

/-- ASCII identifier tables, for the examples. -/
def asciiXid : Xid where
  start c := c.isAlpha
  cont c := c.isAlphanum || c = '_'

/-- The token iterator yields `t` at some call. -/
def Yields (X : Xid) (clear : Bool) (code : Text) (t : Token) : Prop :=
  ∃ n, some (.tok t) ∈ (Tokens.new code).calls X clear n

theorem yields_of_lex {X clear code ts} (h : lex X clear code = .ok ts) {t : Token} (ht : t ∈ ts) :
    Yields X clear code t := by
  refine ⟨ts.length, ?_⟩
  have := lex_ok_calls h 0
  simp at this
  rw [this]
  exact List.mem_map_of_mem ht

theorem Yields.shape {X clear code t} (h : Yields X clear code t) :
    t = .plain .EndOfFile ⟨blen code, blen code⟩ ∨
    ∃ pre body post l, code = pre ++ body ++ post ∧
      singleToken X ⟨body ++ post, blen pre⟩ = (.ok ⟨post, blen pre + blen body⟩ t, l) ∧
      TokenShape X (blen pre) t body post := by
  obtain ⟨n, h⟩ := h
  exact calls_tok (LexInv.new code) h

/-- Facts about a yielded token of a kind other than end-of-file. -/
theorem Yields.located {X clear code t} (h : Yields X clear code t) (hk : t.kind? ≠ some .EndOfFile) :
    ∃ pre body post l, Located code t pre body post ∧
      singleToken X ⟨body ++ post, blen pre⟩ = (.ok ⟨post, blen pre + blen body⟩ t, l) ∧
      TokenShape X (blen pre) t body post := by
  rcases h.shape with rfl | ⟨pre, body, post, l, h1, h2, h3⟩
  · exact absurd rfl hk
  · exact ⟨pre, body, post, l, ⟨h1, TokenShape.extent h3⟩, h2, h3⟩

/-! ## C01 -/

/-- Tokens tile the source text. -/
theorem C01_tokens_tile (X : Xid) (clear : Bool) (code : Text) (ts : List Token) (h : lex X clear code = .ok ts) :
    ∃ (body : List Token) (texts : List Text),
      ts = body ++ [.plain .EndOfFile ⟨blen code, blen code⟩] ∧
      Chain 0 (body.map Token.extent) (blen code) ∧
      body.map (fun t => sliceText code t.extent) = texts.map some ∧ texts.flatten = code := by
  have h1 := lex_ok_calls h 1
  obtain ⟨body, texts, h2, h3, _, _, h4, h5⟩ := run_ok (LexInv.new code) rfl h1
  exact ⟨body, texts, h2, h3, h4, h5⟩

example : lex asciiXid true c!"fn  x//y" = .ok [.plain .Fn ⟨0, 2⟩, .plain .Whitespace ⟨2, 4⟩, .plain .Ident ⟨4, 5⟩,
      .plain .CommentLine ⟨5, 8⟩, .plain .EndOfFile ⟨8, 8⟩] := by
  decide +kernel

/-! ## C02 -/

/-- Tokenizing always ends, with tokens or an error, and never panics. -/
theorem C02_terminates (X : Xid) (clear : Bool) (code : Text) :
    (∃ ts, lex X clear code = .ok ts) ∨ (∃ d, lex X clear code = .err d) := by
  rcases lex_cases X clear code with ⟨ts, h, _⟩ | ⟨_, d, h, _⟩
  · exact .inl ⟨ts, h⟩
  · exact .inr ⟨d, h⟩

/-- The progress assertion never fires, however often `next` is called. -/
theorem C02_no_panic (X : Xid) (clear : Bool) (code : Text) (n : Nat) :
    some .panic ∉ (Tokens.new code).calls X clear n := calls_ne_panic (LexInv.new code) n

/-- Every token other than end-of-file is non-empty. -/
theorem C02_progress (X : Xid) (clear : Bool) (code : Text) (t : Token) (h : Yields X clear code t)
    (hk : t.kind? ≠ some .EndOfFile) : t.extent.s < t.extent.e := by
  obtain ⟨pre, body, post, l, hl, _, hs⟩ := h.located hk
  have := blen_pos (TokenShape.ne_nil hs)
  rw [hl.extent_eq]; simp; omega

example : Yields asciiXid true c!"+1" (.plain .Plus ⟨0, 1⟩) := ⟨1, by decide +kernel⟩

/-! ## C03 -/

theorem isBoundary_mid {code pre mid post : Text} (h : code = pre ++ mid ++ post) {n : Nat}
    (hn : n = blen pre + blen mid) : IsBoundary code n :=
  ⟨pre ++ mid, post, h, by simp [hn]⟩

/-- Every extent stored in a token can be used to slice the text. -/
theorem C03_token_extents_slice (X : Xid) (clear : Bool) (code : Text) (t : Token) (h : Yields X clear code t)
    (x : Extent) (hx : x ∈ allExtents t) :
    (sliceText code x).isSome = true ∧ x.s ≤ x.e ∧ x.e ≤ blen code ∧ IsBoundary code x.s ∧ IsBoundary code x.e := by
  have suff : x.s ≤ x.e → IsBoundary code x.s → IsBoundary code x.e →
      (sliceText code x).isSome = true ∧ x.s ≤ x.e ∧ x.e ≤ blen code ∧ IsBoundary code x.s ∧ IsBoundary code x.e :=
    fun h1 h2 h3 => ⟨(sliceText_isSome code x).mpr ⟨h1, h2, h3⟩, h1, h3.le, h2, h3⟩
  rcases h.shape with rfl | ⟨pre, body, post, l, h1, h2, h3⟩
  · simp [allExtents] at hx
    subst hx
    exact suff (Nat.le_refl _) ⟨code, [], by simp, rfl⟩ ⟨code, [], by simp, rfl⟩
  · have part : ∀ a m b : Text, body = a ++ m ++ b → x = ⟨blen pre + blen a, blen pre + blen a + blen m⟩ →
        (sliceText code x).isSome = true ∧ x.s ≤ x.e ∧ x.e ≤ blen code ∧ IsBoundary code x.s ∧ IsBoundary code x.e := by
      rintro a m b hb rfl
      exact suff (by simp) ⟨pre ++ a, m ++ b ++ post, by simp [h1, hb], by simp⟩
        ⟨pre ++ a ++ m, b ++ post, by simp [h1, hb], by simp [Nat.add_assoc]⟩
    cases t with
    | plain k e =>
      simp only [allExtents, List.mem_singleton] at hx
      subst hx
      have := TokenShape.extent h3
      exact part [] body [] (by simp) (by simpa [Token.extent] using this)
    | number n =>
      cases h3 with
      | number hn =>
        obtain ⟨ints, frac, mark, exp, suf, hb, hi, hid, hint, hu, hf, hf', he, he', hs, hs'⟩ := hn.parts
        simp only [allExtents, List.mem_append, List.mem_cons, List.not_mem_nil, or_false, Option.mem_toList] at hx
        rcases hx with (((rfl | rfl) | hx) | hx) | hx
        · exact part [] body [] (by simp) (by simp [hn.ext])
        · exact part (basePrefix n.base) ints (frac ++ mark ++ exp ++ suf) (by simp [hb])
            (by rw [hint]; simp [Nat.add_assoc])
        · rcases hf with ⟨hf, _⟩ | hf
          · rw [hf] at hx; cases hx
          · rw [hf] at hx; cases hx
            exact part (basePrefix n.base ++ ints) frac (mark ++ exp ++ suf) (by simp [hb]) rfl
        · rcases he with ⟨he, _⟩ | he
          · rw [he] at hx; cases hx
          · rw [he] at hx; cases hx
            exact part (basePrefix n.base ++ ints ++ frac ++ mark) exp suf (by simp [hb]) rfl
        · rcases hs with ⟨hs, _⟩ | hs
          · rw [hs] at hx; cases hx
          · rw [hs] at hx; cases hx
            exact part (basePrefix n.base ++ ints ++ frac ++ mark ++ exp) suf [] (by simp [hb]) rfl

example : ∃ n, Yields asciiXid true c!"é 0x1_f.2e5u8".tail n ∧ n.kind? = none :=
  ⟨.number ⟨.Hexadecimal, ⟨1, 12⟩, ⟨3, 6⟩, some ⟨6, 10⟩, none, some ⟨10, 12⟩, 1⟩, ⟨2, by decide +kernel⟩, rfl⟩

/-! ## C04 -/

/-- Tokenizer error locations: a character boundary, in bounds, not before the end of any good token; errors are
reported. -/
theorem C04_error_location (X : Xid) (clear : Bool) (code : Text) (d : LErrorDetail) (h : lex X clear code = .err d) :
    IsBoundary code d.location ∧ d.location ≤ blen code ∧ d.errors ≠ [] ∧
    ∃ ts : List Token, (Tokens.new code).calls X clear (ts.length + 1) =
        ts.map (fun t => some (.tok t)) ++ [some (.err d)] ∧ ∀ t ∈ ts, t.extent.e ≤ d.location := by
  obtain ⟨ts, h1⟩ := lex_err_calls h
  obtain ⟨h2, _, h4, h5⟩ := run_err (LexInv.new code) h1
  exact ⟨h2, h2.le, h4, ts, h1, h5⟩

/-- Location of the error, for the examples. -/
def errLocation : LexResult → Option Nat
  | .err d => some d.location
  | _ => none

theorem errLocation_some {r n} (h : errLocation r = some n) : ∃ d, r = .err d ∧ d.location = n := by
  cases r <;> simp [errLocation] at h
  exact ⟨_, rfl, h⟩

example : ∃ d, lex asciiXid false c!"a \"é" = .err d ∧ d.location = 5 := errLocation_some (by decide +kernel)

/-! ## C05 -/

/-- After end-of-file the iterator yields `None` for ever.  Missing from the full claim: after an error it does not
end, see `C05_false`. -/
theorem C05_finite_partial (X : Xid) (clear : Bool) (code : Text) (ts : List Token) (h : lex X clear code = .ok ts)
    (k : Nat) : (Tokens.new code).calls X clear (ts.length + k) =
      ts.map (fun t => some (.tok t)) ++ List.replicate k none := lex_ok_calls h k

/-- The full claim is false: on every text with a lexical error the iterator never yields `None`. -/
theorem C05_false (X : Xid) (clear : Bool) (code : Text) (d : LErrorDetail) (h : lex X clear code = .err d) (n : Nat) :
    none ∉ (Tokens.new code).calls X clear n := by
  obtain ⟨ts, h1⟩ := lex_err_calls h
  exact err_then_forever (LexInv.new code) (n := ts.length + 1) (d := d) (by rw [h1]; simp) n

example : ∃ d, lex asciiXid true c!"`" = .err d ∧ d.location = 0 := errLocation_some (by decide +kernel)

/-! ## C06 -/

/-- Identifier and keyword tokens are maximal words, classified by their text; raw identifiers are identifiers. -/
theorem C06_words (X : Xid) (clear : Bool) (code : Text) (k : TK) (e : Extent) (h : Yields X clear code (.plain k e))
    (hk : k = .Ident ∨ keywordText k ≠ none) :
    ∃ pre body post, Located code (.plain k e) pre body post ∧ NoCont X post ∧
      ((Word X body ∧ ((k = .Ident ∧ ∀ k', keywordText k' ≠ some body) ∨ keywordText k = some body)) ∨
       (k = .Ident ∧ ∃ w, Word X w ∧ body = c!"r#" ++ w)) := by
  have hne : k ≠ .EndOfFile := by rintro rfl; simp [keywordText] at hk
  obtain ⟨pre, body, post, l, hl, _, hs⟩ := h.located (by simp [Token.kind?, hne])
  refine ⟨pre, body, post, hl, ?_⟩
  generalize ht : Token.plain k e = t at hs
  cases hs with
  | keyword h1 h2 h3 =>
    cases ht
    exact ⟨h2, .inl ⟨h1, .inr (keywordTable_text _ h3)⟩⟩
  | ident h1 h2 h3 =>
    cases ht
    exact ⟨h2, .inl ⟨h1, .inl ⟨rfl, fun k' hk' => h3 k' (keywordText_table k' _ hk')⟩⟩⟩
  | rawIdent h1 h2 =>
    cases ht
    exact ⟨h2, .inr ⟨rfl, _, h1, rfl⟩⟩
  | line h1 => cases ht; rcases h1 with rfl | rfl | rfl <;> simp [keywordText] at hk
  | block h1 => cases ht; cases k <;> simp [blockOpener] at h1 <;> simp [keywordText] at hk
  | symbol h1 =>
    cases ht
    have := symbolTable_text _ h1
    cases k <;> simp [symbolText] at this <;> simp [keywordText] at hk
  | _ => cases ht <;> simp [keywordText] at hk

example : Yields asciiXid true c!"r#fn fnx" (.plain .Ident ⟨5, 8⟩) ∧
    Yields asciiXid true c!"r#fn fnx" (.plain .Ident ⟨0, 4⟩) := ⟨⟨3, by decide +kernel⟩, ⟨1, by decide +kernel⟩⟩

/-! ## C07 -/

theorem split_mid {α} {before after A B : List α} {r : α} (h : A ++ B = before ++ r :: after) :
    (∃ a', A = before ++ r :: a') ∨ ∃ b', before = A ++ b' ∧ B = b' ++ r :: after := by
  rcases List.append_eq_append_iff.mp h with ⟨a', h1, h2⟩ | ⟨c', h1, h2⟩
  · exact .inr ⟨a', h1, h2⟩
  · cases c' with
    | nil => exact .inr ⟨[], by simpa using h1.symm, by simpa using h2.symm⟩
    | cons x xs =>
      simp at h2
      obtain ⟨rfl, rfl⟩ := h2
      exact .inl ⟨xs, h1⟩

theorem symbolTable_sorted :
    symbolTable.Pairwise (fun a b => b.1.length ≤ a.1.length) := by decide

/-- Symbols are spelled as they should be and no longer symbol would have fitted. -/
theorem C07_longest_symbol (X : Xid) (clear : Bool) (code : Text) (k : TK) (e : Extent)
    (h : Yields X clear code (.plain k e)) (w : Text) (hk : symbolText k = some w) :
    ∃ pre post, Located code (.plain k e) pre w post ∧
      ∀ k' w', symbolText k' = some w' → w' <+: w ++ post → w'.length ≤ w.length := by
  have hne : k ≠ .EndOfFile := by rintro rfl; simp [symbolText] at hk
  obtain ⟨pre, body, post, l, hl, hst, hs⟩ := h.located (by simp [Token.kind?, hne])
  have hb : body = w := by
    generalize ht : Token.plain k e = t at hs
    cases hs with
    | symbol h1 => cases ht; have := symbolTable_text _ h1; rw [hk] at this; cases this; rfl
    | line h1 => cases ht; rcases h1 with rfl | rfl | rfl <;> simp [symbolText] at hk
    | block h1 => cases ht; cases k <;> simp [blockOpener] at h1 <;> simp [symbolText] at hk
    | keyword _ _ h1 =>
      cases ht
      have := keywordTable_text _ h1
      cases k <;> simp [keywordText] at this <;> simp [symbolText] at hk
    | _ => cases ht <;> simp [symbolText] at hk
  rw [hb] at hl hst hs
  clear hb body
  refine ⟨pre, post, hl, ?_⟩
  intro k' w' hk' hpre
  have htab := symbolText_table _ _ hk'
  have hsw : startsWith w' (w ++ post) = true := by simpa [startsWith] using hpre
  unfold singleToken at hst
  obtain ⟨before, r, after, l', heq, hr, hbef⟩ := alts_ok hst
  have hlist : commentOrDocComment :: singleTokenAlts X =
      (commentOrDocComment :: [ mapTok character .Character, mapTok string .String, mapTok stringRaw .StringRaw,
        mapTok byte .Byte, mapTok byteString .ByteString, mapTok byteStringRaw .ByteStringRaw,
        mapTok (lifetime X) .Lifetime ]) ++ (symbolTable.map (fun r => mapTok (literal r.1) r.2) ++
      [ keywordOrIdent X, LP.map (number X) Token.number, mapTok whitespace .Whitespace ]) := by
    simp only [singleTokenAlts, List.cons_append, List.nil_append]
  -- a literal that was tried before cannot have been present
  have nbef : mapTok (literal w') k' ∉ before := by
    intro hm
    obtain ⟨pe, e', le, hf, _⟩ := hbef _ hm
    obtain ⟨rest, hrest⟩ := startsWith_iff.mp hsw
    obtain ⟨v, lv, hv⟩ := okAt_literal (pt := ⟨w ++ post, blen pre⟩) (eats_atEnd hrest)
    simp [mapTok, LP.map, LP.bind, hv, LP.pure] at hf
  have hmap : mapTok (literal w') k' ∈ symbolTable.map (fun r => mapTok (literal r.1) r.2) :=
    List.mem_map.mpr ⟨(w', k'), htab, rfl⟩
  have kindOf : ∀ (p : LP Extent) (K : TK), r = mapTok p K → k = K := by
    rintro p K rfl
    simp only [mapTok, LP.map, LP.bind, LP.pure] at hr
    split at hr <;> simp at hr
    exact hr.1.2.1.symm
  rw [hlist] at heq
  rcases split_mid heq with ⟨a', h1⟩ | ⟨b', h1, h2⟩
  · exfalso
    have hm : r ∈ [commentOrDocComment, mapTok character .Character, mapTok string .String,
        mapTok stringRaw .StringRaw, mapTok byte .Byte, mapTok byteString .ByteString,
        mapTok byteStringRaw .ByteStringRaw, mapTok (lifetime X) .Lifetime] := by rw [h1]; simp
    simp only [List.mem_cons, List.not_mem_nil, or_false] at hm
    rcases hm with rfl | rfl | rfl | rfl | rfl | rfl | rfl | rfl
    · have hc : commentKind (w ++ post) = some k := by
        cases hc : commentKind (w ++ post) with
        | none =>
          rw [commentKind_cases] at hc
          unfold commentOrDocComment at hr
          split at hc <;> try cases hc
          rename_i c1; rw [if_neg c1] at hr
          split at hc <;> try cases hc
          rename_i c2; rw [if_neg c2] at hr
          split at hc <;> try cases hc
          rename_i c3; rw [if_neg c3] at hr
          split at hc <;> try cases hc
          rename_i c4; rw [if_neg c4] at hr
          split at hc <;> try cases hc
          rename_i c5; rw [if_neg c5] at hr
          split at hc <;> try cases hc
          rename_i c6; rw [if_neg c6] at hr
          simp at hr
        | some k2 =>
          obtain ⟨q, e2, l2, h2⟩ := comment_ok (pt := ⟨w ++ post, blen pre⟩) hc
          rw [hr] at h2
          simp at h2
          rw [h2.1.2.1]
      unfold commentKind at hc
      repeat' split at hc
      all_goals first | cases hc | skip
      all_goals simp [symbolText] at hk
    all_goals
      have := kindOf _ _ rfl
      subst this
      simp [symbolText] at hk
  · rcases split_mid h2 with ⟨a', h3⟩ | ⟨b'', h3, _⟩
    · obtain ⟨s1, s2, h4, h5, h6⟩ := List.map_eq_append_iff.mp h3
      obtain ⟨x, s3, h7, h8, h9⟩ := List.map_eq_cons_iff.mp h6
      have hsort := symbolTable_sorted
      rw [h4, h7] at hsort htab
      have hs2 := (List.pairwise_append.mp hsort).2.1
      have hx : x.1 = w := by
        have := kindOf _ _ h8.symm
        have hx := symbolTable_text x (by rw [h4, h7]; simp)
        rw [← this, hk] at hx
        simpa using hx.symm
      rcases List.mem_append.mp htab with hm | hm
      · exact absurd (by rw [h1, ← h5]; simp only [List.mem_append]; exact .inr (List.mem_map.mpr ⟨_, hm, rfl⟩)) nbef
      · rcases List.mem_cons.mp hm with rfl | hm
        · simp at hx; rw [hx]; exact Nat.le_refl _
        · have := (List.pairwise_cons.mp hs2).1 _ hm
          rw [hx] at this; exact this
    · exact absurd (by rw [h1, h3]; simp only [List.mem_append]; exact .inr (.inl hmap)) nbef

example : Yields asciiXid true c!"a>>=b" (.plain .ShiftRightEquals ⟨1, 4⟩) := ⟨2, by decide +kernel⟩

/-! ## Reading a literal at a position

`ItemAt X clear code pre i`: having read tokens that cover exactly `pre`, the next call of the iterator gives `i`. -/
def ItemAt (X : Xid) (clear : Bool) (code pre : Text) (i : Option LItem) : Prop :=
  ∃ ts : List Token, (Tokens.new code).calls X clear (ts.length + 1) = ts.map (fun t => some (.tok t)) ++ [i] ∧
    Chain 0 (ts.map Token.extent) (blen pre)

theorem ItemAt.of_singleToken {X clear code pre i rest post t l} (h : ItemAt X clear code pre i)
    (hc : code = pre ++ (rest ++ post)) (hr : rest ≠ [])
    (hs : singleToken X ⟨rest ++ post, blen pre⟩ = (.ok ⟨post, blen pre + blen rest⟩ t, l)) : i = some (.tok t) := by
  obtain ⟨ts, h1, h2⟩ := h
  have hr' : rest ++ post ≠ [] := by simp [hr]
  obtain ⟨st', hi, hpt, hex, rfl⟩ := run_next (LexInv.new code) rfl h1 h2 hc hr'
  have hne : (rest ++ post).isEmpty = false := by
    cases rest <;> simp at hr ⊢
  have hp := blen_pos hr
  have hp' : blen rest ≠ 0 := by omega
  simp [Tokens.next, hex, hpt, hs, hp', hr']

theorem ItemAt.of_alt {X clear code pre i body post before after} {p : LP Extent} {k : TK}
    (h : ItemAt X clear code pre i) (hc : code = pre ++ body ++ post) (hr : body ≠ [])
    (heq : commentOrDocComment :: singleTokenAlts X = before ++ mapTok p k :: after)
    (hp : OkAt p ⟨body ++ post, blen pre⟩ ⟨post, blen pre + blen body⟩)
    (hb : ∀ r ∈ before, FailsAt r ⟨body ++ post, blen pre⟩) :
    i = some (.tok (.plain k ⟨blen pre, blen pre + blen body⟩)) := by
  obtain ⟨l, hl⟩ := singleToken_alt heq hp hb
  exact h.of_singleToken (by simpa using hc) hr hl

/-- The alternatives of `single_token` before the symbols. -/
def headAlts (X : Xid) : List (LP Token) :=
  [commentOrDocComment, mapTok character .Character, mapTok string .String,
    mapTok stringRaw .StringRaw, mapTok byte .Byte, mapTok byteString .ByteString,
    mapTok byteStringRaw .ByteStringRaw, mapTok (lifetime X) .Lifetime]

theorem headAlts_eq (X : Xid) : ∃ tl, commentOrDocComment :: singleTokenAlts X = headAlts X ++ tl :=
  ⟨_, rfl⟩

/-! ## C08 -/

theorem strBody_unique {a b x y : Text} (ha : StrBody a) (hb : StrBody b)
    (h : a ++ '"' :: x = b ++ '"' :: y) : a = b := by
  induction ha generalizing b with
  | nil =>
    cases hb with
    | nil => rfl
    | plain h1 => simp at h; exact absurd h.1.symm h1
    | esc => simp at h
  | @plain c t h1 h2 _ ih =>
    cases hb with
    | nil => simp at h; exact absurd h.1 h1
    | plain _ _ hb' => simp at h; rw [h.1, ih hb' h.2]
    | esc => simp at h; exact absurd h.1 h2
  | @esc c t _ ih =>
    cases hb with
    | nil => simp at h
    | plain _ h2 => simp at h; exact absurd h.1.symm h2
    | esc hb' => simp at h; rw [h.1, ih hb' h.2]

theorem strLit_unique {a b x y : Text} (ha : StrLit a) (hb : StrLit b) (h : a ++ x = b ++ y) : a = b := by
  obtain ⟨a', ha, rfl⟩ := ha
  obtain ⟨b', hb, rfl⟩ := hb
  simp at h
  rw [strBody_unique ha hb h]

/-- A (byte) string token is a string literal (after its `b`), and it is the only string literal that the text has
at this place: no shorter or longer one. -/
theorem C08_strings (X : Xid) (clear : Bool) (code : Text) (k : TK) (e : Extent)
    (h : Yields X clear code (.plain k e)) (hk : k = .String ∨ k = .ByteString) :
    ∃ pre mark lit post, Located code (.plain k e) pre (mark ++ lit) post ∧
      mark = (if k = .ByteString then c!"b" else []) ∧ StrLit lit ∧
      ∀ lit', StrLit lit' → lit' <+: lit ++ post → lit' = lit := by
  have uniq : ∀ lit post : Text, StrLit lit → ∀ lit', StrLit lit' → lit' <+: lit ++ post → lit' = lit := by
    rintro lit post h1 lit' h2 ⟨x, hx⟩
    exact strLit_unique h2 h1 hx
  obtain ⟨pre, body, post, l, hl, _, hs⟩ := h.located (by rcases hk with rfl | rfl <;> simp [Token.kind?])
  generalize ht : Token.plain k e = t at hs
  cases hs with
  | str h1 => cases ht; exact ⟨pre, [], body, post, hl, by simp, h1, uniq _ _ h1⟩
  | byteStr h1 => cases ht; exact ⟨pre, c!"b", _, post, hl, by simp, h1, uniq _ _ h1⟩
  | line h1 => cases ht; rcases h1 with rfl | rfl | rfl <;> simp at hk
  | block h1 => cases ht; rcases hk with rfl | rfl <;> simp [blockOpener] at h1
  | keyword _ _ h1 => cases ht; have := keywordTable_text _ h1; rcases hk with rfl | rfl <;> simp [keywordText] at this
  | symbol h1 => cases ht; have := symbolTable_text _ h1; rcases hk with rfl | rfl <;> simp [symbolText] at this
  | _ => cases ht <;> simp at hk

/-- Conversely a string literal is read as one string token. -/
theorem C08_string_read (X : Xid) (clear : Bool) (code pre lit post : Text) (i : Option LItem)
    (h : ItemAt X clear code pre i) (hc : code = pre ++ lit ++ post) (hl : StrLit lit) :
    i = some (.tok (.plain .String ⟨blen pre, blen pre + blen lit⟩)) := by
  obtain ⟨tl, htl⟩ := headAlts_eq X
  have hp : OkAt string ⟨lit ++ post, blen pre⟩ ⟨post, blen pre + blen lit⟩ := okAt_string ⟨rfl, rfl⟩ hl
  obtain ⟨b, hb, rfl⟩ := hl
  refine h.of_alt hc (by simp) (before := [commentOrDocComment, mapTok character .Character]) htl hp ?_
  simp only [List.mem_cons, List.not_mem_nil, or_false]
  rintro r (rfl | rfl)
  · exact comment_fails (d := '"') rfl (by decide)
  · exact mapTok_fails (character_fails (d := '"') rfl (by decide))

/-- A byte string literal is read as one byte string token. -/
theorem C08_byte_string_read (X : Xid) (clear : Bool) (code pre lit post : Text) (i : Option LItem)
    (h : ItemAt X clear code pre i) (hc : code = pre ++ (c!"b" ++ lit) ++ post) (hl : StrLit lit) :
    i = some (.tok (.plain .ByteString ⟨blen pre, blen pre + blen (c!"b" ++ lit)⟩)) := by
  obtain ⟨tl, htl⟩ := headAlts_eq X
  have e1 : Eats ⟨c!"b" ++ lit ++ post, blen pre⟩ c!"b" (atEnd ⟨c!"b" ++ lit ++ post, blen pre⟩ c!"b" (lit ++ post)) :=
    eats_atEnd (by simp)
  have e2 : Eats ⟨c!"b" ++ lit ++ post, blen pre⟩ (c!"b" ++ lit) ⟨post, blen pre + blen (c!"b" ++ lit)⟩ := ⟨rfl, rfl⟩
  have hp : OkAt byteString ⟨c!"b" ++ lit ++ post, blen pre⟩ ⟨post, blen pre + blen (c!"b" ++ lit)⟩ :=
    okAt_prefixed e1 (okAt_string ⟨rfl, by simp [atEnd]; omega⟩ hl) e2.adv
  obtain ⟨b, hb, rfl⟩ := hl
  refine h.of_alt hc (by simp) (before := [commentOrDocComment, mapTok character .Character, mapTok string .String,
    mapTok stringRaw .StringRaw, mapTok byte .Byte]) htl hp ?_
  simp only [List.mem_cons, List.not_mem_nil, or_false]
  rintro r (rfl | rfl | rfl | rfl | rfl)
  · exact comment_fails (d := 'b') rfl (by decide)
  · exact mapTok_fails (character_fails (d := 'b') rfl (by decide))
  · exact mapTok_fails (string_fails (d := 'b') rfl (by decide))
  · exact mapTok_fails (stringRaw_fails (d := 'b') rfl (by decide))
  · exact mapTok_fails (prefixed_fails e1 (character_fails (d := '"') rfl (by decide)))

example : StrLit c!"\"a\\\"b\"" ∧ ItemAt asciiXid true c!"x\"a\\\"b\"y" c!"x" (some (.tok (.plain .String ⟨1, 7⟩))) :=
  ⟨⟨c!"a\\\"b", .plain (by decide) (by decide) (.esc (.plain (by decide) (by decide) .nil)), rfl⟩,
    [.plain .Ident ⟨0, 1⟩], by decide +kernel, rfl, by decide, (rfl : (_ : Nat) = _)⟩

/-! ## C09 -/

/-- A raw (byte) string token with `n` hashes ends at the first closing sequence with `n` hashes. -/
theorem C09_raw_strings (X : Xid) (clear : Bool) (code : Text) (k : TK) (e : Extent)
    (h : Yields X clear code (.plain k e)) (hk : k = .StringRaw ∨ k = .ByteStringRaw) :
    ∃ pre mark n content post, Located code (.plain k e) pre
        (mark ++ c!"r" ++ List.replicate n '#' ++ c!"\"" ++ content ++ (c!"\"" ++ List.replicate n '#')) post ∧
      mark = (if k = .ByteStringRaw then c!"b" else []) ∧
      ∀ a b, content ++ (c!"\"" ++ List.replicate n '#') ++ post = a ++ (c!"\"" ++ List.replicate n '#') ++ b →
        content.length ≤ a.length := by
  obtain ⟨pre, body, post, l, hl, _, hs⟩ := h.located (by rcases hk with rfl | rfl <;> simp [Token.kind?])
  generalize ht : Token.plain k e = t at hs
  cases hs with
  | strRaw h1 =>
    cases ht
    obtain ⟨n, content, rfl, hf⟩ := h1
    exact ⟨pre, [], n, content, post, by simpa [rawClose] using hl, by simp, by simpa [rawClose] using hf.2⟩
  | byteStrRaw h1 =>
    cases ht
    obtain ⟨n, content, rfl, hf⟩ := h1
    exact ⟨pre, c!"b", n, content, post, by simpa [rawClose] using hl, by simp, by simpa [rawClose] using hf.2⟩
  | line h1 => cases ht; rcases h1 with rfl | rfl | rfl <;> simp at hk
  | block h1 => cases ht; rcases hk with rfl | rfl <;> simp [blockOpener] at h1
  | keyword _ _ h1 => cases ht; have := keywordTable_text _ h1; rcases hk with rfl | rfl <;> simp [keywordText] at this
  | symbol h1 => cases ht; have := symbolTable_text _ h1; rcases hk with rfl | rfl <;> simp [symbolText] at this
  | _ => cases ht <;> simp at hk

/-- Conversely a raw string literal is read as one raw string token. -/
theorem C09_raw_string_read (X : Xid) (clear : Bool) (code pre lit post : Text) (i : Option LItem)
    (h : ItemAt X clear code pre i) (hc : code = pre ++ lit ++ post) (hl : RawStrLit lit post) :
    i = some (.tok (.plain .StringRaw ⟨blen pre, blen pre + blen lit⟩)) := by
  obtain ⟨tl, htl⟩ := headAlts_eq X
  have hp : OkAt stringRaw ⟨lit ++ post, blen pre⟩ ⟨post, blen pre + blen lit⟩ := okAt_stringRaw ⟨rfl, rfl⟩ hl
  obtain ⟨n, b, rfl, hb⟩ := hl
  refine h.of_alt hc (by simp) (before := [commentOrDocComment, mapTok character .Character, mapTok string .String])
    htl hp ?_
  simp only [List.mem_cons, List.not_mem_nil, or_false]
  rintro r (rfl | rfl | rfl)
  · exact comment_fails (d := 'r') rfl (by decide)
  · exact mapTok_fails (character_fails (d := 'r') rfl (by decide))
  · exact mapTok_fails (string_fails (d := 'r') rfl (by decide))

/-- A raw byte string literal is read as one raw byte string token. -/
theorem C09_raw_byte_string_read (X : Xid) (clear : Bool) (code pre lit post : Text) (i : Option LItem)
    (h : ItemAt X clear code pre i) (hc : code = pre ++ (c!"b" ++ lit) ++ post) (hl : RawStrLit lit post) :
    i = some (.tok (.plain .ByteStringRaw ⟨blen pre, blen pre + blen (c!"b" ++ lit)⟩)) := by
  obtain ⟨tl, htl⟩ := headAlts_eq X
  have e1 : Eats ⟨c!"b" ++ lit ++ post, blen pre⟩ c!"b" (atEnd ⟨c!"b" ++ lit ++ post, blen pre⟩ c!"b" (lit ++ post)) :=
    eats_atEnd (by simp)
  have e2 : Eats ⟨c!"b" ++ lit ++ post, blen pre⟩ (c!"b" ++ lit) ⟨post, blen pre + blen (c!"b" ++ lit)⟩ := ⟨rfl, rfl⟩
  have hp : OkAt byteStringRaw ⟨c!"b" ++ lit ++ post, blen pre⟩ ⟨post, blen pre + blen (c!"b" ++ lit)⟩ :=
    okAt_prefixed e1 (okAt_stringRaw ⟨rfl, by simp [atEnd]; omega⟩ hl) e2.adv
  obtain ⟨n, b, rfl, hb⟩ := hl
  refine h.of_alt hc (by simp) (before := [commentOrDocComment, mapTok character .Character, mapTok string .String,
    mapTok stringRaw .StringRaw, mapTok byte .Byte, mapTok byteString .ByteString]) htl hp ?_
  simp only [List.mem_cons, List.not_mem_nil, or_false]
  rintro r (rfl | rfl | rfl | rfl | rfl | rfl)
  · exact comment_fails (d := 'b') rfl (by decide)
  · exact mapTok_fails (character_fails (d := 'b') rfl (by decide))
  · exact mapTok_fails (string_fails (d := 'b') rfl (by decide))
  · exact mapTok_fails (stringRaw_fails (d := 'b') rfl (by decide))
  · exact mapTok_fails (prefixed_fails e1 (character_fails (d := 'r') rfl (by decide)))
  · exact mapTok_fails (prefixed_fails e1 (string_fails (d := 'r') rfl (by decide)))

example : Yields asciiXid true c!"r#\"a\"b\"#" (.plain .StringRaw ⟨0, 8⟩) := ⟨1, by decide +kernel⟩

/-! ## C10 -/

/-- Line comments run to the end of the line; block comments to the first `*/` after the opener, or to the end
of the text.  Missing from the full claim: nesting and rejection of unterminated comments, see `C10_false`. -/
theorem C10_comment_end_partial (X : Xid) (clear : Bool) (code : Text) (k : TK) (e : Extent)
    (h : Yields X clear code (.plain k e)) (hk : k ∈ commentKinds) :
    ∃ pre body post, Located code (.plain k e) pre body post ∧
      ((k = .CommentLine ∨ k = .DocCommentOuterLine ∨ k = .DocCommentInnerLine) → LineTo body post) ∧
      (∀ op, blockOpener k = some op → BlockTo op body post) := by
  obtain ⟨pre, body, post, l, hl, _, hs⟩ := h.located (by rintro h; cases h; simp [commentKinds] at hk)
  refine ⟨pre, body, post, hl, ?_⟩
  generalize ht : Token.plain k e = t at hs
  cases hs with
  | line h1 _ h2 =>
    cases ht
    refine ⟨fun _ => h2, ?_⟩
    rcases h1 with rfl | rfl | rfl <;> simp [blockOpener]
  | block h1 _ h2 =>
    cases ht
    refine ⟨?_, fun op' ho => by rw [h1] at ho; cases ho; exact h2⟩
    rintro (rfl | rfl | rfl) <;> simp [blockOpener] at h1
  | keyword _ _ h1 =>
    cases ht
    have := keywordTable_text _ h1
    simp [commentKinds] at hk
    rcases hk with rfl | rfl | rfl | rfl | rfl | rfl <;> simp [keywordText] at this
  | symbol h1 =>
    cases ht
    have := symbolTable_text _ h1
    simp [commentKinds] at hk
    rcases hk with rfl | rfl | rfl | rfl | rfl | rfl <;> simp [symbolText] at this
  | _ => cases ht <;> simp [commentKinds] at hk

example : Yields asciiXid true c!"/*a*/b*/" (.plain .CommentBlock ⟨0, 5⟩) := ⟨1, by decide +kernel⟩

/-- Block comments do not nest: the text is one nested comment by the rule of the language, but is read as a comment
that ends early (whatever the identifier tables). -/
theorem C10_false : nestEnd 1 c!" /* */ */" = some [] ∧
    ∀ X clear, (Tokens.new c!"/* /* */ */").calls X clear 1 = [some (.tok (.plain .CommentBlock ⟨0, 8⟩))] := by
  refine ⟨by decide, ?_⟩
  intro X clear
  have h : commentOrDocComment ⟨c!"/* /* */ */", 0⟩ =
    (.ok ⟨c!" */", 8⟩ (.plain .CommentBlock ⟨0, 8⟩), []) := by decide
  obtain ⟨l, hl⟩ : ∃ l, singleToken X ⟨c!"/* /* */ */", 0⟩ = (.ok ⟨c!" */", 8⟩ (.plain .CommentBlock ⟨0, 8⟩), l) := by
    unfold singleToken
    exact alts_head_ok _ h
  simp [Tokens.calls, Tokens.next, Tokens.new, hl]

/-! ## C11 -/

/-- What starts with a comment opener is read as a comment of exactly that kind. -/
theorem C11_classified (X : Xid) (clear : Bool) (code pre rest : Text) (i : Option LItem) (k : TK)
    (h : ItemAt X clear code pre i) (hc : code = pre ++ rest) (hk : commentKind rest = some k) :
    ∃ e, i = some (.tok (.plain k e)) := by
  obtain ⟨q, e, l, h1⟩ := comment_ok (pt := ⟨rest, blen pre⟩) hk
  obtain ⟨l', h2⟩ : ∃ l', singleToken X ⟨rest, blen pre⟩ = (.ok q (.plain k e), l') := by
    unfold singleToken
    generalize singleTokenAlts X = ps
    exact alts_head_ok _ h1
  obtain ⟨_, ⟨body, he, hs⟩, _⟩ := (singleToken_spec X _).of_ok h2
  obtain ⟨he1, he2⟩ := he
  simp only at he1 he2
  subst he1
  refine ⟨e, h.of_singleToken hc (TokenShape.ne_nil hs) (l := l') ?_⟩
  rw [h2, ← he2]

/-- Conversely comment tokens are where their openers are. -/
theorem C11_only_comments (X : Xid) (clear : Bool) (code : Text) (k : TK) (e : Extent)
    (h : Yields X clear code (.plain k e)) (hk : k ∈ commentKinds) :
    ∃ pre body post, Located code (.plain k e) pre body post ∧ commentKind (body ++ post) = some k := by
  obtain ⟨pre, body, post, l, hl, _, hs⟩ := h.located (by rintro h; cases h; simp [commentKinds] at hk)
  refine ⟨pre, body, post, hl, ?_⟩
  generalize ht : Token.plain k e = t at hs
  cases hs with
  | line _ h1 _ => cases ht; exact h1
  | block _ h1 _ => cases ht; exact h1
  | keyword _ _ h1 =>
    cases ht
    have := keywordTable_text _ h1
    simp [commentKinds] at hk
    rcases hk with rfl | rfl | rfl | rfl | rfl | rfl <;> simp [keywordText] at this
  | symbol h1 =>
    cases ht
    have := symbolTable_text _ h1
    simp [commentKinds] at hk
    rcases hk with rfl | rfl | rfl | rfl | rfl | rfl <;> simp [symbolText] at this
  | _ => cases ht <;> simp [commentKinds] at hk

example : ItemAt asciiXid true c!"1////x" c!"1" (some (.tok (.plain .CommentLine ⟨1, 6⟩))) :=
  ⟨[.number ⟨.Decimal, ⟨0, 1⟩, ⟨0, 1⟩, none, none, none, 0⟩], by decide +kernel, rfl, by decide, (rfl : (_ : Nat) = _)⟩

/-! ## C12 -/

/-- Number tokens: the parts follow each other in order inside the token, and the last one ends it. -/
theorem C12_number_parts (X : Xid) (clear : Bool) (code : Text) (n : Number) (h : Yields X clear code (.number n)) :
    ∃ pre body post ints, Located code (.number n) pre body post ∧
      sliceText code n.integral = some ints ∧ ints ≠ [] ∧ (∀ c ∈ ints, c ∈ digitChars n.base ∨ c = '_') ∧
      basePrefix n.base <+: body ∧ n.integral.s = n.extent.s + blen (basePrefix n.base) ∧
      -- in order, without overlap
      (n.integral :: (n.fractional.toList ++ n.exponent.toList ++ n.type_suffix.toList)).Pairwise
        (fun a b => a.s ≤ a.e ∧ a.e ≤ b.s) ∧
      (∀ x ∈ n.integral :: (n.fractional.toList ++ n.exponent.toList ++ n.type_suffix.toList),
        n.extent.s ≤ x.s ∧ x.s ≤ x.e ∧ x.e ≤ n.extent.e) ∧
      -- the last part ends the token
      ((n.integral :: (n.fractional.toList ++ n.exponent.toList ++ n.type_suffix.toList)).getLast?.map Extent.e =
        some n.extent.e) := by
  obtain ⟨pre, body, post, l, hl, _, hs⟩ := h.located (by simp [Token.kind?])
  cases hs with
  | number hn =>
    have hext := hn.ext
    obtain ⟨ints, frac, mark, exp, suf, hb, hi, hid, hint, hu, hf, hf', he, he', hs, hs'⟩ := hn.parts
    refine ⟨pre, body, post, ints, hl, ?_, hi, hid, ⟨ints ++ frac ++ mark ++ exp ++ suf, by simp [hb]⟩, ?_, ?_⟩
    · rw [hl.code_eq, hb, hint]
      have := sliceText_append (pre ++ basePrefix n.base) ints (frac ++ mark ++ exp ++ suf ++ post)
      simpa [Nat.add_assoc] using this
    · rw [hint, hext]
    have hm : n.exponent = none → mark = [] := by
      intro h0
      rcases he' with h1 | h1
      · exact h1.2
      · exact absurd h0 h1.1
    obtain ⟨base, extent, integral, fractional, exponent, type_suffix, us⟩ := n
    simp only at hf he hs hint hext hm hb
    subst hb hint hext
    simp only [blen_append]
    rcases hf with ⟨rfl, rfl⟩ | rfl <;> rcases he with ⟨rfl, rfl⟩ | rfl <;> rcases hs with ⟨rfl, rfl⟩ | rfl <;>
      simp only [reduceCtorEq, false_implies, forall_const] at hm <;> (try subst hm) <;>
      simp <;> omega

example : Yields asciiXid true c!"0b1_0.1e9f32" (.number ⟨.Binary, ⟨0, 12⟩, ⟨2, 5⟩, some ⟨5, 7⟩, some ⟨8, 9⟩,
    some ⟨9, 12⟩, 1⟩) := ⟨1, by decide +kernel⟩

/-! ## C13 -/

/-- `into_simple` succeeds only on plain decimal digit strings, and gives the whole token. -/
theorem C13_into_simple (X : Xid) (clear : Bool) (code : Text) (n : Number) (h : Yields X clear code (.number n))
    (e : Extent) (hs : n.intoSimple = some e) :
    ∃ pre body post, Located code (.number n) pre body post ∧ e = n.extent ∧ n.base = .Decimal ∧ body ≠ [] ∧
      ∀ c ∈ body, c ∈ c!"0123456789" := by
  obtain ⟨pre, body, post, l, hl, _, hsh⟩ := h.located (by simp [Token.kind?])
  refine ⟨pre, body, post, hl, ?_⟩
  cases hsh with
  | number hn =>
    unfold Number.intoSimple at hs
    split at hs
    · rename_i hbase
      split at hs
      · rename_i hc
        simp only [Bool.and_eq_true, Option.isNone_iff_eq_none, beq_iff_eq] at hc
        obtain ⟨⟨⟨c1, c2⟩, c3⟩, c4⟩ := hc
        obtain ⟨ints, frac, mark, exp, suf, hb, hi, hid, hint, hu, hf, hf', he, he', hs', hs''⟩ := hn.parts
        rw [c1] at hf; rw [c2] at he he'; rw [c3] at hs'; rw [c4] at hu
        simp [Part] at hf he he' hs'
        rw [hbase] at hb hid
        simp [basePrefix, hf, he, he', hs'] at hb
        subst hb
        refine ⟨by simpa using hs.symm, hbase, hi, ?_⟩
        intro c hcm
        rcases hid c hcm with h | h
        · simpa [digitChars] using h
        · subst h
          exact absurd (List.count_pos_iff.mpr hcm) (by omega)
      · cases hs
    · cases hs

example : (Number.mk .Decimal ⟨0, 2⟩ ⟨0, 2⟩ none none none 0).intoSimple = some ⟨0, 2⟩ ∧
    Yields asciiXid true c!"42" (.number ⟨.Decimal, ⟨0, 2⟩, ⟨0, 2⟩, none, none, none, 0⟩) :=
  ⟨rfl, 1, by decide +kernel⟩

/-! ## C14 -/

/-- A character literal is read as a character token. -/
theorem C14_character (X : Xid) (clear : Bool) (code pre lit post : Text) (i : Option LItem)
    (h : ItemAt X clear code pre i) (hc : code = pre ++ lit ++ post) (hl : CharLit lit) :
    i = some (.tok (.plain .Character ⟨blen pre, blen pre + blen lit⟩)) := by
  obtain ⟨tl, htl⟩ := headAlts_eq X
  obtain ⟨b, hb, rfl⟩ := hl
  have hp : OkAt character ⟨c!"'" ++ b ++ c!"'" ++ post, blen pre⟩ ⟨post, blen pre + blen (c!"'" ++ b ++ c!"'")⟩ :=
    okAt_character ⟨rfl, rfl⟩ hb
  refine h.of_alt hc (by simp) (before := [commentOrDocComment]) htl hp ?_
  simp only [List.mem_cons, List.not_mem_nil, or_false]
  rintro r rfl
  exact comment_fails (d := '\'') rfl (by decide)

/-- A lifetime token is a quote and a word, and no character literal is present there. -/
theorem C14_lifetime (X : Xid) (clear : Bool) (code : Text) (e : Extent)
    (h : Yields X clear code (.plain .Lifetime e)) :
    ∃ pre w post, Located code (.plain .Lifetime e) pre ('\'' :: w) post ∧ Word X w ∧ NoCont X post ∧
      ∀ lit, CharLit lit → ¬ lit <+: '\'' :: w ++ post := by
  obtain ⟨pre, body, post, l, hl, hst, hs⟩ := h.located (by simp [Token.kind?])
  generalize ht : Token.plain .Lifetime e = t at hs
  cases hs with
  | lifetime h1 h2 =>
    cases ht
    refine ⟨pre, _, post, hl, h1, h2, ?_⟩
    rintro lit ⟨b, hb, rfl⟩ ⟨rest, hr⟩
    obtain ⟨tl, htl⟩ := headAlts_eq X
    have hp : OkAt character ⟨c!"'" ++ b ++ c!"'" ++ rest, blen pre⟩ ⟨rest, blen pre + blen (c!"'" ++ b ++ c!"'")⟩ :=
      okAt_character ⟨rfl, rfl⟩ hb
    obtain ⟨l', h3⟩ := singleToken_alt (X := X) (before := [commentOrDocComment]) htl hp (by
      simp only [List.mem_cons, List.not_mem_nil, or_false]
      rintro r rfl
      exact comment_fails (d := '\'') rfl (by decide))
    rw [hr, hst] at h3
    simp at h3
  | line h1 => cases ht; simp [isLineKind] at h1
  | block h1 => cases ht; simp [blockOpener] at h1
  | keyword _ _ h1 => cases ht; have := keywordTable_text _ h1; simp [keywordText] at this
  | symbol h1 => cases ht; have := symbolTable_text _ h1; simp [symbolText] at this
  | _ => cases ht

example : CharLit c!"'a'" ∧ ItemAt asciiXid true c!"'a''b" c!"'a'" (some (.tok (.plain .Lifetime ⟨3, 5⟩))) :=
  ⟨⟨c!"a", .single (by decide), rfl⟩, [.plain .Character ⟨0, 3⟩], by decide +kernel, rfl, by decide, (rfl : (_ : Nat) = _)⟩

end Verif.Props
