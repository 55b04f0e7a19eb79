import Verif.Proofs.LexNumber
import Verif.Proofs.LexTables
/-!
# The tokenizer reads the lexical grammar
-/

namespace Verif
open Spec

attribute [local irreducible] singleToken

/-! ### first characters -/

/-- Characters with which symbols start. -/
def symHeads : List Char := c!"!#$%&*+,-./:;<=>?@\\^|~()[]{}"

theorem symbolTable_heads : ∀ r ∈ symbolTable, r.1.head?.any (· ∈ symHeads) = true := by decide

theorem symbol_head {r : Text × TK} (hr : r ∈ symbolTable) {d : Char} {s : Text} (h : r.1 <+: d :: s) : d ∈ symHeads := by
  have := symbolTable_heads r hr
  cases hw : r.1 with
  | nil => rw [hw] at this; cases this
  | cons c cs =>
    rw [hw] at this h
    obtain ⟨t, ht⟩ := h
    cases ht
    simpa using this

theorem not_start {X : Xid} (hX : Sane X) : ∀ c ∈ symHeads ++ c!"'\"0123456789", ¬ WordStart X c := by
  have key : ∀ c ∈ symHeads ++ c!"'\"0123456789", c.toNat < 128 ∧ c.isAlpha = false ∧ c ≠ '_' := by decide
  rintro c hc (h | h)
  · obtain ⟨h1, h2, -⟩ := key c hc
    rw [hX.start c h1, h2] at h
    cases h
  · exact (key c hc).2.2 h

theorem not_cont {X : Xid} (hX : Sane X) : ∀ c ∈ c!"'\"#", X.cont c = false := by
  have key : ∀ c ∈ c!"'\"#", c.toNat < 128 ∧ (c.isAlphanum || decide (c = '_')) = false := by decide
  intro c hc
  rw [hX.cont c (key c hc).1, (key c hc).2]

theorem ws_not_start {X : Xid} (hX : Sane X) {c : Char} (hc : c ∈ wsChars) : ¬ WordStart X c := by
  have key : ∀ c ∈ wsChars, c ≠ '_' := by decide
  rintro (h | h)
  · rw [(hX.ws c hc).1] at h; cases h
  · exact key c hc h

/-! ### alternatives that fail -/

theorem commentKind_head {d : Char} {s : Text} (h : d ≠ '/') : commentKind (d :: s) = none := by
  simp [commentKind, List.isPrefixOf, Ne.symm h]

theorem comment_none {s : Text} {o : Nat} (h : commentKind s = none) : FailsAt commentOrDocComment ⟨s, o⟩ := by
  rw [commentKind_cases] at h
  refine ⟨⟨s, o⟩, .ExpectedComment, [], ?_, rfl⟩
  unfold commentOrDocComment
  dsimp only
  repeat' split at h
  all_goals first | cases h | skip
  simp only [*, Bool.false_eq_true, if_false]

theorem rawStr_head {a post : Text} (h : RawStrLit a post) (s : Text) : ∃ c t, a ++ s = 'r' :: c :: t ∧ (c = '#' ∨ c = '"') := by
  obtain ⟨n, content, rfl, -⟩ := h
  cases n with
  | zero => exact ⟨'"', _, rfl, .inr rfl⟩
  | succ n => exact ⟨'#', _, by simp [List.replicate_succ]; rfl, .inl rfl⟩

theorem literalAt_cases {s : Text} (h : LiteralAt s) :
    (∃ c t, s = 'r' :: c :: t ∧ (c = '#' ∨ c = '"')) ∨ (∃ c t, s = 'b' :: c :: t ∧ (c = '\'' ∨ c = '"')) ∨
      (∃ c t, s = 'b' :: 'r' :: c :: t ∧ (c = '#' ∨ c = '"')) := by
  obtain ⟨a, post, rfl, h | ⟨b, rfl, h | h | h⟩⟩ := h
  · exact .inl (rawStr_head h _)
  · obtain ⟨x, -, rfl⟩ := h
    exact .inr (.inl ⟨'\'', _, rfl, .inl rfl⟩)
  · obtain ⟨x, -, rfl⟩ := h
    exact .inr (.inl ⟨'"', _, rfl, .inr rfl⟩)
  · obtain ⟨c, t, h1, h2⟩ := rawStr_head h post
    exact .inr (.inr ⟨c, t, by simp [h1], h2⟩)

/-- The alternatives before the symbols. -/
def earlyAlts (X : Xid) : List (LP Token) :=
  [ commentOrDocComment, mapTok character .Character, mapTok string .String, mapTok stringRaw .StringRaw, mapTok byte .Byte,
    mapTok byteString .ByteString, mapTok byteStringRaw .ByteStringRaw, mapTok (lifetime X) .Lifetime ]

theorem alternatives_eq (X : Xid) : commentOrDocComment :: singleTokenAlts X =
    earlyAlts X ++ symbolTable.map (fun r => mapTok (literal r.1) r.2) ++
      [keywordOrIdent X, LP.map (number X) Token.number, mapTok whitespace .Whitespace] := rfl

theorem early_none {X : Xid} {s : Text} {o : Nat} (h1 : commentKind s = none) (h2 : ∀ a post, s = a ++ post → ¬ CharLit a)
    (h3 : ∀ a post, s = a ++ post → ¬ StrLit a) (h4 : ¬ LiteralAt s) (h5 : ∀ w post, s = '\'' :: w ++ post → Word X w → NoCont X post → False) :
    ∀ p ∈ earlyAlts X, FailsAt p ⟨s, o⟩ := by
  intro p hp
  simp only [earlyAlts, List.mem_cons, List.not_mem_nil, or_false] at hp
  rcases hp with rfl | rfl | rfl | rfl | rfl | rfl | rfl | rfl
  · exact comment_none h1
  · exact mapTok_fails ((character_spec _).fails .character fun q v ⟨b, hb, he, _⟩ => h2 _ q.s he.1 ⟨b, hb, rfl⟩)
  · exact mapTok_fails ((string_spec _).fails .string fun q v ⟨b, hb, he, _⟩ => h3 _ q.s he.1 hb)
  · exact mapTok_fails ((stringRaw_spec _).fails .stringRaw fun q v ⟨b, hb, he, _⟩ => h4 ⟨b, q.s, he.1, .inl hb⟩)
  · refine mapTok_fails ((prefixed_spec (P := fun b _ => CharLit b) _ fun m => (character_spec m).mono ?_).fails (.prefixed .character) ?_)
    · rintro q v _ ⟨b, hb, he, -⟩
      exact ⟨_, ⟨b, hb, rfl⟩, he⟩
    · rintro q v ⟨b, hb, he, -⟩
      exact h4 ⟨_, q.s, he.1, .inr ⟨b, rfl, .inl hb⟩⟩
  · refine mapTok_fails ((prefixed_spec (P := fun b _ => StrLit b) _ fun m => (string_spec m).mono ?_).fails (.prefixed .string) ?_)
    · rintro q v _ ⟨b, hb, he, -⟩
      exact ⟨_, hb, he⟩
    · rintro q v ⟨b, hb, he, -⟩
      exact h4 ⟨_, q.s, he.1, .inr ⟨b, rfl, .inr (.inl hb)⟩⟩
  · refine mapTok_fails ((prefixed_spec (P := fun b post => RawStrLit b post) _ fun m => (stringRaw_spec m).mono ?_).fails (.prefixed .stringRaw) ?_)
    · rintro q v _ ⟨b, hb, he, -⟩
      exact ⟨_, hb, he⟩
    · rintro q v ⟨b, hb, he, -⟩
      exact h4 ⟨_, q.s, he.1, .inr ⟨b, rfl, .inr (.inr hb)⟩⟩
  · exact mapTok_fails ((lifetime_spec X _).fails (.lifetime X) fun q v ⟨w, hw, hn, he, _⟩ => h5 w q.s he.1 hw hn)

theorem early_fails {X : Xid} {d : Char} {s : Text} {o : Nat} (h1 : d ≠ '\'') (h2 : d ≠ '"') (h3 : commentKind (d :: s) = none)
    (h4 : ¬ LiteralAt (d :: s)) : ∀ p ∈ earlyAlts X, FailsAt p ⟨d :: s, o⟩ := by
  refine early_none h3 ?_ ?_ h4 ?_
  · rintro a post e ⟨b, -, rfl⟩
    simp at e
    exact h1 e.1
  · rintro a post e ⟨b, -, rfl⟩
    simp at e
    exact h2 e.1
  · intro w post e
    simp at e
    exact absurd e.1 h1

theorem symbols_fail {s : Text} {o : Nat} {l : List (Text × TK)} (h : ∀ r ∈ l, ¬ r.1 <+: s) :
    ∀ p ∈ l.map (fun r => mapTok (literal r.1) r.2), FailsAt p ⟨s, o⟩ := by
  intro p hp
  obtain ⟨r, hr, rfl⟩ := List.mem_map.mp hp
  refine mapTok_fails (literal_fails ?_)
  rw [Bool.eq_false_iff]
  intro hs
  obtain ⟨b, hb⟩ := startsWith_iff.mp hs
  exact h r hr ⟨b, hb.symm⟩

theorem symbols_fail_head {d : Char} {s : Text} {o : Nat} (h : d ∉ symHeads) :
    ∀ p ∈ symbolTable.map (fun r => mapTok (literal r.1) r.2), FailsAt p ⟨d :: s, o⟩ :=
  symbols_fail fun _ hr hp => h (symbol_head hr hp)

/-! ### words -/

theorem keywordOf_eq (w : Text) (k : TK) (h : keywordText k = some w) : keywordOf w = k := by
  cases k <;> simp [keywordText] at h <;> subst h <;> rfl

theorem keywordOf_ident {w : Text} (h : ∀ k, keywordText k ≠ some w) : keywordOf w = .Ident := by
  rcases keywordOf_spec w with h1 | h1
  · exact absurd (keywordTable_text _ h1) (h _)
  · exact h1.1

theorem gives_word {X : Xid} {w post : Text} {o : Nat} (hw : Word X w) (hp : NoCont X post) (hr : ¬ c!"r#" <+: w ++ post) :
    Gives (keywordOrIdent X) ⟨w ++ post, o⟩ ⟨post, o + blen w⟩ (.plain (keywordOf w) ⟨o, o + blen w⟩) := by
  obtain ⟨l, h⟩ := Gives.map (f := fun r : Text × Extent => Token.plain (keywordOf r.1) r.2)
    (Gives.split (b := post) (o := o) (e := .ExpectedIdentOrKeyword) hw.ne_nil)
  have hs : startsWith c!"r#" (w ++ post) = false := by
    rw [Bool.eq_false_iff]
    intro hs
    obtain ⟨b, hb⟩ := startsWith_iff.mp hs
    exact hr ⟨b, hb.symm⟩
  exact ⟨l, by simpa only [keywordOrIdent, hs, Bool.false_eq_true, if_false, identLen_word hw hp] using h⟩

theorem gives_rawIdent {X : Xid} {w post : Text} {o : Nat} (hw : Word X w) (hp : NoCont X post) :
    Gives (keywordOrIdent X) ⟨c!"r#" ++ w ++ post, o⟩ ⟨post, o + blen (c!"r#" ++ w)⟩ (.plain .Ident ⟨o, o + blen (c!"r#" ++ w)⟩) := by
  obtain ⟨l, h⟩ := Gives.map (f := fun r : Text × Extent => Token.plain .Ident r.2)
    (Gives.split (a := c!"r#" ++ w) (b := post) (o := o) (e := .ExpectedIdentOrKeyword) (by simp))
  have hs : startsWith c!"r#" (c!"r#" ++ w ++ post) = true := startsWith_iff.mpr ⟨w ++ post, by simp⟩
  have h2 : splitAtByte 2 (c!"r#" ++ w ++ post) = some (c!"r#", w ++ post) := by
    rw [List.append_assoc]; exact splitAtByte_blen c!"r#" (w ++ post)
  have h0 : blen w ≠ 0 := by have := blen_pos hw.ne_nil; omega
  have hl : 2 + blen w = blen (c!"r#" ++ w) := by rw [blen_append]; rfl
  exact ⟨l, by simp only [keywordOrIdent, hs, if_true, h2, identLen_word hw hp, h0, if_false, hl]; exact h⟩

theorem word_fails {X : Xid} {d : Char} {s : Text} {o : Nat} (h : ¬ WordStart X d) (hr : d ≠ 'r') : FailsAt (keywordOrIdent X) ⟨d :: s, o⟩ := by
  have h0 : identLen X (d :: s) = 0 := identLen_zero (by rintro ⟨_, _, ⟨⟩, h'⟩; exact h h')
  have hs : startsWith c!"r#" (d :: s) = false := startsWith_head_ne (Ne.symm hr)
  exact ⟨⟨d :: s, o⟩, .ExpectedIdentOrKeyword, [], by
    simp only [keywordOrIdent, hs, Bool.false_eq_true, if_false, h0]; rfl, rfl⟩

theorem keyword_word {X : Xid} (hX : Sane X) {k : TK} {w : Text} (h : keywordText k = some w) : Word X w := by
  have key : ∀ r ∈ keywordTable, r.1.all (fun c => decide (c.toNat < 128) && c.isAlpha) = true ∧ r.1 ≠ [] := by decide
  obtain ⟨h1, h2⟩ := key _ (keywordText_table k w h)
  dsimp only at h1 h2
  cases w with
  | nil => exact absurd rfl h2
  | cons c cs =>
    simp only [List.all_eq_true, Bool.and_eq_true, decide_eq_true_eq, List.mem_cons] at h1
    refine ⟨c, cs, rfl, .inl ?_, fun d hd => ?_⟩
    · obtain ⟨a, b⟩ := h1 c (.inl rfl)
      rw [hX.start c a, b]
    · obtain ⟨a, b⟩ := h1 d (.inr hd)
      rw [hX.cont d a]
      simp [Char.isAlphanum, b]

theorem keyword_no_literal {k : TK} {w : Text} (h : keywordText k = some w) (post : Text) :
    ¬ LiteralAt (w ++ post) ∧ ¬ c!"r#" <+: w ++ post := by
  constructor
  · intro hl
    rcases literalAt_cases hl with ⟨c, t, e, hc⟩ | ⟨c, t, e, hc⟩ | ⟨c, t, e, hc⟩ <;>
      cases k <;> simp [keywordText] at h <;> subst h <;> simp at e <;> obtain ⟨rfl, -⟩ := e <;> simp at hc
  · rintro ⟨t, e⟩
    cases k <;> simp [keywordText] at h <;> subst h <;> simp at e

/-! ### uniqueness -/

theorem lineTo_unique {a b a' b' : Text} (e : a ++ b = a' ++ b') (h : LineTo a b) (h' : LineTo a' b') : a = a' ∧ b = b' := by
  have key : ∀ {a b a' b' x : Text}, a' = a ++ x → b = x ++ b' → LineTo a b → LineTo a' b' → x = [] := by
    intro a b a' b' x h1 h2 h3 h4
    cases x with
    | nil => rfl
    | cons c x =>
      exfalso
      have := h3.2 c (x ++ b') h2
      exact h4.1 (by rw [h1]; simp [this])
  rcases List.append_eq_append_iff.mp e with ⟨x, h1, h2⟩ | ⟨x, h1, h2⟩
  · have := key h1 h2 h h'
    subst this
    exact ⟨by simp [h1], by simpa using h2⟩
  · have := key h1 h2 h' h
    subst this
    exact ⟨by simp [h1], by simpa using h2.symm⟩

theorem blockTo_unique {op a b a' b' : Text} (e : a ++ b = a' ++ b') (h : BlockTo op a b) (h' : BlockTo op a' b') : a = a' ∧ b = b' := by
  rcases h with ⟨i, rfl, h⟩ | ⟨i, rfl, h, rfl⟩ <;> rcases h' with ⟨i', rfl, h'⟩ | ⟨i', rfl, h', rfl⟩
  · simp only [List.append_assoc, List.append_cancel_left_eq] at e h h'
    rw [← e] at h'
    have := firstOcc_unique h h'
    subst this
    simpa using e
  · simp only [List.append_assoc, List.append_cancel_left_eq, List.append_nil] at e
    exact absurd e.symm (by simpa using h' i b)
  · simp only [List.append_assoc, List.append_cancel_left_eq, List.append_nil] at e
    exact absurd e (by simpa using h i' b')
  · simpa using e

/-! ### one token -/

theorem gives_alt {X : Xid} {pt q : LPoint} {v : Token} {before after : List (LP Token)} {p : LP Token}
    (heq : commentOrDocComment :: singleTokenAlts X = before ++ p :: after) (hp : Gives p pt q v)
    (hb : ∀ r ∈ before, FailsAt r pt) : Gives (singleToken X) pt q v := by
  obtain ⟨l, hp⟩ := hp
  unfold singleToken
  exact alts_first_ok heq hp hb

theorem gives_mapTok {p : LP Extent} {k : TK} {s a post : Text} {o : Nat} {X : Xid} (hm : mapTok p k ∈ commentOrDocComment :: singleTokenAlts X)
    (hs : s = a ++ post) (h : OkAt p ⟨s, o⟩ ⟨post, o + blen a⟩) : Gives (mapTok p k) ⟨s, o⟩ ⟨post, o + blen a⟩ (.plain k ⟨o, o + blen a⟩) := by
  obtain ⟨v, l, hv⟩ := h
  have h1 : mapTok p k ⟨s, o⟩ = (.ok ⟨post, o + blen a⟩ (.plain k v), l) := by simp [mapTok, LP.map, LP.bind, hv, LP.pure]
  obtain ⟨_, ⟨body, he, hs'⟩, _⟩ := (singleTokenAlt_spec X _ _ hm).of_ok h1
  have hx := TokenShape.extent hs'
  simp only [Token.extent] at hx
  have he := he.2
  simp only at he
  rw [hx, ← he] at h1
  exact ⟨l, h1⟩

theorem comment_gives {X : Xid} {k : TK} {body post : Text} {o : Nat} (h : commentKind (body ++ post) = some k)
    (hu : ∀ a b x, a ++ b = body ++ post → TokenShape X o (.plain k x) a b → a = body ∧ b = post) :
    Gives (singleToken X) ⟨body ++ post, o⟩ ⟨post, o + blen body⟩ (.plain k ⟨o, o + blen body⟩) := by
  obtain ⟨q, e, l, h1⟩ := comment_ok (pt := ⟨body ++ post, o⟩) h
  obtain ⟨_, ⟨a, he, hs⟩, _⟩ := (singleTokenAlt_spec X _ commentOrDocComment (by simp)).of_ok h1
  have hx := TokenShape.extent hs
  simp only [Token.extent] at hx
  subst hx
  obtain ⟨h2, h3⟩ := hu a q.s _ he.1.symm hs
  obtain ⟨qs, qo⟩ := q
  have hq := he.2
  dsimp only at h3 hq
  subst h2 h3 hq
  exact gives_alt (before := []) rfl ⟨l, h1⟩ (by simp)

theorem NumText_head {X : Xid} {p : NumParts} {post : Text} (h : NumText X p post) (hu : ¬ StartsIn (· = '_') p.text) :
    ∃ d t, p.text ++ post = d :: t ∧ d ∈ c!"0123456789" := by
  have hn := h.ne
  have hd := h.digits
  cases hi : p.ints with
  | nil => exact absurd hi hn
  | cons c cs =>
    have hc := hd c (by simp [hi])
    unfold NumParts.text at hu ⊢
    cases hb : p.base <;> rw [hb] at hu hc <;> simp only [basePrefix, hi, List.cons_append, List.nil_append] at hu ⊢
    case Decimal =>
      refine ⟨c, _, rfl, ?_⟩
      rcases hc with hc | hc
      · exact hc
      · exact absurd ⟨c, _, rfl, hc⟩ hu
    all_goals exact ⟨'0', _, rfl, by decide⟩

theorem number_fails {X : Xid} {s : Text} {o : Nat} (h : ∀ b, ¬ HasBase b s) : FailsAt (number X) ⟨s, o⟩ := by
  refine (number_spec X _).fails (.number X) ?_
  rintro q n ⟨body, he, hs⟩
  obtain ⟨ints, frac, mark, exp, suf, hb, hn, hd, -⟩ := hs.parts
  have e := he.1
  dsimp only at e
  rw [hb] at e
  cases ints with
  | nil => exact hn rfl
  | cons c cs => exact h n.base ⟨_, by simpa only [List.append_assoc, List.cons_append] using e, c, _, rfl, hd c (by simp)⟩

theorem HasBase_head {b : NumBase} {d : Char} {s : Text} (h : HasBase b (d :: s)) : d ∈ c!"0123456789_" := by
  obtain ⟨t, e, c, t', rfl, hc⟩ := h
  cases b <;> simp only [basePrefix, List.cons_append, List.nil_append, List.cons.injEq] at e
  case Decimal =>
    rw [e.1]
    rcases hc with hc | hc
    · simp only [digitChars, List.mem_cons, List.not_mem_nil, or_false] at hc ⊢
      rcases hc with h | h | h | h | h | h | h | h | h | h <;> simp [h]
    · simp [hc]
  all_goals rw [e.1]; decide

/-- A token written by the lexical grammar is read as it is written. -/
theorem spelling_read {X : Xid} (hX : Sane X) {o : Nat} {t : Token} {body post : Text} (h : Spelling X o t body post) :
    Gives (singleToken X) ⟨body ++ post, o⟩ ⟨post, o + blen body⟩ t := by
  have words : ∀ {w post : Text}, Word X w → NoCont X post → ¬ LiteralAt (w ++ post) → ¬ c!"r#" <+: w ++ post →
      Gives (singleToken X) ⟨w ++ post, o⟩ ⟨post, o + blen w⟩ (.plain (keywordOf w) ⟨o, o + blen w⟩) := by
    intro w post hw hp hl hr
    have g := gives_word (o := o) hw hp hr
    refine gives_alt (by rw [alternatives_eq]) g ?_
    obtain ⟨c, cs, rfl, hc, -⟩ := hw
    have hns := fun h => not_start hX c h hc
    intro r hr
    rcases List.mem_append.mp hr with hr | hr
    · refine early_fails ?_ ?_ (commentKind_head ?_) hl r hr
      all_goals rintro rfl; exact hns (by decide)
    · exact symbols_fail_head (fun h => hns (by simp [h])) r hr
  cases h with
  | ident hw hk hp hl hr =>
    rw [← keywordOf_ident hk]
    exact words hw hp hl hr
  | keyword hk hp =>
    rw [← keywordOf_eq _ _ hk]
    exact words (keyword_word hX hk) hp (keyword_no_literal hk post).1 (keyword_no_literal hk post).2
  | @rawIdent w _ hw hp =>
    have g := gives_rawIdent (o := o) hw hp
    refine gives_alt (by rw [alternatives_eq]) g ?_
    obtain ⟨c, cs, rfl, hc, -⟩ := hw
    have hns := fun h => not_start hX c h hc
    intro r hr
    rcases List.mem_append.mp hr with hr | hr
    · refine early_fails (by decide) (by decide) (commentKind_head (by decide)) ?_ r hr
      intro hl
      obtain ⟨a, post', e, h | ⟨b, rfl, -⟩⟩ := hl
      · obtain ⟨n, content, rfl, -⟩ := h
        cases n with
        | zero => simp at e
        | succ n =>
          cases n with
          | zero => simp at e; exact hns (by simp [e.1])
          | succ n => simp [List.replicate_succ] at e; exact hns (by simp [e.1, symHeads])
      · simp at e
    · exact symbols_fail_head (by decide) r hr
  | @symbol k _ _ hk hlong hc =>
    obtain ⟨w, rfl⟩ : ∃ w, w = body := ⟨_, rfl⟩
    have hm := symbolText_table k w hk
    obtain ⟨A, B, hAB⟩ := List.append_of_mem hm
    have hpw : symbolTable.Pairwise (fun a b => ¬ a.1 <+: b.1) := by decide
    have g := gives_mapTok (X := X) (p := literal w) (k := k) (s := w ++ post) (a := w) (post := post) (o := o)
      (by rw [alternatives_eq]; exact List.mem_append_left _ (List.mem_append_right _ (List.mem_map.mpr ⟨_, hm, rfl⟩)))
      rfl (Gives.literal w post o).okAt
    refine gives_alt (before := earlyAlts X ++ A.map (fun r => mapTok (literal r.1) r.2))
      (after := B.map (fun r => mapTok (literal r.1) r.2) ++ [keywordOrIdent X, LP.map (number X) Token.number, mapTok whitespace .Whitespace])
      (by rw [alternatives_eq, hAB]; simp) g ?_
    have hh := symbolTable_heads _ hm
    intro r hr
    rcases List.mem_append.mp hr with hr | hr
    · cases w with
      | nil => cases hh
      | cons c cs =>
        have hcs : c ∈ symHeads := by simpa using hh
        refine early_fails ?_ ?_ hc ?_ r hr
        · rintro rfl; revert hcs; decide
        · rintro rfl; revert hcs; decide
        · intro hl
          rcases literalAt_cases hl with ⟨_, _, e, -⟩ | ⟨_, _, e, -⟩ | ⟨_, _, e, -⟩ <;>
            (simp only [List.cons_append, List.cons.injEq] at e; rw [e.1] at hcs; revert hcs; decide)
    · refine symbols_fail ?_ r hr
      intro r hr hpre
      have hrm : r ∈ symbolTable := by rw [hAB]; exact List.mem_append_left _ hr
      have hle := hlong r.2 r.1 (symbolTable_text r hrm) hpre
      have hno : ¬ r.1 <+: w := by
        rw [hAB] at hpw
        exact (List.pairwise_append.mp hpw).2.2 r hr _ List.mem_cons_self
      exact hno (List.prefix_of_prefix_length_le hpre (List.prefix_append w post) hle)
  | char hb =>
    obtain ⟨x, hx, rfl⟩ := hb
    refine gives_alt (before := [commentOrDocComment]) rfl (gives_mapTok (X := X) (by simp [singleTokenAlts]) rfl (okAt_character ⟨rfl, rfl⟩ hx)) ?_
    intro r hr
    simp only [List.mem_singleton] at hr
    subst hr
    exact comment_fails rfl (by decide)
  | str hb =>
    have hs : ∃ s, body = '"' :: s := by obtain ⟨x, hx, rfl⟩ := hb; exact ⟨_, rfl⟩
    refine gives_alt (before := [commentOrDocComment, _]) rfl (gives_mapTok (X := X) (by simp [singleTokenAlts]) rfl (okAt_string ⟨rfl, rfl⟩ hb)) ?_
    obtain ⟨s, rfl⟩ := hs
    intro r hr
    simp only [List.mem_cons, List.not_mem_nil, or_false] at hr
    rcases hr with rfl | rfl
    · exact comment_fails rfl (by decide)
    · exact mapTok_fails (character_fails rfl (by decide))
  | strRaw hb =>
    have hs : ∃ s, body ++ post = 'r' :: s := by obtain ⟨c, t, h, -⟩ := rawStr_head hb post; exact ⟨_, h⟩
    refine gives_alt (before := [commentOrDocComment, _, _]) rfl (gives_mapTok (X := X) (by simp [singleTokenAlts]) rfl (okAt_stringRaw ⟨rfl, rfl⟩ hb)) ?_
    obtain ⟨s, hs⟩ := hs
    rw [hs]
    intro r hr
    simp only [List.mem_cons, List.not_mem_nil, or_false] at hr
    rcases hr with rfl | rfl | rfl
    · exact comment_fails rfl (by decide)
    · exact mapTok_fails (character_fails rfl (by decide))
    · exact mapTok_fails (string_fails rfl (by decide))
  | @byte b _ hb =>
    obtain ⟨x, hx, rfl⟩ := hb
    have e : Eats ⟨'b' :: (c!"'" ++ x ++ c!"'") ++ post, o⟩ c!"b" ⟨(c!"'" ++ x ++ c!"'") ++ post, o + blen c!"b"⟩ := ⟨rfl, rfl⟩
    refine gives_alt (before := [commentOrDocComment, _, _, _]) rfl (gives_mapTok (X := X) (a := 'b' :: (c!"'" ++ x ++ c!"'"))
      (by simp [singleTokenAlts]) rfl (okAt_prefixed e (okAt_character ⟨rfl, by simp; omega⟩ hx) ⟨_, rfl, rfl⟩)) ?_
    intro r hr
    simp only [List.mem_cons, List.not_mem_nil, or_false] at hr
    rcases hr with rfl | rfl | rfl | rfl
    · exact comment_fails rfl (by decide)
    · exact mapTok_fails (character_fails rfl (by decide))
    · exact mapTok_fails (string_fails rfl (by decide))
    · exact mapTok_fails (stringRaw_fails rfl (by decide))
  | @byteStr b _ hb =>
    have hs : ∃ s, b = '"' :: s := by obtain ⟨x, hx, rfl⟩ := hb; exact ⟨_, rfl⟩
    have e : Eats ⟨'b' :: b ++ post, o⟩ c!"b" ⟨b ++ post, o + blen c!"b"⟩ := ⟨rfl, rfl⟩
    refine gives_alt (before := [commentOrDocComment, _, _, _, _]) rfl (gives_mapTok (X := X) (a := 'b' :: b)
      (by simp [singleTokenAlts]) rfl (okAt_prefixed e (okAt_string ⟨rfl, by simp; omega⟩ hb) ⟨_, rfl, rfl⟩)) ?_
    obtain ⟨s, rfl⟩ := hs
    intro r hr
    simp only [List.mem_cons, List.not_mem_nil, or_false] at hr
    rcases hr with rfl | rfl | rfl | rfl | rfl
    · exact comment_fails rfl (by decide)
    · exact mapTok_fails (character_fails rfl (by decide))
    · exact mapTok_fails (string_fails rfl (by decide))
    · exact mapTok_fails (stringRaw_fails rfl (by decide))
    · exact mapTok_fails (prefixed_fails e (character_fails rfl (by decide)))
  | @byteStrRaw b _ hb =>
    have hs : ∃ s, b ++ post = 'r' :: s := by obtain ⟨c, t, h, -⟩ := rawStr_head hb post; exact ⟨_, h⟩
    have e : Eats ⟨'b' :: b ++ post, o⟩ c!"b" ⟨b ++ post, o + blen c!"b"⟩ := ⟨rfl, rfl⟩
    refine gives_alt (before := [commentOrDocComment, _, _, _, _, _]) rfl (gives_mapTok (X := X) (a := 'b' :: b)
      (by simp [singleTokenAlts]) rfl (okAt_prefixed e (okAt_stringRaw ⟨rfl, by simp; omega⟩ hb) ⟨_, rfl, rfl⟩)) ?_
    obtain ⟨s, hs⟩ := hs
    intro r hr
    simp only [List.mem_cons, List.not_mem_nil, or_false] at hr
    rcases hr with rfl | rfl | rfl | rfl | rfl | rfl
    · exact comment_fails rfl (by decide)
    · exact mapTok_fails (character_fails rfl (by decide))
    · exact mapTok_fails (string_fails rfl (by decide))
    · exact mapTok_fails (stringRaw_fails rfl (by decide))
    · exact mapTok_fails (prefixed_fails e (character_fails (s := s) hs (by decide)))
    · exact mapTok_fails (prefixed_fails e (string_fails (s := s) hs (by decide)))
  | @lifetime w _ hw hp hq =>
    have e : Gives (literal c!"'") ⟨'\'' :: w ++ post, o⟩ ⟨w ++ post, o + blen c!"'"⟩ _ := .literal c!"'" (w ++ post) o
    have g : OkAt (lifetime X) ⟨'\'' :: w ++ post, o⟩ ⟨post, o + blen ('\'' :: w)⟩ := by
      have g2 := gives_simpleIdent (o := o + blen c!"'") hw hp
      have e2 : o + blen c!"'" + blen w = o + blen ('\'' :: w) := by simp; omega
      rw [e2] at g2
      exact (Gives.bind .point (.bind e (.bind g2 (.exHere (spt := ⟨'\'' :: w ++ post, o⟩) (Nat.le_add_right _ _))))).okAt
    refine gives_alt (before := [commentOrDocComment, _, _, _, _, _, _]) rfl (gives_mapTok (X := X) (a := '\'' :: w)
      (by simp [singleTokenAlts]) rfl g) ?_
    intro r hr
    simp only [List.mem_cons, List.not_mem_nil, or_false] at hr
    rcases hr with rfl | rfl | rfl | rfl | rfl | rfl | rfl
    · exact comment_fails rfl (by decide)
    · refine mapTok_fails ((character_spec _).fails .character ?_)
      rintro q v ⟨b, hb, he, -⟩
      obtain ⟨c, cs, rfl, hc, hcs⟩ := hw
      have e := he.1
      cases hb with
      | single h =>
        simp at e
        obtain ⟨rfl, e⟩ := e
        cases cs with
        | nil => exact hq ⟨rfl, _, _, e, rfl⟩
        | cons d ds =>
          have h1 := hcs d (by simp)
          simp at e
          rw [e.1, not_cont hX '\'' (by decide)] at h1
          cases h1
      | esc h =>
        simp at e
        exact not_start hX c (by simp [e.1, symHeads]) hc
    · exact mapTok_fails (string_fails rfl (by decide))
    · exact mapTok_fails (stringRaw_fails rfl (by decide))
    all_goals exact mapTok_fails (point_fails (bind_fails (literal_fails (startsWith_head_ne (by decide)))))
  | @number p _ hn hu =>
    obtain ⟨d, t, hd, hm⟩ := NumText_head hn hu
    refine gives_alt (after := [mapTok whitespace .Whitespace])
      (before := earlyAlts X ++ symbolTable.map (fun r => mapTok (literal r.1) r.2) ++ [keywordOrIdent X]) (by rw [alternatives_eq]; simp)
      (gives_number hn).map ?_
    rw [hd]
    intro r hr
    simp only [List.mem_append, List.mem_singleton, or_assoc] at hr
    rcases hr with hr | hr | rfl
    · refine early_fails ?_ ?_ (commentKind_head ?_) ?_ r hr
      any_goals rintro rfl; revert hm; decide
      intro hl
      rcases literalAt_cases hl with ⟨_, _, e, -⟩ | ⟨_, _, e, -⟩ | ⟨_, _, e, -⟩ <;> (cases e; revert hm; decide)
    · refine symbols_fail_head ?_ r hr
      have key : ∀ d ∈ c!"0123456789", d ∉ symHeads := by decide
      exact key d hm
    · refine word_fails (not_start hX d ?_) ?_
      · have key : ∀ d ∈ c!"0123456789", d ∈ symHeads ++ c!"'\"0123456789" := by decide
        exact key d hm
      · rintro rfl; revert hm; decide
  | line hk hc hl =>
    refine comment_gives hc ?_
    intro a b x e hs
    cases hs with
    | line _ _ h => exact lineTo_unique e h hl
    | block h => rcases hk with rfl | rfl | rfl <;> cases h
    | symbol h => have := symbolTable_text _ h; rcases hk with rfl | rfl | rfl <;> cases this
    | keyword _ _ h => have := keywordTable_text _ h; rcases hk with rfl | rfl | rfl <;> cases this
    | _ => rcases hk with h | h | h <;> cases h
  | @block k _ _ _ hk hc hl =>
    refine comment_gives hc ?_
    intro a b x e hs
    cases hs with
    | line h => rcases h with rfl | rfl | rfl <;> cases hk
    | block h _ hb => rw [hk] at h; cases h; exact blockTo_unique e hb hl
    | symbol h => have := symbolTable_text _ h; cases k <;> simp [blockOpener] at hk <;> cases this
    | keyword _ _ h => have := keywordTable_text _ h; cases k <;> simp [blockOpener] at hk <;> cases this
    | _ => cases hk
  | ws hn hw hp =>
    obtain ⟨d, t, rfl⟩ : ∃ d t, body = d :: t := by cases body with | nil => exact absurd rfl hn | cons d t => exact ⟨d, t, rfl⟩
    have hd : d ∈ wsChars := hw d (by simp)
    have ht : ((d :: t) ++ post).takeWhile isWs = d :: t := by
      refine takeWhile_append_stop (fun c hc => ?_) fun c s hs => ?_
      · have := hw c hc
        simpa [isWs, wsChars, or_assoc] using this
      · rw [Bool.eq_false_iff]
        intro h
        exact hp ⟨c, s, hs, by simpa [isWs, wsChars, or_assoc] using h⟩
    have g : Gives whitespace ⟨(d :: t) ++ post, o⟩ ⟨post, o + blen (d :: t)⟩ ⟨o, o + blen (d :: t)⟩ := by
      obtain ⟨l, h⟩ := Gives.map (f := fun r : Text × Extent => r.2) (Gives.split (a := d :: t) (b := post) (o := o) (e := .ExpectedWhitespace) (by simp))
      exact ⟨l, by simpa only [whitespace, takeWhileLen, ht] using h⟩
    refine gives_alt (after := [])
      (before := earlyAlts X ++ symbolTable.map (fun r => mapTok (literal r.1) r.2) ++ [keywordOrIdent X, LP.map (number X) Token.number])
      (by rw [alternatives_eq]; simp) (gives_mapTok (X := X) (a := d :: t) (by simp [singleTokenAlts]) rfl g.okAt) ?_
    intro r hr
    simp only [List.mem_append, List.mem_cons, List.not_mem_nil, or_false, or_assoc] at hr
    rcases hr with hr | hr | rfl | rfl
    · refine early_fails ?_ ?_ (commentKind_head ?_) ?_ r hr
      any_goals rintro rfl; revert hd; decide
      intro hl
      rcases literalAt_cases hl with ⟨_, _, e, -⟩ | ⟨_, _, e, -⟩ | ⟨_, _, e, -⟩ <;>
        (simp only [List.cons_append, List.cons.injEq] at e; rw [e.1] at hd; revert hd; decide)
    · refine symbols_fail_head ?_ r hr
      have key : ∀ d ∈ wsChars, d ∉ symHeads := by decide
      exact key d hd
    · exact word_fails (ws_not_start hX hd) (by rintro rfl; revert hd; decide)
    · refine bind_fails (number_fails fun b hb => ?_)
      have key : ∀ d ∈ wsChars, d ∉ c!"0123456789_" := by decide
      exact key d hd (HasBase_head hb)

/-! ### every token read is one of the lexical grammar -/

theorem exists_longest {P : Text × TK → Prop} {l : List (Text × TK)} (h : ∃ r ∈ l, P r) :
    ∃ r ∈ l, P r ∧ ∀ r' ∈ l, P r' → r'.1.length ≤ r.1.length := by
  induction l with
  | nil => obtain ⟨r, hr, -⟩ := h; cases hr
  | cons x l ih =>
    by_cases hl : ∃ r ∈ l, P r
    · obtain ⟨r, hr, hp, hm⟩ := ih hl
      by_cases hx : P x ∧ r.1.length < x.1.length
      · refine ⟨x, by simp, hx.1, fun r' hr' hp' => ?_⟩
        rcases List.mem_cons.mp hr' with rfl | hr'
        · exact Nat.le_refl _
        · have := hm r' hr' hp'; omega
      · refine ⟨r, by simp [hr], hp, fun r' hr' hp' => ?_⟩
        rcases List.mem_cons.mp hr' with rfl | hr'
        · have : ¬ r.1.length < r'.1.length := fun h => hx ⟨hp', h⟩
          omega
        · exact hm r' hr' hp'
    · obtain ⟨r, hr, hp⟩ := h
      rcases List.mem_cons.mp hr with rfl | hr
      · refine ⟨r, by simp, hp, fun r' hr' hp' => ?_⟩
        rcases List.mem_cons.mp hr' with rfl | hr'
        · exact Nat.le_refl _
        · exact absurd ⟨r', hr', hp'⟩ hl
      · exact absurd ⟨r, hr, hp⟩ hl

theorem split_mem {α} {A B C D : List α} {x y : α} (h : A ++ x :: B = C ++ y :: D) : y ∈ A ∨ y = x ∨ x ∈ C := by
  rcases List.append_eq_append_iff.mp h with ⟨u, h1, h2⟩ | ⟨u, h1, h2⟩
  · cases u with
    | nil => simp at h2; exact .inr (.inl h2.1.symm)
    | cons z u => simp at h2; exact .inr (.inr (by rw [h1]; simp [h2.1]))
  · cases u with
    | nil => simp at h2; exact .inr (.inl h2.1)
    | cons z u => simp at h2; exact .inl (by rw [h1]; simp [h2.1])

theorem FailsAt.not_ok {α} {p : LP α} {pt q : LPoint} {v : α} {l : LLog} (h : FailsAt p pt) (h' : p pt = (.ok q v, l)) : False := by
  obtain ⟨_, _, _, h, _⟩ := h
  rw [h] at h'
  cases h'

theorem commentKind_kinds {s : Text} {k : TK} (h : commentKind s = some k) : isLineKind k ∨ ∃ op, blockOpener k = some op := by
  rw [commentKind_cases] at h
  repeat' split at h
  all_goals first | (cases h; simp [isLineKind, blockOpener]; done) | cases h

theorem rawIdent_missing {X : Xid} {t : Text} {o : Nat} (h : ¬ StartsIn (WordStart X) t) :
    ∃ q e l, keywordOrIdent X ⟨c!"r#" ++ t, o⟩ = (.fail q e, l) ∧ e.recoverable = false := by
  have hs : startsWith c!"r#" (c!"r#" ++ t) = true := startsWith_iff.mpr ⟨t, rfl⟩
  have h2 : splitAtByte 2 (c!"r#" ++ t) = some (c!"r#", t) := splitAtByte_blen c!"r#" t
  exact ⟨_, _, _, by simp only [keywordOrIdent, hs, if_true, h2, identLen_zero h]; rfl, rfl⟩

/-- Where the tokenizer reads a token, the lexical grammar has one. -/
theorem spelling_exists {X : Xid} (hX : Sane X) {s : Text} {o : Nat} {q : LPoint} {t : Token} {l : LLog}
    (h : singleToken X ⟨s, o⟩ = (.ok q t, l)) : ∃ t' body post, s = body ++ post ∧ Spelling X o t' body post := by
  by_cases hc : ∃ k, commentKind s = some k
  · obtain ⟨k, hc⟩ := hc
    obtain ⟨q, e, l, h1⟩ := comment_ok (pt := ⟨s, o⟩) hc
    obtain ⟨_, ⟨a, he, hs⟩, _⟩ := (singleTokenAlt_spec X _ commentOrDocComment (by simp)).of_ok h1
    have hq := he.1
    dsimp only at hq
    rw [hq] at hc ⊢
    refine ⟨.plain k e, a, q.s, rfl, ?_⟩
    have hk := commentKind_kinds hc
    cases hs with
    | line a1 a2 a3 => exact .line a1 a2 a3
    | block a1 a2 a3 => exact .block a1 a2 a3
    | symbol h =>
      have := symbolTable_text _ h
      rcases hk with (rfl | rfl | rfl) | ⟨op, hk⟩
      · cases this
      · cases this
      · cases this
      · cases k <;> simp [blockOpener] at hk <;> cases this
    | keyword _ _ h =>
      have := keywordTable_text _ h
      rcases hk with (rfl | rfl | rfl) | ⟨op, hk⟩
      · cases this
      · cases this
      · cases this
      · cases k <;> simp [blockOpener] at hk <;> cases this
    | _ => rcases hk with (h | h | h) | ⟨op, hk⟩ <;> first | cases h | cases hk
  have hc : commentKind s = none := by
    cases hk : commentKind s with
    | none => rfl
    | some k => exact absurd ⟨k, hk⟩ hc
  by_cases h1 : ∃ a post, s = a ++ post ∧ CharLit a
  · obtain ⟨a, post, rfl, h1⟩ := h1
    exact ⟨_, a, post, rfl, .char h1⟩
  by_cases h2 : ∃ a post, s = a ++ post ∧ StrLit a
  · obtain ⟨a, post, rfl, h2⟩ := h2
    exact ⟨_, a, post, rfl, .str h2⟩
  by_cases h3 : LiteralAt s
  · obtain ⟨a, post, rfl, h3 | ⟨b, rfl, h3 | h3 | h3⟩⟩ := h3
    · exact ⟨_, _, post, rfl, .strRaw h3⟩
    · exact ⟨_, _, post, rfl, .byte h3⟩
    · exact ⟨_, _, post, rfl, .byteStr h3⟩
    · exact ⟨_, _, post, rfl, .byteStrRaw h3⟩
  by_cases h4 : ∃ w post, s = '\'' :: w ++ post ∧ Word X w ∧ NoCont X post
  · obtain ⟨w, post, rfl, hw, hp⟩ := h4
    refine ⟨_, _, post, rfl, .lifetime hw hp ?_⟩
    rintro ⟨hl, c, r, rfl, rfl⟩
    obtain ⟨c, cs, rfl, hcw, -⟩ := hw
    cases cs with
    | cons d ds => simp at hl
    | nil =>
      refine h1 ⟨c!"'" ++ [c] ++ c!"'", r, rfl, [c], .single ?_, rfl⟩
      rintro rfl
      exact not_start hX _ (by decide) hcw
  have early : ∀ p ∈ earlyAlts X, FailsAt p ⟨s, o⟩ :=
    early_none hc (fun a post e h => h1 ⟨a, post, e, h⟩) (fun a post e h => h2 ⟨a, post, e, h⟩) h3
      (fun w post e h h' => h4 ⟨w, post, e, h, h'⟩)
  by_cases h5 : ∃ r ∈ symbolTable, r.1 <+: s
  · obtain ⟨r, hr, ⟨post, rfl⟩, hm⟩ := exists_longest h5
    exact ⟨_, r.1, post, rfl, .symbol (symbolTable_text r hr) (fun k' w' hk' hp => hm _ (symbolText_table k' w' hk') hp) hc⟩
  have symbols : ∀ p ∈ symbolTable.map (fun r => mapTok (literal r.1) r.2), FailsAt p ⟨s, o⟩ :=
    symbols_fail fun r hr hp => h5 ⟨r, hr, hp⟩
  unfold singleToken at h
  obtain ⟨before, p, after, l', heq, hp, hb⟩ := alts_ok h
  rw [alternatives_eq] at heq
  by_cases h6 : c!"r#" <+: s
  · obtain ⟨t, rfl⟩ := h6
    by_cases ht : StartsIn (WordStart X) t
    · obtain ⟨w, post, rfl, hw, hn⟩ := word_split ht
      exact ⟨_, _, post, (List.append_assoc ..).symm, .rawIdent hw hn⟩
    · exfalso
      obtain ⟨q', e', l', hk, he'⟩ := rawIdent_missing (o := o) ht
      rcases split_mem heq with hm | hm | hm
      · rcases List.mem_append.mp hm with hm | hm
        · exact (early _ hm).not_ok hp
        · exact (symbols _ hm).not_ok hp
      · rw [hm, hk] at hp; cases hp
      · obtain ⟨_, e'', _, hf, hr⟩ := hb _ hm
        rw [hk] at hf
        cases hf
        rw [he'] at hr
        cases hr
  by_cases h7 : StartsIn (WordStart X) s
  · obtain ⟨w, post, rfl, hw, hn⟩ := word_split h7
    by_cases hk : ∃ k, keywordText k = some w
    · obtain ⟨k, hk⟩ := hk
      exact ⟨_, w, post, rfl, .keyword hk hn⟩
    · exact ⟨_, w, post, rfl, .ident hw (fun k h => hk ⟨k, h⟩) hn h3 h6⟩
  have num : ∀ b, HasBase b s → (b = .Decimal → ∀ b' ≠ .Decimal, ¬ HasBase b' s) →
      ∃ t' body post, s = body ++ post ∧ Spelling X o t' body post := by
    intro b hb hd
    obtain ⟨p, post, -, rfl, hn⟩ := number_split X b hb hd
    refine ⟨_, _, post, rfl, .number hn ?_⟩
    rintro ⟨c, r, hr, rfl⟩
    exact h7 ⟨'_', r ++ post, by rw [hr]; rfl, .inr rfl⟩
  by_cases h8 : ∃ b, b ≠ .Decimal ∧ HasBase b s
  · obtain ⟨b, hb, h8⟩ := h8
    exact num b h8 fun e => absurd e hb
  by_cases h9 : HasBase .Decimal s
  · exact num _ h9 fun _ b' hb' h => h8 ⟨b', hb', h⟩
  by_cases h10 : StartsIn (· ∈ wsChars) s
  · have key : ∀ c, isWs c = true ↔ c ∈ wsChars := fun c => by simp [isWs, wsChars, or_assoc]
    have e := takeWhile_split isWs s
    refine ⟨_, _, _, e, .ws ?_ (fun c hc => (key c).mp (takeWhile_all c hc)) ?_⟩
    · obtain ⟨d, r, rfl, hd⟩ := h10
      simp [List.takeWhile, (key d).mpr hd]
    · rintro ⟨d, r, hd, hw⟩
      have := dropWhile_head hd
      rw [(key d).mpr hw] at this
      cases this
  exfalso
  have hm : p ∈ earlyAlts X ++ symbolTable.map (fun r => mapTok (literal r.1) r.2) ++
      [keywordOrIdent X, LP.map (number X) Token.number, mapTok whitespace .Whitespace] := by rw [heq]; simp
  simp only [List.mem_append, List.mem_cons, List.not_mem_nil, or_false, or_assoc] at hm
  rcases hm with hm | hm | rfl | rfl | rfl
  · exact (early _ hm).not_ok hp
  · exact (symbols _ hm).not_ok hp
  · have h0 := identLen_zero h7
    have hs : startsWith c!"r#" s = false := by
      rw [Bool.eq_false_iff]
      intro hs
      obtain ⟨b, hb⟩ := startsWith_iff.mp hs
      exact h6 ⟨b, hb.symm⟩
    simp only [keywordOrIdent, hs, Bool.false_eq_true, if_false, h0] at hp
    cases hp
  · refine FailsAt.not_ok (bind_fails (number_fails fun b hb => ?_)) hp
    by_cases e : b = .Decimal
    · exact h9 (e ▸ hb)
    · exact h8 ⟨b, e, hb⟩
  · obtain ⟨_, ⟨v, hv⟩, _⟩ := (SpecAt.map (f := Token.plain .Whitespace) (R := fun q _ => ∃ body, Eats ⟨s, o⟩ body q ∧ body ≠ [] ∧
      (∀ c ∈ body, c ∈ wsChars)) ((whitespace_spec _).mono fun q v _ ⟨b, h1, _, h2, h3, _⟩ => ⟨b, h1, h2, h3⟩)).of_ok hp
    obtain ⟨he, hn, hw⟩ := hv
    cases v with
    | nil => exact hn rfl
    | cons d r => exact h10 ⟨d, r ++ q.s, he.1, hw d (by simp)⟩

/-! ### whole texts -/

theorem drain_spelled {X : Xid} (hX : Sane X) {cl : Bool} {o : Nat} {ts : List Token} {code : Text} (h : Spelled X o ts code) :
    ∀ (n : Nat) (f : Failures LErr) (acc : List Token), code.length + 1 < n →
      Tokens.drain X cl n ⟨f, ⟨code, o⟩, false⟩ acc = .ok (acc.reverse ++ ts) := by
  induction h with
  | @done o =>
    intro n f acc hn
    obtain ⟨m, rfl⟩ : ∃ m, n = m + 2 := ⟨n - 2, by simp at hn; omega⟩
    simp [Tokens.drain, Tokens.next]
  | @token o t body post ts hs _ ih =>
    intro n f acc hn
    obtain ⟨m, rfl⟩ : ∃ m, n = m + 1 := ⟨n - 1, by omega⟩
    obtain ⟨l, hg⟩ := spelling_read hX hs
    obtain ⟨_, ⟨b, he, hb⟩, _⟩ := (singleToken_spec X _).of_ok hg
    have hb := blen_pos (TokenShape.ne_nil hb)
    have he := he.2
    dsimp only at he
    have hne : body ≠ [] := by rintro rfl; simp at he; omega
    have hlen : 0 < body.length := List.length_pos_iff.mpr hne
    have h0 : (body ++ post).isEmpty = false := by simp [hne]
    have h1 : ¬ o = o + blen body := by omega
    simp only [Tokens.drain, Tokens.next, h0, Bool.false_eq_true, if_false, hg, h1]
    rw [ih m _ (t :: acc) (by simp at hn; omega)]
    simp

theorem spelled_drain {X : Xid} (hX : Sane X) {cl : Bool} (n : Nat) : ∀ (f : Failures LErr) (code : Text) (o : Nat) (acc r : List Token),
    Tokens.drain X cl n ⟨f, ⟨code, o⟩, false⟩ acc = .ok r → ∃ ts, r = acc.reverse ++ ts ∧ Spelled X o ts code := by
  induction n with
  | zero => intro f code o acc r h; cases h
  | succ n ih =>
    intro f code o acc r h
    simp only [Tokens.drain, Tokens.next, Bool.false_eq_true, if_false] at h
    by_cases hc : code.isEmpty = true
    · have : code = [] := by simpa using hc
      subst this
      simp only [List.isEmpty_nil, if_true] at h
      cases n with
      | zero => cases h
      | succ n =>
        simp [Tokens.drain, Tokens.next] at h
        exact ⟨_, by rw [← h], .done⟩
    · simp only [hc] at h
      cases hs : singleToken X ⟨code, o⟩ with
      | mk res l =>
        rw [hs] at h
        cases res with
        | ok q t =>
          obtain ⟨t', body, post, rfl, hsp⟩ := spelling_exists hX hs
          obtain ⟨l', hg⟩ := spelling_read hX hsp
          rw [hs] at hg
          cases hg
          by_cases ho : o = o + blen body
          · simp only [← ho, if_true] at h
            cases h
          · simp only [ho, if_false] at h
            obtain ⟨ts, hr, hts⟩ := ih _ _ _ _ _ h
            exact ⟨t :: ts, by simpa using hr, .token hsp hts⟩
        | fail q e => cases h
        | panic => cases h
        | hang => cases h

theorem lex_spelled {X : Xid} (hX : Sane X) (cl : Bool) (code : Text) (ts : List Token) :
    lex X cl code = .ok ts ↔ Spelled X 0 ts code := by
  constructor
  · intro h
    obtain ⟨us, rfl, hu⟩ := spelled_drain hX _ _ _ _ _ _ h
    exact hu
  · intro h
    exact drain_spelled hX h _ _ _ (Nat.lt_succ_self _)

end Verif
