import Verif.Proofs.LexLines
import Verif.Proofs.Move
import Verif.Props.Parse
import Verif.Spec.Join
/-!
# Reading a text that is moved, and two texts joined by a new line
-/

namespace Verif
open Spec

attribute [local irreducible] singleToken

/-! ### moving -/

theorem Extent.moved_zero (e : Extent) : e.moved 0 = e := rfl
theorem Extent.moved_add (a b : Nat) (e : Extent) : (e.moved a).moved b = e.moved (a + b) := by
  simp [Extent.moved, Nat.add_assoc]

theorem Token.moved_add (a b : Nat) (t : Token) : (t.moved a).moved b = t.moved (a + b) := by
  cases t with
  | plain k e => simp [Token.moved, Extent.moved_add]
  | number n =>
    have : (fun e => Extent.moved b e) ∘ (fun e => Extent.moved a e) = fun e => Extent.moved (a + b) e := by
      funext e
      exact Extent.moved_add a b e
    simp [Token.moved, Number.moved, Extent.moved_add, Option.map_map, this]

theorem Token.moved_kind (d : Nat) (t : Token) : (t.moved d).kind? = t.kind? := by cases t <;> rfl

theorem isTrivia_moved (d : Nat) (t : Token) : isTrivia (t.moved d) = isTrivia t := by simp [isTrivia, Token.moved_kind]

theorem number_moved (p : NumParts) (o d : Nat) : (p.number o).moved d = p.number (o + d) := by
  obtain ⟨b, i, f, e, s⟩ := p
  simp [NumParts.number, Number.moved, Extent.moved, Option.map_map, Function.comp_def]
  refine ⟨by omega, ⟨by omega, by omega⟩, ?_, ?_, ?_⟩
  · cases f <;> simp; omega
  · cases e <;> simp; omega
  · cases s <;> simp; omega

theorem spelling_moved {X : Xid} {o : Nat} {t : Token} {body post : Text} (h : Spelling X o t body post) (d : Nat) :
    Spelling X (o + d) (t.moved d) body post := by
  have e : ∀ (k : TK) (n : Nat), (Token.plain k ⟨o, o + n⟩).moved d = .plain k ⟨o + d, o + d + n⟩ := by
    intro k n; simp [Token.moved, Extent.moved]; omega
  cases h with
  | ident h1 h2 h3 h4 h5 => rw [e]; exact .ident h1 h2 h3 h4 h5
  | keyword h1 h2 => rw [e]; exact .keyword h1 h2
  | rawIdent h1 h2 => rw [e]; exact .rawIdent h1 h2
  | symbol h1 h2 h3 => rw [e]; exact .symbol h1 h2 h3
  | char h1 => rw [e]; exact .char h1
  | str h1 => rw [e]; exact .str h1
  | strRaw h1 => rw [e]; exact .strRaw h1
  | byte h1 => rw [e]; exact .byte h1
  | byteStr h1 => rw [e]; exact .byteStr h1
  | byteStrRaw h1 => rw [e]; exact .byteStrRaw h1
  | lifetime h1 h2 h3 => rw [e]; exact .lifetime h1 h2 h3
  | @number p _ h1 h2 => rw [Token.moved, number_moved]; exact .number h1 h2
  | line h1 h2 h3 => rw [e]; exact .line h1 h2 h3
  | block h1 h2 h3 => rw [e]; exact .block h1 h2 h3
  | ws h1 h2 h3 => rw [e]; exact .ws h1 h2 h3

theorem spelling_somewhere {X : Xid} {o : Nat} {t : Token} {body post : Text} (h : Spelling X o t body post) (o' : Nat) :
    ∃ t', Spelling X o' t' body post := by
  cases h with
  | ident h1 h2 h3 h4 h5 => exact ⟨_, .ident h1 h2 h3 h4 h5⟩
  | keyword h1 h2 => exact ⟨_, .keyword h1 h2⟩
  | rawIdent h1 h2 => exact ⟨_, .rawIdent h1 h2⟩
  | symbol h1 h2 h3 => exact ⟨_, .symbol h1 h2 h3⟩
  | char h1 => exact ⟨_, .char h1⟩
  | str h1 => exact ⟨_, .str h1⟩
  | strRaw h1 => exact ⟨_, .strRaw h1⟩
  | byte h1 => exact ⟨_, .byte h1⟩
  | byteStr h1 => exact ⟨_, .byteStr h1⟩
  | byteStrRaw h1 => exact ⟨_, .byteStrRaw h1⟩
  | lifetime h1 h2 h3 => exact ⟨_, .lifetime h1 h2 h3⟩
  | number h1 h2 => exact ⟨_, .number h1 h2⟩
  | line h1 h2 h3 => exact ⟨_, .line h1 h2 h3⟩
  | block h1 h2 h3 => exact ⟨_, .block h1 h2 h3⟩
  | ws h1 h2 h3 => exact ⟨_, .ws h1 h2 h3⟩

theorem spelled_moved {X : Xid} {o : Nat} {ts : List Token} {s : Text} (h : Spelled X o ts s) (d : Nat) :
    Spelled X (o + d) (ts.map (·.moved d)) s := by
  induction h with
  | done => exact .done
  | @token o t body post ts hs _ ih =>
    rw [show o + blen body + d = o + d + blen body by omega] at ih
    exact .token (spelling_moved hs d) ih

theorem spelled_somewhere {X : Xid} {o : Nat} {ts : List Token} {s : Text} (h : Spelled X o ts s) :
    ∀ o', ∃ ts', Spelled X o' ts' s := by
  induction h with
  | done => exact fun o' => ⟨_, .done⟩
  | token hs _ ih =>
    intro o'
    obtain ⟨t', h1⟩ := spelling_somewhere hs o'
    obtain ⟨ts', h2⟩ := ih (o' + blen _)
    exact ⟨_, .token h1 h2⟩

/-! ### there is one way to read a text -/

theorem spelled_head {X : Xid} (hX : Sane X) {o : Nat} {t : Token} {body post : Text} {vs : List Token} (hs : Spelling X o t body post)
    (h : Spelled X o vs (body ++ post)) : ∃ us, vs = t :: us ∧ Spelled X (o + blen body) us post := by
  generalize hx : body ++ post = x at h
  cases h with
  | done => exact absurd (List.append_eq_nil_iff.mp hx).1 (spelling_ext hX hs).1
  | @token _ t' body' post' us h1 h2 =>
    obtain ⟨l1, e1⟩ := spelling_read hX hs
    obtain ⟨l2, e2⟩ := spelling_read hX h1
    rw [hx, e2] at e1
    simp only [Prod.mk.injEq, LRes.ok.injEq, LPoint.mk.injEq] at e1
    obtain ⟨⟨⟨rfl, e⟩, rfl⟩, -⟩ := e1
    rw [e] at h2
    exact ⟨us, rfl, h2⟩

/-! ### white space in front -/

theorem isWs_mem (c : Char) : isWs c = true ↔ c ∈ wsChars := by simp [isWs, wsChars, or_assoc]

/-- All the white space at the front of a text is one token. -/
theorem ws_spelling (X : Xid) (o : Nat) {w : Text} (s : Text) (hw : w ≠ []) (hws : ∀ c ∈ w, c ∈ wsChars) :
    Spelling X o (.plain .Whitespace ⟨o, o + blen (w ++ s.takeWhile isWs)⟩) (w ++ s.takeWhile isWs) (s.dropWhile isWs) := by
  refine .ws (by simp [hw]) (fun c hc => ?_) ?_
  · rcases List.mem_append.mp hc with h | h
    · exact hws c h
    · exact (isWs_mem c).mp (takeWhile_all c h)
  · rintro ⟨d, r, hd, hw⟩
    have := dropWhile_head hd
    rw [(isWs_mem d).mpr hw] at this
    cases this

/-- What is left of a text, and of its tokens, behind the white space at its front. -/
theorem spelled_behind {X : Xid} (hX : Sane X) {o : Nat} {ts : List Token} {s : Text} (h : Spelled X o ts s) :
    ∃ us, Spelled X (o + blen (s.takeWhile isWs)) us (s.dropWhile isWs) ∧ significant us = significant ts := by
  cases hw : s.takeWhile isWs with
  | nil =>
    have e := takeWhile_split isWs s
    rw [hw, List.nil_append] at e
    exact ⟨ts, by rw [← e]; simpa using h, rfl⟩
  | cons c w =>
    have h1 := ws_spelling X o (w := c :: w) (s.dropWhile isWs) (by simp) fun d hd => (isWs_mem d).mp (takeWhile_all d (hw ▸ hd))
    have h2 : (s.dropWhile isWs).takeWhile isWs = [] := by
      cases hd : s.dropWhile isWs with
      | nil => rfl
      | cons d r => simp [dropWhile_head hd]
    have h3 : (s.dropWhile isWs).dropWhile isWs = s.dropWhile isWs := by
      cases hd : s.dropWhile isWs with
      | nil => rfl
      | cons d r => simp [dropWhile_head hd]
    rw [h2, h3, List.append_nil] at h1
    have e := takeWhile_split isWs s
    rw [hw] at e
    rw [e] at h
    obtain ⟨us, rfl, h4⟩ := spelled_head hX h1 h
    refine ⟨us, h4, ?_⟩
    simp [Props.significant_eq, isTrivia, Token.kind?]

/-- White space put in front. -/
theorem spelled_indent {X : Xid} (hX : Sane X) {o : Nat} {ts : List Token} {s : Text} (h : Spelled X o ts s) {w : Text} (hw : w ≠ [])
    (hws : ∀ c ∈ w, c ∈ wsChars) :
    ∃ e us, Spelled X o (.plain .Whitespace e :: us) (w ++ s) ∧ significant us = (significant ts).map (·.moved (blen w)) := by
  obtain ⟨us, h1, h2⟩ := spelled_behind hX h
  have h3 := spelled_moved h1 (blen w)
  have h4 := ws_spelling X o s hw hws
  refine ⟨⟨o, o + blen (w ++ s.takeWhile isWs)⟩, us.map (·.moved (blen w)), ?_, ?_⟩
  · have := Spelled.token h4 (ts := us.map (·.moved (blen w))) (by rw [blen_append, show o + (blen w + blen (s.takeWhile isWs)) = o + blen (s.takeWhile isWs) + blen w by omega]; exact h3)
    rwa [List.append_assoc, ← takeWhile_split] at this
  · rw [← h2, Props.significant_eq, Props.significant_eq, List.filter_map]
    congr 2
    funext t
    simp [isTrivia_moved]

/-- White space in front taken away. -/
theorem spelled_outdent {X : Xid} (hX : Sane X) {o : Nat} {ts : List Token} {w s : Text} (h : Spelled X o ts (w ++ s))
    (hws : ∀ c ∈ w, c ∈ wsChars) (o' : Nat) : ∃ us, Spelled X o' us s := by
  obtain ⟨us, h1, -⟩ := spelled_behind hX h
  have h2 : (w ++ s).dropWhile isWs = s.dropWhile isWs := by
    clear h h1
    induction w with
    | nil => rfl
    | cons c w ih =>
      rw [List.cons_append, List.dropWhile_cons, if_pos ((isWs_mem c).mpr (hws c (by simp)))]
      exact ih fun d hd => hws d (by simp [hd])
  rw [h2] at h1
  cases hw : s.takeWhile isWs with
  | nil =>
    have e := takeWhile_split isWs s
    rw [hw, List.nil_append] at e
    rw [← e] at h1
    exact spelled_somewhere h1 o'
  | cons c w' =>
    obtain ⟨vs, h3⟩ := spelled_somewhere h1 (o' + blen (c :: w'))
    have h4 := ws_spelling X o' (w := c :: w') (s.dropWhile isWs) (by simp) fun d hd => (isWs_mem d).mp (takeWhile_all d (hw ▸ hd))
    have h5 : (s.dropWhile isWs).takeWhile isWs = [] := by
      cases hd : s.dropWhile isWs with
      | nil => rfl
      | cons d r => simp [dropWhile_head hd]
    have h6 : (s.dropWhile isWs).dropWhile isWs = s.dropWhile isWs := by
      cases hd : s.dropWhile isWs with
      | nil => rfl
      | cons d r => simp [dropWhile_head hd]
    rw [h5, h6, List.append_nil] at h4
    have := Spelled.token h4 h3
    rw [← hw, ← takeWhile_split] at this
    exact ⟨_, this⟩

/-! ### a new line behind -/

theorem numText_more {X : Xid} (hX : Sane X) {p : NumParts} {post : Text} (h : NumText X p post) (rest : Text) :
    NumText X p (post ++ '\n' :: rest) := by
  have hw : ¬ WordStart X '\n' := ws_not_start hX (by decide)
  have hc : X.cont '\n' = false := (hX.ws _ (by decide)).2
  have more : ∀ {P : Char → Prop} (a : Text), ¬ P '\n' → ¬ StartsIn P a → ¬ StartsIn P (a ++ '\n' :: rest) := by
    intro P a hn h
    rw [startsIn_append, startsIn_cons]
    rintro (h' | ⟨_, h'⟩)
    · exact h h'
    · exact hn h'
  constructor
  · exact h.ne
  · exact h.digits
  · have := more _ (newline_digit _) h.longest
    simpa using this
  · intro hb b hb' t e hd
    obtain ⟨d, t', rfl, hd⟩ := hd
    have e1 : basePrefix b ++ [d] <+: (p.text ++ post) ++ '\n' :: rest := ⟨t', by rw [List.append_assoc p.text, e]; simp⟩
    have hn : '\n' ∉ basePrefix b ++ [d] := by
      simp only [List.mem_append, List.mem_singleton, not_or]
      refine ⟨by cases b <;> decide, ?_⟩
      rintro rfl
      exact newline_digit b hd
    obtain ⟨r, hr⟩ := (prefix_newline hn).mp e1
    exact h.decimal hb b hb' (d :: r) (by rw [← hr]; simp) ⟨d, _, rfl, hd⟩
  · intro ds hds
    obtain ⟨h1, h2, h3, h4⟩ := h.frac ds hds
    refine ⟨h1, ?_, ?_, ?_⟩
    · have := more _ (newline_digit _) h2
      simpa using this
    · have := more _ (by decide) h3
      simpa using this
    · have := more _ hw h4
      simpa using this
  · intro hf t e
    have hn := h.noFrac hf
    rw [← List.append_assoc] at e
    cases hr : p.expText ++ p.sufText ++ post with
    | nil => rw [hr] at e; simp at e
    | cons c cs =>
      rw [hr] at e hn
      simp at e
      obtain ⟨rfl, rfl⟩ := e
      rw [startsIn_append, startsIn_append]
      rcases hn _ rfl with h | h
      · exact .inl (.inl h)
      · exact .inr (.inl h)
  · intro m ds he
    obtain ⟨h1, h2, h3, h4⟩ := h.exp m ds he
    refine ⟨h1, h2, h3, ?_⟩
    have := more _ (newline_digit _) h4
    simpa using this
  · intro he m t e hm
    have hn := h.noExp he
    rw [← List.append_assoc] at e
    cases hs : p.sufText ++ post with
    | nil =>
      rw [hs] at e
      simp at e
      rcases hm with rfl | rfl <;> simp at e
    | cons c cs =>
      rw [hs] at hn e
      simp at e
      obtain ⟨rfl, rfl⟩ := e
      exact more _ (newline_digit _) (hn c cs rfl hm)
  · intro w hs
    obtain ⟨h1, h2⟩ := h.suf w hs
    refine ⟨h1, fun d t e => ?_⟩
    cases post with
    | nil => simp at e; rw [← e.1]; exact hc
    | cons x xs => simp at e; exact h2 d xs (by rw [e.1])
  · intro hs
    exact more _ hw (h.noSuf hs)

/-- What starts with a double quote is a string. -/
theorem spelling_quote {X : Xid} (hX : Sane X) {o : Nat} {t : Token} {body post : Text} (h : Spelling X o t body post) {r : Text}
    (hb : body = '"' :: r) : StrLit body := by
  have hq : ¬ WordStart X '"' := not_start hX '"' (by decide)
  have word : ∀ {w : Text}, Word X w → w ≠ '"' :: r := by
    rintro w ⟨c, cs, rfl, hc, -⟩ e
    cases e
    exact hq hc
  cases h with
  | ident h1 => exact absurd hb (word h1)
  | keyword h1 => exact absurd hb (word (keyword_word hX h1))
  | rawIdent => simp at hb
  | symbol h1 =>
    have := symbol_head (symbolText_table _ _ h1) (d := '"') (s := r) (by rw [← hb]; exact List.prefix_refl _)
    exact absurd this (by decide)
  | char h1 => obtain ⟨x, -, rfl⟩ := h1; simp at hb
  | str h1 => exact h1
  | strRaw h1 => obtain ⟨n, c, rfl, -⟩ := h1; simp at hb
  | byte => simp at hb
  | byteStr => simp at hb
  | byteStrRaw => simp at hb
  | lifetime => simp at hb
  | @number p _ h1 h2 =>
    exfalso
    obtain ⟨b, i, f, e, s⟩ := p
    cases i with
    | nil => exact h1.ne rfl
    | cons c cs =>
      have hd := h1.digits c (by simp)
      cases b <;> simp [NumParts.text, basePrefix] at hb
      obtain ⟨⟨rfl, -⟩, -⟩ := hb
      rcases hd with h | h
      · change _ ∈ digitChars .Decimal at h; revert h; clear h1 h2; decide
      · revert h; clear h1 h2; decide
  | line _ h1 => rw [hb, List.cons_append, commentKind_head (by decide)] at h1; cases h1
  | block _ h1 => rw [hb, List.cons_append, commentKind_head (by decide)] at h1; cases h1
  | ws _ h1 => have := h1 '"' (by simp [hb]); exact absurd this (by decide)

/-- What starts with a single quote is a character or a lifetime. -/
theorem spelling_tick {X : Xid} (hX : Sane X) {o : Nat} {t : Token} {body post : Text} (h : Spelling X o t body post) {r : Text}
    (hb : body = '\'' :: r) : CharLit body ∨ (Word X r ∧ ¬ (r.length = 1 ∧ StartsIn (· = '\'') post)) := by
  have hq : ¬ WordStart X '\'' := not_start hX '\'' (by decide)
  have word : ∀ {w : Text}, Word X w → w ≠ '\'' :: r := by
    rintro w ⟨c, cs, rfl, hc, -⟩ e
    cases e
    exact hq hc
  cases h with
  | ident h1 => exact absurd hb (word h1)
  | keyword h1 => exact absurd hb (word (keyword_word hX h1))
  | rawIdent => simp at hb
  | symbol h1 =>
    have := symbol_head (symbolText_table _ _ h1) (d := '\'') (s := r) (by rw [← hb]; exact List.prefix_refl _)
    exact absurd this (by decide)
  | char h1 => exact .inl h1
  | str h1 => obtain ⟨x, -, rfl⟩ := h1; simp at hb
  | strRaw h1 => obtain ⟨n, c, rfl, -⟩ := h1; simp at hb
  | byte => simp at hb
  | byteStr => simp at hb
  | byteStrRaw => simp at hb
  | lifetime h1 _ h2 => cases hb; exact .inr ⟨h1, h2⟩
  | @number p _ h1 h2 =>
    exfalso
    obtain ⟨b, i, f, e, s⟩ := p
    cases i with
    | nil => exact h1.ne rfl
    | cons c cs =>
      have hd := h1.digits c (by simp)
      cases b <;> simp [NumParts.text, basePrefix] at hb
      obtain ⟨⟨rfl, -⟩, -⟩ := hb
      rcases hd with h | h
      · change _ ∈ digitChars .Decimal at h; revert h; clear h1 h2; decide
      · revert h; clear h1 h2; decide
  | line _ h1 => rw [hb, List.cons_append, commentKind_head (by decide)] at h1; cases h1
  | block _ h1 => rw [hb, List.cons_append, commentKind_head (by decide)] at h1; cases h1
  | ws _ h1 => have := h1 '\'' (by simp [hb]); exact absurd this (by decide)

/-- A text that starts with a string starts with a raw string, if `r` is put in front. -/
theorem rawStr_of_str {body : Text} (h : StrLit body) (post : Text) : ∃ a p, 'r' :: body ++ post = a ++ p ∧ RawStrLit a p := by
  obtain ⟨b, -, rfl⟩ := h
  have e := takeWhile_split (· ≠ '"') (b ++ '"' :: post)
  cases hd : (b ++ '"' :: post).dropWhile (· ≠ '"') with
  | nil =>
    rw [hd, List.append_nil] at e
    have := takeWhile_all (f := (· ≠ '"')) '"' (by rw [← e]; simp)
    simp at this
  | cons c r =>
    have hc := dropWhile_head hd
    simp at hc
    subst hc
    rw [hd] at e
    refine ⟨'r' :: '"' :: (b ++ '"' :: post).takeWhile (· ≠ '"') ++ c!"\"", r, ?_, 0, (b ++ '"' :: post).takeWhile (· ≠ '"'), ?_, ⟨r, rfl⟩, ?_⟩
    · simp only [List.cons_append, List.append_assoc, List.nil_append]
      rw [← e]
    · simp [rawClose]
    · intro a' b' e'
      apply Classical.byContradiction
      intro hl
      have : a' ++ c!"\"" <+: (b ++ '"' :: post).takeWhile (· ≠ '"') := by
        refine List.prefix_of_prefix_length_le (l₃ := a' ++ rawClose 0 ++ b') ⟨b', by simp [rawClose]⟩ ⟨rawClose 0 ++ r, ?_⟩ (by rw [List.length_append, List.length_singleton]; omega)
        rw [← e']; simp
      have := takeWhile_all (f := (· ≠ '"')) '"' (this.subset (by simp))
      simp at this

/-- After a token there may as well be a new line and more, behind what comes after it anyhow. -/
theorem spelling_more {X : Xid} (hX : Sane X) {o o' : Nat} {t : Token} {ts : List Token} {body post : Text} (h : Spelling X o t body post)
    (hp : Spelled X o' ts post) (rest : Text) (hws : t.kind? = some .Whitespace → post ≠ [])
    (hc : ∀ k op, t.kind? = some k → blockOpener k = some op → ∃ inner, body = op ++ inner ++ c!"*/")
    (hr : t.kind? = some .Ident → ∀ n p, body ++ post ≠ c!"br" ++ List.replicate n '#' ++ c!"\"" ++ p) :
    Spelling X o t body (post ++ '\n' :: rest) := by
  have hnl : X.cont '\n' = false := (hX.ws _ (by decide)).2
  have hnc : ∀ {post : Text}, NoCont X post → NoCont X (post ++ '\n' :: rest) := by
    intro post h d t e
    cases post with
    | nil => simp at e; rw [← e.1]; exact hnl
    | cons x xs => simp at e; exact h d xs (by rw [e.1])
  have next : ∀ {c : Char} {t : Text}, post ++ '\n' :: rest = c :: t → c ≠ '\n' → ∃ p, post = c :: p ∧ t = p ++ '\n' :: rest := by
    intro c t e hn
    cases post with
    | nil => simp at e; exact absurd e.1.symm hn
    | cons x xs => simp at e; exact ⟨xs, by rw [e.1], e.2.symm⟩
  cases h with
  | @ident w _ hw hk hp' hl hr' =>
    refine .ident hw hk (hnc hp') ?_ ?_
    · have hw' := hw
      obtain ⟨c, cs, rfl, hc', hcs⟩ := hw
      have no : ∀ d ∈ cs, d ∉ c!"'\"#" := fun d hd hm => by
        have := hcs d hd
        rw [not_cont hX d hm] at this
        cases this
      -- the string behind the word
      have str : ∀ {p : Text}, post = '"' :: p → ∃ body post2, post = body ++ post2 ∧ StrLit body := by
        intro p e
        subst e
        generalize hx : '"' :: p = x at hp
        cases hp with
        | done => cases hx
        | @token _ _ body2 post2 _ h2 _ =>
          cases hb : body2 with
          | nil => exact absurd hb (spelling_ext hX h2).1
          | cons y ys =>
            rw [hb] at hx
            simp at hx
            exact ⟨body2, post2, by rw [hb], spelling_quote hX h2 (r := ys) (by rw [hb, ← hx.1])⟩
      intro hl'
      rcases literalAt_cases hl' with ⟨d, t, e, hd⟩ | ⟨d, t, e, hd⟩ | ⟨d, t, e, hd⟩
      · cases cs with
        | nil =>
          simp at e
          obtain ⟨rfl, e⟩ := e
          obtain ⟨p, rfl, rfl⟩ := next e (by rcases hd with rfl | rfl <;> decide)
          rcases hd with rfl | rfl
          · exact hr' ⟨p, rfl⟩
          · obtain ⟨b2, p2, e2, h2⟩ := str rfl
            obtain ⟨a, p3, e3, h3⟩ := rawStr_of_str h2 p2
            exact hl ⟨a, p3, by rw [← e3, e2]; simp, .inl h3⟩
        | cons x xs => simp at e; exact no x (by simp) (by rw [e.2.1]; rcases hd with rfl | rfl <;> decide)
      · cases cs with
        | nil =>
          simp at e
          obtain ⟨rfl, e⟩ := e
          obtain ⟨p, rfl, rfl⟩ := next e (by rcases hd with rfl | rfl <;> decide)
          rcases hd with rfl | rfl
          · -- a character or a lifetime
            generalize hx : '\'' :: p = x at hp
            cases hp with
            | done => cases hx
            | @token _ _ body2 post2 us h2 hus =>
              cases hb : body2 with
              | nil => exact absurd hb (spelling_ext hX h2).1
              | cons y ys =>
                rw [hb] at hx
                simp at hx
                obtain ⟨rfl, rfl⟩ := hx
                rcases spelling_tick hX h2 hb with h3 | ⟨h3, h4⟩
                · exact hl ⟨'b' :: body2, post2, by rw [hb]; simp, .inr ⟨_, rfl, .inl h3⟩⟩
                · obtain ⟨z, zs, rfl, hz, hzs⟩ := h3
                  obtain ⟨a, p3, e3, h5⟩ := hl'
                  have h6 : ∃ q, CharLit q ∧ q <+: '\'' :: z :: zs ++ post2 ++ '\n' :: rest := by
                    rcases h5 with h5 | ⟨q, rfl, h5 | h5 | h5⟩
                    · obtain ⟨n, cc, rfl, -⟩ := h5; simp at e3
                    · exact ⟨q, h5, p3, by simp at e3 ⊢; exact e3.symm⟩
                    · obtain ⟨bb, -, rfl⟩ := h5; simp at e3
                    · obtain ⟨n, cc, rfl, -⟩ := h5; simp at e3
                  obtain ⟨q, ⟨cb, hcb, rfl⟩, r, hr2⟩ := h6
                  cases hcb with
                  | single hne =>
                    simp at hr2
                    obtain ⟨rfl, hr2⟩ := hr2
                    cases zs with
                    | cons z2 zs2 =>
                      simp at hr2
                      have := hzs z2 (by simp)
                      rw [← hr2.1, not_cont hX '\'' (by decide)] at this
                      cases this
                    | nil =>
                      simp at hr2
                      cases post2 with
                      | nil => simp at hr2
                      | cons z2 zs2 =>
                        simp at hr2
                        exact h4 ⟨rfl, _, _, rfl, hr2.1.symm⟩
                  | esc hne =>
                    simp at hr2
                    exact not_start hX '\\' (by decide) (by rw [hr2.1]; exact hz)
          · obtain ⟨b2, p2, e2, h2⟩ := str rfl
            exact hl ⟨'b' :: b2, p2, by rw [e2]; simp, .inr ⟨_, rfl, .inr (.inl h2)⟩⟩
        | cons x xs => simp at e; exact no x (by simp) (by rw [e.2.1]; rcases hd with rfl | rfl <;> decide)
      · cases cs with
        | nil =>
          simp at e
          obtain ⟨p, rfl, -⟩ := next e.2 (by decide)
          exact absurd (hp' _ _ rfl) (by rw [hX.cont 'r' (by decide)]; decide)
        | cons x xs =>
          cases xs with
          | nil =>
            simp at e
            obtain ⟨rfl, rfl, e⟩ := e
            obtain ⟨p, rfl, rfl⟩ := next e (by rcases hd with rfl | rfl <;> decide)
            rcases hd with rfl | rfl
            · obtain ⟨a, p3, e3, h5⟩ := hl'
              have h6 : ∃ n, List.replicate n '#' ++ c!"\"" <+: ('#' :: p) ++ '\n' :: rest := by
                rcases h5 with h5 | ⟨q, rfl, h5 | h5 | h5⟩
                · obtain ⟨n, cc, rfl, -⟩ := h5; simp at e3
                · obtain ⟨bb, -, rfl⟩ := h5; simp at e3
                · obtain ⟨bb, -, rfl⟩ := h5; simp at e3
                · obtain ⟨n, cc, rfl, -⟩ := h5
                  exact ⟨n, cc ++ rawClose n ++ p3, by simp at e3 ⊢; exact e3.symm⟩
              obtain ⟨n, hn⟩ := h6
              obtain ⟨q, hq⟩ := (prefix_newline (by simp [List.mem_replicate])).mp hn
              exact hr rfl n q (by rw [← hq]; simp)
            · obtain ⟨b2, p2, e2, h2⟩ := str rfl
              obtain ⟨a, p3, e3, h3⟩ := rawStr_of_str h2 p2
              exact hl ⟨'b' :: a, p3, by rw [e2]; simp at e3 ⊢; exact e3, .inr ⟨_, rfl, .inr (.inr h3)⟩⟩
          | cons y ys => simp at e; exact no y (by simp) (by rw [e.2.2.1]; rcases hd with rfl | rfl <;> decide)
    · rw [← List.append_assoc, prefix_newline (by decide)]
      exact hr'
  | keyword hk hp' => exact .keyword hk (hnc hp')
  | rawIdent hw hp' => exact .rawIdent hw (hnc hp')
  | @symbol k w _ hk hlong hc' =>
    refine .symbol hk (fun k' w' hk' hp' => ?_) ?_
    · have key : ∀ r ∈ symbolTable, '\n' ∉ r.1 := by decide
      rw [← List.append_assoc] at hp'
      exact hlong k' w' hk' ((prefix_newline (key _ (symbolText_table k' w' hk'))).mp hp')
    · rw [← List.append_assoc, commentKind_newline]
      exact hc'
  | char hb => exact .char hb
  | str hb => exact .str hb
  | strRaw hb => exact .strRaw (rawStr_post hb)
  | byte hb => exact .byte hb
  | byteStr hb => exact .byteStr hb
  | byteStrRaw hb => exact .byteStrRaw (rawStr_post hb)
  | lifetime hw hp' hq =>
    refine .lifetime hw (hnc hp') ?_
    rw [startsIn_append, startsIn_cons]
    rintro ⟨h1, h | ⟨_, h⟩⟩
    · exact hq ⟨h1, h⟩
    · revert h; decide
  | number hn hu => exact .number (numText_more hX hn rest) hu
  | line hk hc' hl =>
    refine .line hk ?_ ⟨hl.1, ?_⟩
    · rw [← List.append_assoc, commentKind_newline]
      exact hc'
    · intro d t e
      cases post with
      | nil => simp at e; exact e.1.symm
      | cons x xs => simp at e; rw [← e.1]; exact hl.2 x xs rfl
  | @block k op _ _ hk hc' hb =>
    refine .block hk ?_ ?_
    · rw [← List.append_assoc, commentKind_newline]
      exact hc'
    · rcases hb with ⟨inner, rfl, hf⟩ | ⟨inner, rfl, hn, rfl⟩
      · exact .inl ⟨inner, rfl, firstOcc_post hf⟩
      · obtain ⟨i2, e⟩ := hc k op rfl hk
        rw [List.append_assoc] at e
        exact absurd (List.append_cancel_left e) (by have := hn i2 []; simpa using this)
  | ws h1 h2 h3 =>
    refine .ws h1 h2 ?_
    rw [startsIn_append]
    rintro (h | ⟨h, -⟩)
    · exact h3 h
    · exact hws rfl h

/-- What `Finished` says about one token and what comes after it. -/
theorem Spec.Finished.token {code : Text} {all : List Token} (hf : Finished code all) {X : Xid} (hX : Sane X) {pre body post : Text} {t : Token}
    (hcode : code = pre ++ (body ++ post)) (hs : Spelling X (blen pre) t body post) (ht : t ∈ all) :
    (∀ k op, t.kind? = some k → blockOpener k = some op → ∃ inner, body = op ++ inner ++ c!"*/") ∧
    (t.kind? = some .Ident → ∀ n p, body ++ post ≠ c!"br" ++ List.replicate n '#' ++ c!"\"" ++ p) := by
  have hext := (spelling_ext hX hs).2.1
  refine ⟨fun k op hk ho => ?_, fun hk n p e => ?_⟩
  · obtain ⟨inner, hi⟩ := hf.comments t ht k op hk ho
    rw [hcode, hext, sliceText_append] at hi
    cases hi
    exact ⟨inner, rfl⟩
  · refine hf.rawBytes pre n p (by rw [hcode, e]; simp) ?_
    cases hs with
    | ident hw _ hp =>
      have h1 : body = c!"br" := by
        obtain ⟨c, cs, rfl, hc, hcs⟩ := hw
        have hq : ∃ d r, List.replicate n '#' ++ c!"\"" ++ p = d :: r ∧ X.cont d = false := by
          cases n with
          | zero => exact ⟨'"', p, by simp, not_cont hX _ (by decide)⟩
          | succ n => exact ⟨'#', List.replicate n '#' ++ c!"\"" ++ p, by simp [List.replicate_succ], not_cont hX _ (by decide)⟩
        obtain ⟨d, r, hd, hdc⟩ := hq
        have hr1 : X.cont 'r' = true := by rw [hX.cont 'r' (by decide)]; decide
        rw [List.append_assoc, List.append_assoc, ← List.append_assoc (List.replicate n '#'), hd] at e
        simp at e
        obtain ⟨rfl, e⟩ := e
        match cs, hcs, e with
        | [], _, e => 
          simp at e
          have := hp _ _ e
          rw [hr1] at this; cases this
        | [x], _, e => simp at e; rw [e.1]
        | x :: y :: ys, hcs, e =>
          simp at e
          have := hcs y (by simp)
          rw [e.2.1, hdc] at this
          cases this
      subst h1
      exact ht
    | keyword h1 => cases hk; cases h1
    | rawIdent => simp at e
    | symbol h1 => cases hk; cases h1
    | line h1 => cases hk; rcases h1 with h | h | h <;> cases h
    | block h1 => cases hk; cases h1
    | number => cases hk
    | _ => cases hk

theorem significant_cons (t : Token) (ts : List Token) :
    significant (t :: ts) = (if isTrivia t then [] else [t]) ++ significant ts := by
  rw [Props.significant_eq, Props.significant_eq, List.filter_cons]
  cases isTrivia t <;> rfl

theorem spelling_ws {X : Xid} {o : Nat} {t : Token} {body post : Text} (hs : Spelling X o t body post) (hk : t.kind? = some .Whitespace) :
    body ≠ [] ∧ ∀ c ∈ body, c ∈ wsChars := by
  cases hs with
  | ws h1 h2 _ => exact ⟨h1, h2⟩
  | keyword h1 => cases hk; cases h1
  | symbol h1 => cases hk; cases h1
  | line h1 => cases hk; rcases h1 with h | h | h <;> cases h
  | block h1 => cases hk; cases h1
  | number => cases hk
  | _ => cases hk

/-- The tokens of two texts joined by a new line. -/
theorem spelled_join {X : Xid} (hX : Sane X) {code : Text} {all : List Token} (hf : Finished code all) {o : Nat} {ts : List Token} {s : Text}
    (h : Spelled X o ts s) : ∀ (pre : Text), code = pre ++ s → o = blen pre → (∀ t ∈ ts, t ∈ all) → ∀ {rest : Text} {e : Extent} {us : List Token},
    Spelled X (o + blen s) (.plain .Whitespace e :: us) ('\n' :: rest) →
    ∃ vs A eof, Spelled X o vs (s ++ '\n' :: rest) ∧ significant ts = A ++ [eof] ∧ significant vs = A ++ significant us := by
  induction h with
  | @done o =>
    intro pre _ _ _ rest e us h
    refine ⟨_, [], _, h, rfl, ?_⟩
    rw [significant_cons]
    rfl
  | @token o t body post ts hs hts ih =>
    intro pre hcode ho hall rest e us h
    subst ho
    obtain ⟨h1, h2⟩ := hf.token hX hcode hs (hall t (by simp))
    by_cases hw : t.kind? = some .Whitespace ∧ post = []
    · obtain ⟨hk, rfl⟩ := hw
      have ht : isTrivia t = true := by simp [isTrivia, hk]
      have hb : body ≠ [] ∧ ∀ c ∈ body, c ∈ wsChars := spelling_ws hs hk
      obtain ⟨vs, h3, h4⟩ := spelled_behind hX h
      have h5 := ws_spelling X (blen pre) ('\n' :: rest) hb.1 hb.2
      have h6 := Spelled.token h5 (ts := vs) (by
        rw [List.append_nil, Nat.add_assoc] at h3
        rw [blen_append]
        exact h3)
      rw [List.append_assoc, ← takeWhile_split] at h6
      generalize hx : ([] : Text) = x at hts
      cases hts with
      | done =>
        refine ⟨_, [], .plain .EndOfFile ⟨blen pre + blen body, blen pre + blen body⟩, by rw [List.append_nil]; exact h6, ?_, ?_⟩
        · rw [significant_cons, ht]; rfl
        · rw [significant_cons, h4, significant_cons]; rfl
      | token h7 _ => exact absurd (List.append_eq_nil_iff.mp hx.symm).1 (spelling_ext hX h7).1
    · have h3 := spelling_more hX hs hts rest (fun hk hp => hw ⟨hk, hp⟩) h1 h2
      obtain ⟨vs, A, eof, h4, h5, h6⟩ := ih (pre ++ body) (by rw [hcode]; simp) (by simp) (fun t ht => hall t (by simp [ht]))
        (rest := rest) (e := e) (us := us) (by rw [blen_append, ← Nat.add_assoc] at h; exact h)
      refine ⟨t :: vs, (if isTrivia t then [] else [t]) ++ A, eof, ?_, ?_, ?_⟩
      · have := Spelled.token h3 h4
        simpa using this
      · rw [significant_cons, h5, List.append_assoc]
      · rw [significant_cons, h6, List.append_assoc]

/-- If two texts joined by a new line can be read, so can the second one. -/
theorem spelled_unjoin {X : Xid} (hX : Sane X) {code : Text} {all : List Token} (hf : Finished code all) {o : Nat} {ts : List Token} {s : Text}
    (h : Spelled X o ts s) : ∀ (pre : Text), code = pre ++ s → o = blen pre → (∀ t ∈ ts, t ∈ all) → ∀ {rest : Text} {vs : List Token},
    Spelled X o vs (s ++ '\n' :: rest) → ∀ o', ∃ us, Spelled X o' us rest := by
  induction h with
  | @done o =>
    intro pre _ _ _ rest vs h o'
    exact spelled_outdent hX (w := c!"\n") h (by decide) o'
  | @token o t body post ts hs hts ih =>
    intro pre hcode ho hall rest vs h o'
    subst ho
    obtain ⟨h1, h2⟩ := hf.token hX hcode hs (hall t (by simp))
    by_cases hw : t.kind? = some .Whitespace ∧ post = []
    · obtain ⟨hk, rfl⟩ := hw
      have hb : ∀ c ∈ body, c ∈ wsChars := (spelling_ws hs hk).2
      refine spelled_outdent hX (w := body ++ c!"\n") (by simpa using h) (fun c hc => ?_) o'
      rcases List.mem_append.mp hc with hc | hc
      · exact hb c hc
      · cases hc with
        | head => decide
        | tail _ h => cases h
    · have h3 := spelling_more hX hs hts rest (fun hk hp => hw ⟨hk, hp⟩) h1 h2
      rw [List.append_assoc] at h
      obtain ⟨us, rfl, h4⟩ := spelled_head hX h3 h
      exact ih (pre ++ body) (by rw [hcode]; simp) (by simp) (fun t ht => hall t (by simp [ht])) h4 o'

end Verif
