import Verif.Proofs.LexStop
/-!
# How far the tokenizer looks while it reads tokens

What is tried before a token is read does not lead further than the place where the tokenizer finally stops.
-/

namespace Verif
open Spec

attribute [local irreducible] singleToken

/-! ### bounds of what is tried -/

theorem Bd.mono {α} {M N : Nat} {p : LP α} {pt : LPoint} (h : Bd M p pt) (hN : M ≤ N) : Bd N p pt := by
  intro r l e
  obtain ⟨h1, h2⟩ := h r l e
  exact ⟨fun x hx => Nat.le_trans (h1 x hx) hN, fun q e' he => Nat.le_trans (h2 q e' he) hN⟩

theorem Bd.bind {α β} {N : Nat} {p : LP α} {f : α → LP β} {pt : LPoint} (h : Bd N p pt) (h' : ∀ q v l, p pt = (.ok q v, l) → Bd N (f v) q) :
    Bd N (p >>= f) pt := by
  intro r l e
  rcases hp : p pt with ⟨r1, l1⟩
  obtain ⟨h1, h2⟩ := h _ _ hp
  simp only [Bind.bind, LP.bind, hp] at e
  cases r1 with
  | ok q v =>
    rcases hf : f v q with ⟨r2, l2⟩
    obtain ⟨h3, h4⟩ := h' q v l1 hp _ _ hf
    simp only [hf] at e
    cases e
    refine ⟨fun x hx => ?_, h4⟩
    rw [offs_append, List.mem_append] at hx
    exact hx.elim (h1 x) (h3 x)
  | fail q e1 =>
    cases e
    refine ⟨h1, ?_⟩
    rintro _ _ ⟨⟩
    exact h2 _ _ rfl
  | panic => cases e; exact ⟨h1, by rintro _ _ ⟨⟩⟩
  | hang => cases e; exact ⟨h1, by rintro _ _ ⟨⟩⟩

/-- Nothing is tried in vain. -/
theorem Bd.quiet {α} {N : Nat} {p : LP α} {pt : LPoint} (h : (p pt).2 = []) (h' : ∀ q e, (p pt).1 ≠ .fail q e) : Bd N p pt := by
  intro r l e
  rw [e] at h h'
  dsimp only at h h'
  subst h
  exact ⟨by simp, fun q e' he => absurd he (h' q e')⟩

/-- The only failure is one at the beginning. -/
theorem Bd.here {α} {p : LP α} {pt : LPoint} (h : (p pt).2 = []) (h' : ∀ q e, (p pt).1 = .fail q e → q = pt) : Bd pt.offset p pt := by
  intro r l e
  rw [e] at h h'
  dsimp only at h h'
  subst h
  exact ⟨by simp, fun q e' he => by rw [h' q e' he]; exact Nat.le_refl _⟩

theorem Bd.map {α β} {N : Nat} {p : LP α} {f : α → β} {pt : LPoint} (h : Bd N p pt) : Bd N (LP.map p f) pt :=
  h.bind fun _ _ _ _ => .quiet rfl (by rintro _ _ ⟨⟩)

theorem Bd.mapTok {N : Nat} {p : LP Extent} {k : TK} {pt : LPoint} (h : Bd N p pt) : Bd N (mapTok p k) pt := h.map

theorem Bd.of_map {α β} {N : Nat} {p : LP α} {f : α → β} {pt : LPoint} (h : Bd N (LP.map p f) pt) : Bd N p pt := by
  intro r l e
  have h := h
  unfold Bd LP.map LP.bind at h
  rw [e] at h
  cases r with
  | ok q v =>
    have := h _ _ rfl
    simp only [List.append_nil] at this
    exact ⟨this.1, by rintro _ _ ⟨⟩⟩
  | fail q e1 =>
    have := h _ _ rfl
    refine ⟨this.1, ?_⟩
    rintro _ _ ⟨⟩
    exact this.2 _ _ rfl
  | panic => exact ⟨(h _ _ rfl).1, by rintro _ _ ⟨⟩⟩
  | hang => exact ⟨(h _ _ rfl).1, by rintro _ _ ⟨⟩⟩

theorem Bd.of_orElse {α} {N : Nat} {p q : LP α} {pt : LPoint} (h : Bd N (LP.orElse p q) pt) : Bd N p pt := by
  intro r l e
  unfold Bd LP.orElse at h
  rw [e] at h
  cases r with
  | fail q1 e1 =>
    dsimp only at h
    by_cases he : e1.recoverable = true
    · simp only [he, if_true] at h
      rcases hq : q pt with ⟨r2, l2⟩
      rw [hq] at h
      have := (h _ _ rfl).1
      refine ⟨fun x hx => this x (by simp [hx]), ?_⟩
      rintro _ _ ⟨⟩
      exact this (q1.offset, e1) (by simp)
    · simp only [he] at h
      have := h _ _ rfl
      refine ⟨this.1, ?_⟩
      rintro _ _ ⟨⟩
      exact this.2 _ _ rfl
  | ok _ _ => exact ⟨(h _ _ rfl).1, by rintro _ _ ⟨⟩⟩
  | panic => exact ⟨(h _ _ rfl).1, by rintro _ _ ⟨⟩⟩
  | hang => exact ⟨(h _ _ rfl).1, by rintro _ _ ⟨⟩⟩

theorem Bd.of_snd {α} {N : Nat} {p q : LP α} {pt : LPoint} (hp : FailsAt p pt) (h : Bd N (LP.orElse p q) pt) : Bd N q pt := by
  obtain ⟨q1, e1, l1, h1, he⟩ := hp
  intro r l e
  unfold Bd LP.orElse at h
  rw [h1] at h
  simp only [he, if_true, e] at h
  have := h _ _ rfl
  exact ⟨fun x hx => this.1 x (by simp [hx]), this.2⟩

theorem Bd.of_alts {α} {N : Nat} {pt : LPoint} : ∀ {qs : List (LP α)} {p : LP α}, Bd N (LP.alts p qs) pt → Bd N p pt
  | [], _, h => h
  | q :: qs, p, h => (Bd.of_alts (qs := qs) (p := LP.orElse p q) h).of_orElse

/-- After a success no other alternative is tried. -/
theorem Bd.stop {α} {N : Nat} {pt q : LPoint} {v : α} {l : LLog} : ∀ {qs : List (LP α)} {p : LP α}, p pt = (.ok q v, l) → Bd N p pt → Bd N (LP.alts p qs) pt
  | [], _, _, h => h
  | r :: qs, p, hp, h => by
    have e : LP.orElse p r pt = p pt := by simp [LP.orElse, hp]
    refine Bd.stop (qs := qs) (p := LP.orElse p r) (e.trans hp) ?_
    intro r' l' e'
    exact h r' l' (e ▸ e')

theorem bd_exHere {N : Nat} {spt pt : LPoint} : Bd N (exHere spt) pt := by
  refine .quiet ?_ ?_
  · unfold exHere; split <;> rfl
  · intro q e; unfold exHere; split <;> simp

theorem bd_advance {N : Nat} {i : Nat} {pt : LPoint} : Bd N (advance i) pt := by
  refine .quiet ?_ ?_
  · unfold advance; split <;> rfl
  · intro q e; unfold advance; split <;> simp

theorem bd_split (i : Nat) (e : LErr) (pt : LPoint) : Bd pt.offset (splitPointAtNonZeroOffset i e) pt := by
  refine .here ?_ ?_
  · unfold splitPointAtNonZeroOffset; split
    · rfl
    · split <;> rfl
  · intro q e'; unfold splitPointAtNonZeroOffset; split
    · intro h; cases h; rfl
    · split <;> simp

theorem bd_ident (X : Xid) (pt : LPoint) : Bd pt.offset (simpleIdent X) pt := (bd_split _ _ pt).map

theorem bd_ws (pt : LPoint) : Bd pt.offset whitespace pt := (bd_split _ _ pt).map

theorem bd_digits (r : Nat) (pt : LPoint) : Bd pt.offset (numberDigits r) pt := (bd_split _ _ pt).map

theorem bd_keyword (X : Xid) (pt : LPoint) : Bd pt.offset (keywordOrIdent X) pt := by
  unfold Bd keywordOrIdent
  by_cases h : startsWith c!"r#" pt.s = true
  · simp only [h, if_true]
    cases splitAtByte 2 pt.s with
    | none => rintro _ _ ⟨⟩; exact ⟨by simp, by rintro _ _ ⟨⟩⟩
    | some a =>
      dsimp only
      by_cases h' : identLen X a.2 = 0
      · simp only [h', if_true]
        rintro _ _ ⟨⟩
        refine ⟨by simp, ?_⟩
        rintro _ _ ⟨⟩
        exact Nat.le_refl _
      · simp only [h', if_false]
        exact (bd_split _ _ pt).map
  · simp only [h]
    exact (bd_split _ _ pt).map

theorem bd_line {N : Nat} (k : TK) (pt : LPoint) : Bd N (lineComment k) pt := by
  intro r l e
  exact (Bd.bind bd_advance fun _ _ _ _ => Bd.bind bd_exHere fun _ _ _ _ => .quiet rfl (by rintro _ _ ⟨⟩)) r l e

theorem bd_block {N : Nat} (k : TK) (n : Nat) (pt : LPoint) : Bd N (blockComment k n) pt := by
  intro r l e
  unfold blockComment at e
  split at e
  · cases e; exact ⟨by simp, by rintro _ _ ⟨⟩⟩
  · exact (Bd.bind bd_advance fun _ _ _ _ => Bd.bind bd_exHere fun _ _ _ _ => .quiet rfl (by rintro _ _ ⟨⟩)) r l e

theorem bd_comment (pt : LPoint) : Bd pt.offset commentOrDocComment pt := by
  intro r l e
  unfold commentOrDocComment at e
  repeat' split at e
  all_goals first
    | exact bd_line _ pt r l e
    | exact bd_block _ _ pt r l e
    | skip
  cases e
  refine ⟨by simp, ?_⟩
  rintro _ _ ⟨⟩
  exact Nat.le_refl _

/-! ### where the tokenizer stops -/

variable {X : Xid} {o L : Nat}

/-- The tokenizer, reading this text from byte `o` on, stops with an error at `L`. -/
def Ends (X : Xid) (o L : Nat) (s : Text) : Prop :=
  ∃ ts rest n E, Begins X o ts s rest ∧ NoToken X rest n E ∧ L + blen rest = o + blen s + n

theorem noToken_not (hX : Sane X) {s body post : Text} {t : Token} {n : Nat} {E : LErr → Prop} (h : NoToken X s n E) (e : s = body ++ post)
    (hs : Spelling X o t body post) : False := by
  obtain ⟨L, ⟨q, e', l, hf, -⟩, -⟩ := noToken_tried (o := o) hX h
  obtain ⟨l', hg⟩ := spelling_read hX hs
  rw [← e, hf] at hg
  cases hg

theorem noToken_bd (hX : Sane X) {s : Text} {n : Nat} {E : LErr → Prop} (h : NoToken X s n E) : Bd (o + n) (singleToken X) ⟨s, o⟩ := by
  obtain ⟨L, ⟨q, e', l, hf, hx⟩, hL, -⟩ := noToken_tried (o := o) hX h
  intro r l' e
  rw [hf] at e
  cases e
  refine ⟨fun x hx' => hL x ((hx x).mp (by simp [hx'])), ?_⟩
  rintro _ _ ⟨⟩
  exact hL (q.offset, e') ((hx _).mp (by simp))

theorem Ends.cases {s : Text} (h : Ends X o L s) : (∃ n E, NoToken X s n E ∧ L = o + n) ∨
    ∃ t body post, s = body ++ post ∧ Spelling X o t body post ∧ Ends X (o + blen body) L post := by
  obtain ⟨ts, rest, n, E, hb, hn, hL⟩ := h
  cases hb with
  | none => exact .inl ⟨n, E, hn, by omega⟩
  | @token _ t body post ts _ hs hb => exact .inr ⟨t, body, post, rfl, hs, ts, rest, n, E, hb, hn, by simp at hL; omega⟩

theorem Ends.le {s : Text} (h : Ends X o L s) : o ≤ L := by
  obtain ⟨ts, rest, n, E, hb, hn, hL⟩ := h
  obtain ⟨pre, rfl⟩ := hb.pre
  simp at hL
  omega

theorem Ends.step (hX : Sane X) {body post : Text} {t : Token} (h : Ends X o L (body ++ post)) (hs : Spelling X o t body post) :
    Ends X (o + blen body) L post := by
  rcases h.cases with ⟨n, E, hn, -⟩ | ⟨t', body', post', e, hs', h'⟩
  · exact (noToken_not hX hn rfl hs).elim
  · obtain ⟨l, h1⟩ := spelling_read hX hs
    obtain ⟨l', h2⟩ := spelling_read hX hs'
    rw [e, h2] at h1
    simp only [Prod.mk.injEq, LRes.ok.injEq, LPoint.mk.injEq] at h1
    obtain ⟨⟨⟨rfl, e2⟩, -⟩, -⟩ := h1
    rw [← e2]
    exact h'

theorem Ends.past (hX : Sane X) {body post : Text} {t : Token} (h : Ends X o L (body ++ post)) (hs : Spelling X o t body post) : o + blen body ≤ L :=
  (h.step hX hs).le

theorem blen_hashes (n : Nat) : blen (List.replicate n '#') = n := by
  induction n with
  | zero => rfl
  | succ n ih =>
    have : '#'.utf8Size = 1 := rfl
    simp [List.replicate_succ, ih, this]; omega

theorem blen_cons_pos (c : Char) (s : Text) : 1 ≤ blen (c :: s) := by
  have := c.utf8Size_pos
  simp; omega

/-- A character that is a symbol is read. -/
theorem Ends.symbol (hX : Sane X) {c : Char} (hc : c ∈ symHeads) {s : Text} (h : Ends X o L (c :: s)) : o + 1 ≤ L := by
  rcases h.cases with ⟨n, E, hn, -⟩ | ⟨t, body, post, e, hs, h'⟩
  · exfalso
    have hw := not_start hX c (by simp [hc])
    have key : ∀ c ∈ symHeads, c ≠ '"' ∧ c ≠ '\'' ∧ c ≠ 'r' := by decide
    obtain ⟨k1, k2, k3⟩ := key c hc
    generalize e : c :: s = u at hn
    cases hn
    case stray h6 =>
      cases e
      obtain ⟨k, hk⟩ := symHeads_single c hc
      exact h6 k hk
    all_goals first
      | (cases e; first | exact k1 rfl | exact k2 rfl | exact k3 rfl)
      | (simp at e; first | exact k1 e.1 | exact k2 e.1 | exact k3 e.1)
  · have hne := singleToken_spec X ⟨body ++ post, o⟩
    obtain ⟨l, hg⟩ := spelling_read hX hs
    obtain ⟨_, ⟨b, he, hb⟩, _⟩ := hne.of_ok hg
    have hb := blen_pos (TokenShape.ne_nil hb)
    have he := he.2
    dsimp only at he
    have := h'.le
    omega

theorem spelling_pos (hX : Sane X) {body post : Text} {t : Token} (hs : Spelling X o t body post) : 1 ≤ blen body := by
  obtain ⟨l, hg⟩ := spelling_read hX hs
  obtain ⟨_, ⟨b, he, hb⟩, _⟩ := (singleToken_spec X ⟨body ++ post, o⟩).of_ok hg
  have hb := blen_pos (TokenShape.ne_nil hb)
  have he := he.2
  dsimp only at he
  omega

theorem alternatives_front (X : Xid) : ∃ qs, singleToken X =
    LP.alts (LP.orElse (LP.orElse (LP.orElse commentOrDocComment (mapTok character .Character)) (mapTok string .String)) (mapTok stringRaw .StringRaw)) qs := by
  have h : ∀ (p a b c : LP Token) qs, LP.alts p (a :: b :: c :: qs) = LP.alts (LP.orElse (LP.orElse (LP.orElse p a) b) c) qs := fun _ _ _ _ _ => rfl
  unfold singleToken singleTokenAlts
  simp only [List.cons_append]
  rw [h]
  exact ⟨_, rfl⟩

/-! ### characters -/

theorem charLit_bd {b post : Text} (h : CharLit b) : Bd (o + blen b) character ⟨b ++ post, o⟩ := by
  obtain ⟨b, hb, rfl⟩ := h
  cases hb with
  | @single c hc =>
    have h1 := (fw_escapedChar (s := c :: '\'' :: post) (o := o + 1) (by rintro ⟨d, t, h, rfl⟩; cases h; exact hc rfl)).orElseO (ow_singleChar c ('\'' :: post) (o + 1))
    have h2 := (ow_literal c!"'" (c :: '\'' :: post) o).bind (f := fun _ => characterChar >>= fun _ => literal c!"'" >>= fun _ => exHere ⟨'\'' :: c :: '\'' :: post, o⟩)
      (h1.bind ((ow_literal c!"'" post _).bind (ow_exHere (spt := ⟨'\'' :: c :: '\'' :: post, o⟩) (by simp; omega))))
    have h3 := OW.pointBind (f := fun spt => literal c!"'" >>= fun _ => characterChar >>= fun _ => literal c!"'" >>= fun _ => exHere spt) h2
    have := Char.utf8Size_pos '\''
    exact h3.bd (N := o + blen (c!"'" ++ [c] ++ c!"'")) (by simp; omega)
  | @esc b hb =>
    obtain ⟨v, M, h0, hM⟩ := ow_escapedCharCode (t := '\'' :: post) (o := o + 2) hb (by
      rintro ds rfl ⟨c, r, e, hc⟩
      cases e
      revert hc; unfold Hex; decide)
    have h1 : OW escapedChar ⟨'\\' :: (b ++ '\'' :: post), o + 1⟩ ⟨'\'' :: post, o + 2 + blen b⟩ () (M ++ []) :=
      (ow_literal c!"\\" (b ++ '\'' :: post) (o + 1)).bind (L := []) (h0.bind .pure)
    have h2 := (ow_literal c!"'" ('\\' :: (b ++ '\'' :: post)) o).bind
      (f := fun _ => characterChar >>= fun _ => literal c!"'" >>= fun _ => exHere ⟨'\'' :: '\\' :: (b ++ '\'' :: post), o⟩)
      ((h1.orElse (q := singleChar)).bind ((ow_literal c!"'" post _).bind (ow_exHere (spt := ⟨'\'' :: '\\' :: (b ++ '\'' :: post), o⟩) (by simp; omega))))
    have h3 := OW.pointBind (f := fun spt => literal c!"'" >>= fun _ => characterChar >>= fun _ => literal c!"'" >>= fun _ => exHere spt) h2
    have e : c!"'" ++ ('\\' :: b) ++ c!"'" ++ post = '\'' :: '\\' :: (b ++ '\'' :: post) := by simp
    rw [e]
    refine h3.bd fun x hx => ?_
    have := hM x (by simpa using hx)
    have := Char.utf8Size_pos '\''
    have := Char.utf8Size_pos '\\'
    simp
    omega

theorem char_reach (hX : Sane X) {u : Text} (h : Ends X o L ('\'' :: u)) : Bd L character ⟨'\'' :: u, o⟩ := by
  rcases h.cases with ⟨n, E, hn, rfl⟩ | ⟨t, body, post, e, hs, -⟩
  · have hb := noToken_bd (o := o) hX hn
    obtain ⟨qs, hq⟩ := alternatives_front X
    rw [hq] at hb
    exact (Bd.of_snd (fw_comment (by decide)).fails hb.of_alts.of_orElse.of_orElse).of_map
  · have no : ∀ n E, NoToken X ('\'' :: u) n E → False := fun n E hn => noToken_not hX hn e hs
    match u with
    | [] => exact (no _ _ .quoteEnd).elim
    | c :: u =>
      by_cases hc : c = '\\'
      · subst hc
        rcases escape_split (X := X) u with ⟨b, v, rfl, hb, hv⟩ | ⟨n, E, hn⟩
        · by_cases hv' : StartsIn (· = '\'') v
          · obtain ⟨_, v, rfl, rfl⟩ := hv'
            have hl : CharLit (c!"'" ++ ('\\' :: b) ++ c!"'") := ⟨_, .esc hb, rfl⟩
            have e' : '\'' :: '\\' :: (b ++ '\'' :: v) = c!"'" ++ ('\\' :: b) ++ c!"'" ++ v := by simp
            rw [e'] at h ⊢
            exact (charLit_bd hl).mono (h.past hX (.char hl))
          · exact (no _ _ (.escaped hb hv' hv)).elim
        · exact (no _ _ hn).elim
      · by_cases hv : StartsIn (· = '\'') u
        · obtain ⟨_, v, rfl, rfl⟩ := hv
          have hl : CharLit (c!"'" ++ [c] ++ c!"'") := ⟨_, .single hc, rfl⟩
          have e' : '\'' :: c :: '\'' :: v = c!"'" ++ [c] ++ c!"'" ++ v := by simp
          rw [e'] at h ⊢
          exact (charLit_bd hl).mono (h.past hX (.char hl))
        · by_cases hw : WordStart X c
          · obtain ⟨w, post, e', hw', hp⟩ := word_split (X := X) (s := c :: u) ⟨c, u, rfl, hw⟩
            have hlen : o + 1 + c.utf8Size ≤ L := by
              have hsp : Spelling X o (.plain .Lifetime ⟨o, o + blen ('\'' :: w)⟩) ('\'' :: w) post := by
                refine .lifetime hw' hp ?_
                rintro ⟨hl, x, r, rfl, rfl⟩
                match w, hl with
                | [y], _ =>
                  cases e'
                  exact hv ⟨_, r, rfl, rfl⟩
              rw [e'] at h
              have := h.past hX (body := '\'' :: w) hsp
              obtain ⟨d, ds, rfl, -⟩ := hw'
              cases e'
              have hq := Char.utf8Size_pos '\''
              simp at this
              omega
            exact (fw_quote hc hv).bd (by simp; omega)
          · exact (no _ _ (.quote hc hw hv)).elim

/-! ### strings -/

theorem strLit_bd {N : Nat} {b post : Text} (h : StrLit b) : Bd N string ⟨b ++ post, o⟩ := by
  obtain ⟨a, ha, rfl⟩ := h
  have e : c!"\"" ++ a ++ c!"\"" ++ post = '"' :: (a ++ '"' :: post) := by simp
  rw [e]
  have h1 : OW stringChar ⟨a ++ '"' :: post, o + 1⟩ ⟨'"' :: post, o + 1 + blen a⟩ a [] := by
    obtain ⟨l, hl, hx⟩ := ow_advance a ('"' :: post) (o + 1)
    exact ⟨l, by simpa [stringChar, stringCharIdx_body ha] using hl, hx⟩
  have h2 := (ow_literal c!"\"" (a ++ '"' :: post) o).bind (f := fun _ => stringChar >>= fun _ => literal c!"\"" >>= fun _ => exHere ⟨'"' :: (a ++ '"' :: post), o⟩)
    (h1.bind ((ow_literal c!"\"" post _).bind (ow_exHere (spt := ⟨'"' :: (a ++ '"' :: post), o⟩) (by simp; omega))))
  exact (OW.pointBind (f := fun spt => literal c!"\"" >>= fun _ => stringChar >>= fun _ => literal c!"\"" >>= fun _ => exHere spt) h2).bd (by simp)

theorem string_reach (hX : Sane X) {u : Text} (h : Ends X o L ('"' :: u)) : Bd L string ⟨'"' :: u, o⟩ := by
  rcases h.cases with ⟨n, E, hn, rfl⟩ | ⟨t, body, post, e, hs, -⟩
  · have hb := noToken_bd (o := o) hX hn
    obtain ⟨qs, hq⟩ := alternatives_front X
    rw [hq] at hb
    exact (Bd.of_snd ((fw_comment (by decide)).orElse (fw_character (by decide)).mapTok).fails hb.of_alts.of_orElse).of_map
  · rcases str_split u with ⟨a, b, rfl, ha⟩ | ht
    · have e' : '"' :: (a ++ '"' :: b) = c!"\"" ++ a ++ c!"\"" ++ b := by simp
      rw [e']
      exact strLit_bd ⟨a, ha, rfl⟩
    · exact (noToken_not hX (.str ht) e hs).elim

/-- A quote is always looked at. -/
theorem Ends.quote (hX : Sane X) {u : Text} (h : Ends X o L ('"' :: u)) : o + 1 ≤ L := by
  rcases h.cases with ⟨n, E, hn, rfl⟩ | ⟨t, body, post, e, hs, h'⟩
  · generalize e : '"' :: u = v at hn
    cases hn
    case stray => cases e; exact absurd rfl (by assumption)
    case str => omega
    all_goals first
      | cases e
      | (simp at e)
  · have := spelling_pos hX hs
    have := h'.le
    omega

/-- Hashes are read one by one. -/
theorem Ends.hashes (hX : Sane X) {u : Text} : ∀ {n o : Nat}, Ends X o L (List.replicate n '#' ++ u) → Ends X (o + n) L u
  | 0, _, h => h
  | n + 1, o, h => by
    have e : List.replicate (n + 1) '#' ++ u = c!"#" ++ (List.replicate n '#' ++ u) := by simp [List.replicate_succ]
    rw [e] at h
    have hs : Spelling X o (.plain .Hash ⟨o, o + blen c!"#"⟩) c!"#" (List.replicate n '#' ++ u) := by
      refine .symbol (by decide) ?_ (by rfl)
      intro k w hk hp
      have key : ∀ r ∈ symbolTable, r.1.head? = some '#' → r.1.length = 1 := by decide
      have h1 := symbolText_table k w hk
      obtain ⟨v, hv⟩ := hp
      cases w with
      | nil => simp
      | cons c w =>
        simp only [List.cons_append, List.cons.injEq] at hv
        rw [key _ h1 (by simp [hv.1])]
        simp
    have := (Ends.hashes hX (h.step hX hs))
    rw [show o + (n + 1) = o + blen c!"#" + n by have : '#'.utf8Size = 1 := rfl; simp [this]; omega]
    exact this

/-! ### raw strings -/

theorem bd_rawTail (n : Nat) (pt : LPoint) : Bd pt.offset (rawStringTail n) pt := by
  refine .here ?_ ?_
  · unfold rawStringTail; dsimp only; repeat' split
    all_goals rfl
  · intro q e; unfold rawStringTail; dsimp only; repeat' split
    all_goals (intro h; cases h)
    rfl

theorem bd_hashes {n : Nat} {t : Text} (ht : ¬ StartsIn (· = '#') t) : ∃ v,
    OW (LP.zeroOrMore (literal c!"#")) ⟨List.replicate n '#' ++ t, o⟩ ⟨t, o + n⟩ v [(o + n, .Literal c!"#")] := by
  obtain ⟨v, h, -⟩ := ow_hashes ht n ((List.replicate n '#' ++ t).length + 1) o (by simp; omega)
  exact ⟨v, h⟩

theorem OW.bdBind {α β} {p : LP α} {f : α → LP β} {pt q : LPoint} {v : α} {M} {N : Nat} (h : OW p pt q v M) (hM : ∀ x ∈ M, x.1 ≤ N) (h' : Bd N (f v) q) :
    Bd N (p >>= f) pt := by
  refine (h.bd hM).bind fun q' v' l e => ?_
  obtain ⟨l', hl, -⟩ := h
  rw [hl] at e
  cases e
  exact h'

/-- Where the hashes are not followed by a quote, one does not get further than the hashes. -/
theorem bd_noRaw {n : Nat} {t : Text} (ht : ¬ StartsIn (· = '#') t) (hq : ¬ StartsIn (· = '"') t) :
    Bd (o + 1 + n) stringRaw ⟨c!"r" ++ (List.replicate n '#' ++ t), o⟩ := by
  refine OW.bdBind .point (by simp) (OW.bdBind (ow_literal c!"r" _ _) (by simp) ?_)
  obtain ⟨v, h⟩ := bd_hashes (o := o + 1) (n := n) ht
  exact OW.bdBind h (by simp) (FW.bd (FW.bind (fw_literal (single_prefix hq))) (by simp))

/-- Otherwise one sees whether the string is closed. -/
theorem bd_rawQuote {n : Nat} {t : Text} : Bd (o + 2 + n) stringRaw ⟨c!"r" ++ (List.replicate n '#' ++ '"' :: t), o⟩ := by
  refine OW.bdBind .point (by simp) (OW.bdBind (ow_literal c!"r" _ _) (by simp) ?_)
  obtain ⟨v, h⟩ := bd_hashes (o := o + 1) (n := n) (t := '"' :: t) (fun ⟨c, r, e, h⟩ => by cases e; cases h)
  refine OW.bdBind h (by simp) (OW.bdBind (ow_literal c!"\"" _ _) (by simp) ?_)
  refine Bd.bind ((bd_rawTail _ _).mono ?_) fun _ _ _ _ => bd_exHere
  have : '"'.utf8Size = 1 := rfl
  simp [this]; omega

/-- A word is read. -/
theorem Ends.word (hX : Sane X) {s : Text} (h : Ends X o L s) (hs : StartsIn (WordStart X) s) (hl : ¬ LiteralAt s) (hr : ¬ c!"r#" <+: s) :
    ∃ w post, s = w ++ post ∧ Word X w ∧ NoCont X post ∧ Ends X (o + blen w) L post := by
  obtain ⟨w, post, rfl, hw, hp⟩ := word_split hs
  refine ⟨w, post, rfl, hw, hp, ?_⟩
  by_cases hk : ∃ k, keywordText k = some w
  · obtain ⟨k, hk⟩ := hk
    exact h.step hX (.keyword hk hp)
  · exact h.step hX (.ident hw (fun k h => hk ⟨k, h⟩) hp hl hr)

/-- The word before a character that belongs to no word. -/
theorem Ends.wordTo (hX : Sane X) {a : Text} {c : Char} {s : Text} (h : Ends X o L (a ++ c :: s)) (ha : Word X a) (hc : c ∈ c!"'\"#")
    (hl : ¬ LiteralAt (a ++ c :: s)) (hr : ¬ c!"r#" <+: a ++ c :: s) : Ends X (o + blen a) L (c :: s) := by
  have hp : NoCont X (c :: s) := by
    rintro d t ⟨⟩
    exact not_cont hX c hc
  by_cases hk : ∃ k, keywordText k = some a
  · obtain ⟨k, hk⟩ := hk
    exact h.step hX (.keyword hk hp)
  · exact h.step hX (.ident ha (fun k h => hk ⟨k, h⟩) hp hl hr)

theorem start_r (hX : Sane X) : WordStart X 'r' := .inl (by rw [hX.start _ (by decide)]; decide)
theorem start_b (hX : Sane X) : WordStart X 'b' := .inl (by rw [hX.start _ (by decide)]; decide)
theorem cont_r (hX : Sane X) : X.cont 'r' = true := by rw [hX.cont _ (by decide)]; decide

theorem Ends.letter (hX : Sane X) {c : Char} {s : Text} (h : Ends X o L (c :: s)) (hc : WordStart X c) : o + 1 ≤ L := by
  rcases h.cases with ⟨n, E, hn, rfl⟩ | ⟨t, body, post, e, hs, h'⟩
  · generalize e : c :: s = v at hn
    have hq := not_start hX '\'' (by decide)
    have hq' := not_start hX '"' (by decide)
    cases hn
    case stray => cases e; exact absurd hc (by assumption)
    all_goals first
      | omega
      | (cases e; contradiction)
      | (simp at e; omega)
  · have := spelling_pos hX hs
    have := h'.le
    omega

theorem raw_reach (hX : Sane X) {u : Text} (h : Ends X o L ('r' :: u)) : Bd L stringRaw ⟨'r' :: u, o⟩ := by
  have h0 := h
  have ho := h.letter hX (start_r hX)
  rcases h.cases with ⟨n, E, hn, rfl⟩ | ⟨t, body, post, e, hs, -⟩
  · have hb := noToken_bd (o := o) hX hn
    obtain ⟨qs, hq⟩ := alternatives_front X
    rw [hq] at hb
    exact (Bd.of_snd (((fw_comment (by decide)).orElse (fw_character (by decide)).mapTok).orElse (fw_string (by decide)).mapTok).fails hb.of_alts).of_map
  have no : ∀ n E, NoToken X ('r' :: u) n E → False := fun n E hn => noToken_not hX hn e hs
  have hq1 : '"'.utf8Size = 1 := rfl
  have hr1 : 'r'.utf8Size = 1 := rfl
  have hh1 : '#'.utf8Size = 1 := rfl
  by_cases hl : LiteralAt ('r' :: u)
  · obtain ⟨a, post, e', hr | ⟨b, rfl, -⟩⟩ := hl
    · rw [e'] at h
      have hpast := h.past hX (.strRaw hr)
      obtain ⟨n, content, rfl, -⟩ := hr
      have e2 : c!"r" ++ List.replicate n '#' ++ c!"\"" ++ content ++ rawClose n ++ post = c!"r" ++ (List.replicate n '#' ++ '"' :: (content ++ rawClose n ++ post)) := by simp
      rw [e', e2]
      refine bd_rawQuote.mono ?_
      simp only [blen_append, blen_cons, blen_nil, blen_hashes, hq1, hr1] at hpast
      omega
    · cases e'
  obtain ⟨n, t, rfl, ht⟩ := hash_split u
  have e1 : 'r' :: (List.replicate n '#' ++ t) = c!"r" ++ (List.replicate n '#' ++ t) := rfl
  by_cases hq : StartsIn (· = '"') t
  · obtain ⟨_, v, rfl, rfl⟩ := hq
    rw [e1]
    refine bd_rawQuote.mono ?_
    cases n with
    | zero =>
      have := (Ends.wordTo hX (a := c!"r") (c := '"') (s := v) h ⟨'r', [], rfl, start_r hX, by simp⟩ (by decide) hl (by rintro ⟨r, hr⟩; cases hr)).quote hX
      simp [hr1] at this
      omega
    | succ n =>
      exfalso
      cases hf : findStr (rawClose (n + 1)) v with
      | none => exact no _ _ (by simpa using NoToken.rawEnd (X := X) (n := n + 1) (by omega) (findStr_none hf))
      | some k =>
        obtain ⟨a, hfo, -⟩ := findStr_some hf (by simp [rawClose])
        obtain ⟨b, hb⟩ := hfo.1
        refine hl ⟨c!"r" ++ List.replicate (n + 1) '#' ++ c!"\"" ++ a ++ rawClose (n + 1), b, ?_, .inl ⟨n + 1, a, rfl, hb ▸ hfo⟩⟩
        rw [hb]
        simp
  · rw [e1]
    refine (bd_noRaw ht hq).mono ?_
    match n with
    | 0 => exact ho
    | 1 =>
      by_cases hw : StartsIn (WordStart X) t
      · obtain ⟨w, post, rfl, hw, hp⟩ := word_split hw
        have e3 : 'r' :: (List.replicate 1 '#' ++ (w ++ post)) = (c!"r#" ++ w) ++ post := rfl
        rw [e3] at h
        have := h.past hX (.rawIdent hw hp)
        simp [hr1, hh1] at this
        omega
      · exact (no _ _ (NoToken.rawStart (X := X) (n := 1) (by omega) (fun ⟨c, r, e, h⟩ => h.elim (fun h => ht ⟨c, r, e, h⟩) fun h => hq ⟨c, r, e, h⟩) fun _ => hw)).elim
    | n + 2 =>
      exact (no _ _ (NoToken.rawStart (X := X) (n := n + 2) (by omega) (fun ⟨c, r, e, h⟩ => h.elim (fun h => ht ⟨c, r, e, h⟩) fun h => hq ⟨c, r, e, h⟩) (by omega))).elim

/-! ### bytes -/

theorem OW.bdPoint {β} {f : LPoint → LP β} {pt : LPoint} {N : Nat} (h : Bd N (f pt) pt) : Bd N (LP.point >>= f) pt := OW.bdBind .point (by simp) h

theorem literal_b {u : Text} {P : Prop} (hl : LiteralAt ('b' :: u)) (h1 : ∀ b post, u = b ++ post → CharLit b → P) (h2 : ∀ b post, u = b ++ post → StrLit b → P)
    (h3 : ∀ b post, u = b ++ post → RawStrLit b post → P) : P := by
  obtain ⟨a, post, e, hr | ⟨b, rfl, h | h | h⟩⟩ := hl
  · obtain ⟨c, t, e', -⟩ := rawStr_head hr post
    rw [e'] at e
    cases e
  · cases e; exact h1 _ _ rfl h
  · cases e; exact h2 _ _ rfl h
  · cases e; exact h3 _ _ rfl h

theorem byte_reach (hX : Sane X) {u : Text} (h : Ends X o L ('b' :: u)) : Bd L byte ⟨'b' :: u, o⟩ := by
  have ho := h.letter hX (start_b hX)
  have hb1 : 'b'.utf8Size = 1 := rfl
  refine OW.bdPoint (OW.bdBind (ow_literal c!"b" u o) (by simp) (Bd.bind ?_ fun _ _ _ _ => bd_exHere))
  show Bd L character ⟨u, o + 1⟩
  by_cases hu : StartsIn (· = '\'') u
  · obtain ⟨_, v, rfl, rfl⟩ := hu
    by_cases hl : LiteralAt ('b' :: '\'' :: v)
    · refine literal_b hl ?_ ?_ ?_
      · intro b post e hb
        rw [e] at h ⊢
        have := Ends.past hX (body := 'b' :: b) h (.byte hb)
        exact (charLit_bd hb).mono (by simp [hb1] at this; omega)
      · rintro b post e ⟨x, -, rfl⟩
        cases e
      · intro b post e hb
        obtain ⟨c, t, e', -⟩ := rawStr_head hb post
        rw [e'] at e
        cases e
    · exact char_reach hX (h.wordTo hX (a := c!"b") (c := '\'') (s := v) ⟨'b', [], rfl, start_b hX, by simp⟩ (by decide) hl (by rintro ⟨r, hr⟩; cases hr))
  · exact (FW.pointBind (FW.bind (fw_literal (single_prefix hu)))).bd (by simpa using ho)

theorem byteString_reach (hX : Sane X) {u : Text} (h : Ends X o L ('b' :: u)) : Bd L byteString ⟨'b' :: u, o⟩ := by
  have ho := h.letter hX (start_b hX)
  refine OW.bdPoint (OW.bdBind (ow_literal c!"b" u o) (by simp) (Bd.bind ?_ fun _ _ _ _ => bd_exHere))
  show Bd L string ⟨u, o + 1⟩
  by_cases hu : StartsIn (· = '"') u
  · obtain ⟨_, v, rfl, rfl⟩ := hu
    by_cases hl : LiteralAt ('b' :: '"' :: v)
    · refine literal_b hl ?_ ?_ ?_
      · rintro b post e ⟨x, -, rfl⟩
        cases e
      · intro b post e hb
        rw [e]
        exact strLit_bd hb
      · intro b post e hb
        obtain ⟨c, t, e', -⟩ := rawStr_head hb post
        rw [e'] at e
        cases e
    · exact string_reach hX (h.wordTo hX (a := c!"b") (c := '"') (s := v) ⟨'b', [], rfl, start_b hX, by simp⟩ (by decide) hl (by rintro ⟨r, hr⟩; cases hr))
  · exact (FW.pointBind (FW.bind (fw_literal (single_prefix hu)))).bd (by simpa using ho)

theorem byteStringRaw_reach (hX : Sane X) {u : Text} (h : Ends X o L ('b' :: u)) : Bd L byteStringRaw ⟨'b' :: u, o⟩ := by
  have ho := h.letter hX (start_b hX)
  have hb1 : 'b'.utf8Size = 1 := rfl
  have hq1 : '"'.utf8Size = 1 := rfl
  have hr1 : 'r'.utf8Size = 1 := rfl
  have hh1 : '#'.utf8Size = 1 := rfl
  refine OW.bdPoint (OW.bdBind (ow_literal c!"b" u o) (by simp) (Bd.bind ?_ fun _ _ _ _ => bd_exHere))
  show Bd L stringRaw ⟨u, o + 1⟩
  by_cases hu : StartsIn (· = 'r') u
  · obtain ⟨_, v, rfl, rfl⟩ := hu
    by_cases hl : LiteralAt ('b' :: 'r' :: v)
    · refine literal_b hl ?_ ?_ ?_
      · rintro b post e ⟨x, -, rfl⟩
        cases e
      · rintro b post e ⟨x, -, rfl⟩
        cases e
      · intro b post e hb
        rw [e] at h ⊢
        have hpast := Ends.past hX (body := 'b' :: b) h (.byteStrRaw hb)
        obtain ⟨n, content, rfl, -⟩ := hb
        have e2 : c!"r" ++ List.replicate n '#' ++ c!"\"" ++ content ++ rawClose n ++ post = c!"r" ++ (List.replicate n '#' ++ '"' :: (content ++ rawClose n ++ post)) := by simp
        rw [e2]
        refine bd_rawQuote.mono ?_
        simp only [blen_append, blen_cons, blen_nil, blen_hashes, hq1, hr1, hb1] at hpast
        omega
    · obtain ⟨n, t, rfl, ht⟩ := hash_split v
      have hw : Word X c!"br" := ⟨'b', c!"r", rfl, start_b hX, by simpa using cont_r hX⟩
      have key : ∀ c s, List.replicate n '#' ++ t = c :: s → c ∈ c!"'\"#" → Ends X (o + 2 + n) L t := by
        intro c s e hc
        have h1 : Ends X o L (c!"br" ++ c :: s) := by rw [← e]; exact h
        have h2 := h1.wordTo hX hw hc (by rw [← e]; exact hl) (by
          intro ⟨r, hr⟩
          cases hr)
        rw [← e] at h2
        have h3 := h2.hashes hX
        rw [show o + blen c!"br" = o + 2 by simp [hb1, hr1]] at h3
        exact h3
      have e1 : 'r' :: (List.replicate n '#' ++ t) = c!"r" ++ (List.replicate n '#' ++ t) := rfl
      rw [e1]
      by_cases hq : StartsIn (· = '"') t
      · obtain ⟨_, v, rfl, rfl⟩ := hq
        refine bd_rawQuote.mono ?_
        have h3 : Ends X (o + 2 + n) L ('"' :: v) := by
          cases n with
          | zero => exact key '"' v rfl (by decide)
          | succ n => exact key '#' (List.replicate n '#' ++ '"' :: v) (by simp [List.replicate_succ]) (by decide)
        have := h3.quote hX
        omega
      · refine (bd_noRaw ht hq).mono ?_
        cases n with
        | zero =>
          obtain ⟨w, post, e, ⟨c, cs, rfl, -, hcs⟩, hp, h'⟩ := h.word hX ⟨_, _, rfl, start_b hX⟩ hl (by intro ⟨r, hr⟩; cases hr)
          have := h'.le
          cases cs with
          | nil =>
            cases e
            have := hp _ _ rfl
            rw [cont_r hX] at this
            cases this
          | cons d ds =>
            have := Char.utf8Size_pos c
            have := Char.utf8Size_pos d
            simp at *
            omega
        | succ n =>
          have := (key '#' (List.replicate n '#' ++ t) (by simp [List.replicate_succ]) (by decide)).le
          omega
  · exact (FW.pointBind (FW.bind (fw_literal (single_prefix hu)))).bd (by simpa using ho)

end Verif
