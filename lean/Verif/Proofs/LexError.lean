import Verif.Proofs.LexSpelling
import Verif.Spec.LexError
/-!
# What the tokenizer tries where it cannot go on
-/

namespace Verif
open Spec

attribute [local irreducible] singleToken

/-- The recorded failures, by their offsets. -/
def offs (l : LLog) : List (Nat × LErr) := l.map fun r => (r.1.offset, r.2)

@[simp] theorem offs_append (a b : LLog) : offs (a ++ b) = offs a ++ offs b := by simp [offs]
@[simp] theorem offs_nil : offs [] = [] := rfl
@[simp] theorem offs_cons (x : LPoint × LErr) (l : LLog) : offs (x :: l) = (x.1.offset, x.2) :: offs l := rfl

/-- `p` fails recoverably, after these failures, itself among them. -/
def FW {α} (p : LP α) (pt : LPoint) (L : List (Nat × LErr)) : Prop :=
  ∃ q e l, p pt = (.fail q e, l) ∧ e.recoverable = true ∧ ∀ x, x ∈ offs (l ++ [(q, e)]) ↔ x ∈ L

/-- `p` succeeds, after these failures. -/
def OW {α} (p : LP α) (pt q : LPoint) (v : α) (L : List (Nat × LErr)) : Prop :=
  ∃ l, p pt = (.ok q v, l) ∧ ∀ x, x ∈ offs l ↔ x ∈ L

theorem FW.fails {α} {p : LP α} {pt : LPoint} {L} (h : FW p pt L) : FailsAt p pt := by
  obtain ⟨q, e, l, h, he, -⟩ := h
  exact ⟨q, e, l, h, he⟩

theorem FW.congr {α} {p : LP α} {pt : LPoint} {L M} (h : FW p pt L) (e : ∀ x, x ∈ L ↔ x ∈ M) : FW p pt M := by
  obtain ⟨q, e', l, h, he, hx⟩ := h
  exact ⟨q, e', l, h, he, fun x => (hx x).trans (e x)⟩

theorem FW.bind {α β} {p : LP α} {f : α → LP β} {pt : LPoint} {L} (h : FW p pt L) : FW (p >>= f) pt L := by
  obtain ⟨q, e, l, h, he, hx⟩ := h
  exact ⟨q, e, l, by simp [Bind.bind, LP.bind, h], he, hx⟩

theorem OW.bindF {α β} {p : LP α} {f : α → LP β} {pt q : LPoint} {v : α} {L M} (h : OW p pt q v L) (h' : FW (f v) q M) :
    FW (p >>= f) pt (L ++ M) := by
  obtain ⟨l, h, hx⟩ := h
  obtain ⟨r, e, l', h', he, hx'⟩ := h'
  refine ⟨r, e, l ++ l', by simp [Bind.bind, LP.bind, h, h'], he, fun x => ?_⟩
  have := hx' x
  simp only [offs_append, List.mem_append] at this ⊢
  rw [or_assoc, this, hx x]

theorem OW.bind {α β} {p : LP α} {f : α → LP β} {pt q r : LPoint} {v : α} {w : β} {L M} (h : OW p pt q v L) (h' : OW (f v) q r w M) :
    OW (p >>= f) pt r w (L ++ M) := by
  obtain ⟨l, h, hx⟩ := h
  obtain ⟨l', h', hx'⟩ := h'
  refine ⟨l ++ l', by simp [Bind.bind, LP.bind, h, h'], fun x => ?_⟩
  simp only [offs_append, List.mem_append, hx x, hx' x]

theorem OW.point {pt : LPoint} : OW LP.point pt pt pt [] := ⟨[], rfl, by simp⟩
theorem OW.pure {α} {pt : LPoint} {v : α} : OW (LP.pure v) pt pt v [] := ⟨[], rfl, by simp⟩

theorem FW.pointBind {β} {f : LPoint → LP β} {pt : LPoint} {L} (h : FW (f pt) pt L) : FW (LP.point >>= f) pt L :=
  (OW.point.bindF h).congr (by simp)

theorem OW.pointBind {β} {f : LPoint → LP β} {pt r : LPoint} {w : β} {L} (h : OW (f pt) pt r w L) : OW (LP.point >>= f) pt r w L := by
  have := OW.point.bind (f := f) h
  simpa using this

theorem FW.map {α β} {p : LP α} {f : α → β} {pt : LPoint} {L} (h : FW p pt L) : FW (LP.map p f) pt L := h.bind
theorem FW.mapTok {p : LP Extent} {k : TK} {pt : LPoint} {L} (h : FW p pt L) : FW (mapTok p k) pt L := h.bind

theorem FW.orElse {α} {p q : LP α} {pt : LPoint} {L M} (h : FW p pt L) (h' : FW q pt M) : FW (LP.orElse p q) pt (L ++ M) := by
  obtain ⟨r, e, l, h, he, hx⟩ := h
  obtain ⟨r', e', l', h', he', hx'⟩ := h'
  refine ⟨r', e', l ++ l' ++ [(r, e)], by simp [LP.orElse, h, h', he], he', fun x => ?_⟩
  have a := hx x
  have b := hx' x
  simp only [offs_append, List.mem_append] at a b ⊢
  rw [← a, ← b]
  grind

theorem OW.orElse {α} {p q : LP α} {pt r : LPoint} {v : α} {L} (h : OW p pt r v L) : OW (LP.orElse p q) pt r v L := by
  obtain ⟨l, h, hx⟩ := h
  exact ⟨l, by simp [LP.orElse, h], hx⟩

theorem FW.orElseO {α} {p q : LP α} {pt r : LPoint} {v : α} {L M} (h : FW p pt L) (h' : OW q pt r v M) :
    OW (LP.orElse p q) pt r v (L ++ M) := by
  obtain ⟨r', e, l, h, he, hx⟩ := h
  obtain ⟨l', h', hx'⟩ := h'
  refine ⟨l ++ l' ++ [(r', e)], by simp [LP.orElse, h, h', he], fun x => ?_⟩
  have a := hx x
  simp only [offs_append, List.mem_append] at a ⊢
  rw [← a, ← hx' x]
  grind

theorem FW.alts {α} {pt : LPoint} : ∀ (rs : List (LP α × List (Nat × LErr))) {p : LP α} {L}, FW p pt L → (∀ r ∈ rs, FW r.1 pt r.2) →
    FW (LP.alts p (rs.map Prod.fst)) pt (L ++ rs.flatMap Prod.snd)
  | [], p, L, h, _ => by simpa [LP.alts] using h
  | r :: rs, p, L, h, h' => by
    have := FW.alts rs (h.orElse (h' r (by simp))) fun r hr => h' r (by simp [hr])
    simpa [LP.alts, List.append_assoc] using this

theorem OW.alts {α} {pt r : LPoint} {v : α} : ∀ (qs : List (LP α)) {p : LP α} {L}, OW p pt r v L → OW (LP.alts p qs) pt r v L
  | [], _, _, h => h
  | q :: qs, p, L, h => OW.alts qs (p := LP.orElse p q) h.orElse

/-! ### the parts -/

theorem fw_literal {w s : Text} {o : Nat} (h : ¬ w <+: s) : FW (literal w) ⟨s, o⟩ [(o, .Literal w)] := by
  refine ⟨_, _, [], literal_fail ?_, rfl, by simp⟩
  rw [Bool.eq_false_iff]
  intro hs
  obtain ⟨b, hb⟩ := startsWith_iff.mp hs
  exact h ⟨b, hb.symm⟩

theorem ow_literal (w s : Text) (o : Nat) : OW (literal w) ⟨w ++ s, o⟩ ⟨s, o + blen w⟩ ⟨o, o + blen w⟩ [] := ⟨[], literal_ok rfl, by simp⟩

theorem head_prefix {c d : Char} {w s : Text} (h : c ≠ d) : ¬ c :: w <+: d :: s := by
  rintro ⟨b, hb⟩
  simp at hb
  exact h hb.1

theorem single_prefix {c : Char} {s : Text} (h : ¬ StartsIn (· = c) s) : ¬ [c] <+: s := by
  rintro ⟨b, rfl⟩
  exact h ⟨c, b, rfl, rfl⟩

theorem ow_exHere {spt pt : LPoint} (h : spt.offset ≤ pt.offset) : OW (exHere spt) pt pt ⟨spt.offset, pt.offset⟩ [] :=
  ⟨[], by simp [exHere, lexEx, h], by simp⟩

theorem ow_advance (a s : Text) (o : Nat) : OW (advance (blen a)) ⟨a ++ s, o⟩ ⟨s, o + blen a⟩ a [] :=
  ⟨[], by simp [advance, splitAtByte_blen], by simp⟩

theorem fw_split {pt : LPoint} {e : LErr} (he : e.recoverable = true) : FW (splitPointAtNonZeroOffset 0 e) pt [(pt.offset, e)] :=
  ⟨pt, e, [], by simp [splitPointAtNonZeroOffset], he, by simp⟩

/-! ### alternatives that the first character rules out -/

theorem fw_comment {d : Char} {s : Text} {o : Nat} (hd : d ≠ '/') : FW commentOrDocComment ⟨d :: s, o⟩ [(o, .ExpectedComment)] := by
  refine ⟨⟨d :: s, o⟩, .ExpectedComment, [], ?_, rfl, by simp⟩
  unfold commentOrDocComment
  simp [startsWith, List.isPrefixOf, Ne.symm hd]

theorem fw_character {d : Char} {s : Text} {o : Nat} (hd : d ≠ '\'') : FW character ⟨d :: s, o⟩ [(o, .Literal c!"'")] :=
  FW.pointBind (FW.bind (fw_literal (head_prefix (Ne.symm hd))))

theorem fw_string {d : Char} {s : Text} {o : Nat} (hd : d ≠ '"') : FW string ⟨d :: s, o⟩ [(o, .Literal c!"\"")] :=
  FW.pointBind (FW.bind (fw_literal (head_prefix (Ne.symm hd))))

theorem fw_stringRaw {d : Char} {s : Text} {o : Nat} (hd : d ≠ 'r') : FW stringRaw ⟨d :: s, o⟩ [(o, .Literal c!"r")] :=
  FW.pointBind (FW.bind (fw_literal (head_prefix (Ne.symm hd))))

theorem fw_byte {d : Char} {s : Text} {o : Nat} (hd : d ≠ 'b') : FW byte ⟨d :: s, o⟩ [(o, .Literal c!"b")] :=
  FW.pointBind (FW.bind (fw_literal (head_prefix (Ne.symm hd))))

theorem fw_byteString {d : Char} {s : Text} {o : Nat} (hd : d ≠ 'b') : FW byteString ⟨d :: s, o⟩ [(o, .Literal c!"b")] :=
  FW.pointBind (FW.bind (fw_literal (head_prefix (Ne.symm hd))))

theorem fw_byteStringRaw {d : Char} {s : Text} {o : Nat} (hd : d ≠ 'b') : FW byteStringRaw ⟨d :: s, o⟩ [(o, .Literal c!"b")] :=
  FW.pointBind (FW.bind (fw_literal (head_prefix (Ne.symm hd))))

theorem fw_lifetime {X : Xid} {d : Char} {s : Text} {o : Nat} (hd : d ≠ '\'') : FW (lifetime X) ⟨d :: s, o⟩ [(o, .Literal c!"'")] :=
  FW.pointBind (FW.bind (fw_literal (head_prefix (Ne.symm hd))))

theorem fw_keyword {X : Xid} {d : Char} {s : Text} {o : Nat} (h : ¬ WordStart X d) (hr : d ≠ 'r') :
    FW (keywordOrIdent X) ⟨d :: s, o⟩ [(o, .ExpectedIdentOrKeyword)] := by
  have h0 : identLen X (d :: s) = 0 := identLen_zero (by rintro ⟨c, t, e, hc⟩; cases e; exact h hc)
  have hs : startsWith c!"r#" (d :: s) = false := startsWith_head_ne (Ne.symm hr)
  obtain ⟨q, e, l, hp⟩ := FW.map (f := fun r : Text × Extent => Token.plain (keywordOf r.1) r.2)
    (fw_split (pt := ⟨d :: s, o⟩) (e := .ExpectedIdentOrKeyword) rfl)
  exact ⟨q, e, l, by simpa [keywordOrIdent, hs, h0] using hp.1, hp.2⟩

theorem fw_ident {X : Xid} {s : Text} {o : Nat} (h : ¬ StartsIn (WordStart X) s) : FW (simpleIdent X) ⟨s, o⟩ [(o, .ExpectedIdent)] := by
  obtain ⟨q, e, l, hp⟩ := FW.map (f := fun r : Text × Extent => r.2) (fw_split (pt := ⟨s, o⟩) (e := .ExpectedIdent) rfl)
  exact ⟨q, e, l, by simpa [simpleIdent, identLen_zero h] using hp.1, hp.2⟩

theorem fw_digits {b : NumBase} {s : Text} {o : Nat} (h : ¬ StartsIn (DigitOr_ b) s) : FW (numberDigits (radixOf b)) ⟨s, o⟩ [(o, .ExpectedNumber)] := by
  have ht : s.takeWhile (isDigitOrUnderscore (radixOf b)) = [] := by
    cases s with
    | nil => rfl
    | cons d t => simp [List.takeWhile, digits_stop h d t rfl]
  obtain ⟨q, e, l, hp⟩ := FW.map (f := fun r : Text × Extent => (r.2, 0)) (fw_split (pt := ⟨s, o⟩) (e := .ExpectedNumber) rfl)
  exact ⟨q, e, l, by simpa [numberDigits, ht] using hp.1, hp.2⟩

theorem fw_number {X : Xid} {d : Char} {s : Text} {o : Nat} (h : d ∉ digitChars .Decimal) (h' : d ≠ '_') :
    FW (number X) ⟨d :: s, o⟩ [(o, .Literal c!"0b"), (o, .Literal c!"0x"), (o, .Literal c!"0o"), (o, .ExpectedNumber)] := by
  have h0 : '0' ≠ d := by rintro rfl; exact h (by decide)
  have hb : ∀ (b : NumBase) (c : Char) (n : Nat), FW (numberBase X b ['0', c] n) ⟨d :: s, o⟩ [(o, .Literal ['0', c])] := fun b c n =>
    FW.bind (fw_literal (head_prefix h0))
  have hd : FW (numberBase X .Decimal c!"" 10) ⟨d :: s, o⟩ [(o, .ExpectedNumber)] := by
    have hn : ¬ StartsIn (DigitOr_ .Decimal) (d :: s) := by
      rintro ⟨c, t, e, hc | hc⟩
      · cases e; exact h hc
      · cases e; exact h' hc
    exact (ow_literal [] (d :: s) o).bindF (FW.bind (fw_digits (b := .Decimal) hn))
  refine FW.pointBind (FW.bind ?_)
  exact ((((hb .Binary 'b' 2).orElse (hb .Hexadecimal 'x' 16)).orElse (hb .Octal 'o' 8)).orElse hd)

theorem fw_ws {d : Char} {s : Text} {o : Nat} (h : d ∉ wsChars) : FW whitespace ⟨d :: s, o⟩ [(o, .ExpectedWhitespace)] := by
  have hw : isWs d = false := by
    rw [Bool.eq_false_iff]
    intro hw
    exact h ((isWs_iff d).mp hw)
  obtain ⟨q, e, l, hp⟩ := FW.map (f := fun r : Text × Extent => r.2) (fw_split (pt := ⟨d :: s, o⟩) (e := .ExpectedWhitespace) rfl)
  exact ⟨q, e, l, by simpa [whitespace, takeWhileLen, hw] using hp.1, hp.2⟩

/-! ### character literals -/

theorem fw_escapedChar {s : Text} {o : Nat} (h : ¬ StartsIn (· = '\\') s) : FW escapedChar ⟨s, o⟩ [(o, .Literal c!"\\")] :=
  FW.bind (fw_literal (single_prefix h))

theorem ow_singleChar (c : Char) (s : Text) (o : Nat) : OW singleChar ⟨c :: s, o⟩ ⟨s, o + c.utf8Size⟩ () [] := by
  have := (ow_advance [c] s o).bind (f := fun _ => LP.pure ()) .pure
  obtain ⟨l, hl, hx⟩ := this
  exact ⟨l, by simpa [singleChar, LP.map, Bind.bind] using hl, hx⟩

theorem fw_quoteEnd (o : Nat) : FW character ⟨c!"'", o⟩ [(o + 1, .Literal c!"\\"), (o + 1, .ExpectedCharacter)] := by
  refine FW.pointBind ((ow_literal c!"'" [] o).bindF (L := []) (FW.bind ?_))
  refine (fw_escapedChar (by rintro ⟨c, t, h, _⟩; cases h)).orElse (M := [(o + 1, .ExpectedCharacter)]) ?_
  exact ⟨⟨[], o + 1⟩, .ExpectedCharacter, [], rfl, rfl, by simp⟩

theorem fw_quote {c : Char} {t : Text} {o : Nat} (hc : c ≠ '\\') (ht : ¬ StartsIn (· = '\'') t) :
    FW character ⟨'\'' :: c :: t, o⟩ [(o + 1, .Literal c!"\\"), (o + 1 + c.utf8Size, .Literal c!"'")] := by
  refine FW.pointBind ((ow_literal c!"'" (c :: t) o).bindF (L := []) ?_)
  have h1 := (fw_escapedChar (s := c :: t) (o := o + 1) (by rintro ⟨d, t, h, rfl⟩; cases h; exact hc rfl)).orElseO (ow_singleChar c t (o + 1))
  exact h1.bindF (FW.bind (fw_literal (single_prefix ht)))

/-- The escapes of one character. -/
def simpleEscapes (o : Nat) : List (Nat × LErr) :=
  [(o, .Literal c!"n"), (o, .Literal c!"r"), (o, .Literal c!"t"), (o, .Literal c!"\\"), (o, .Literal c!"'"), (o, .Literal c!"\""), (o, .Literal c!"0")]

theorem fw_escapedCharCode {u : Text} {o : Nat} {Lx Lu} (h : ¬ StartsIn (· ∈ c!"nrt\\'\"0") u) (hx : FW escapedCharHex ⟨u, o⟩ Lx)
    (hu : FW escapedCharUnicode ⟨u, o⟩ Lu) : FW escapedCharCode ⟨u, o⟩ (simpleEscapes o ++ Lx ++ Lu) := by
  have l : ∀ c ∈ c!"nrt\\'\"0", FW (literal [c]) ⟨u, o⟩ [(o, .Literal [c])] := fun c hc =>
    fw_literal (single_prefix (by rintro ⟨d, t, rfl, rfl⟩; exact h ⟨d, t, rfl, hc⟩))
  exact (((((((((l 'n' (by decide)).orElse (l 'r' (by decide))).orElse (l 't' (by decide))).orElse (l '\\' (by decide))).orElse
    (l '\'' (by decide))).orElse (l '"' (by decide))).orElse (l '0' (by decide))).orElse hx).orElse hu)

theorem fw_hexString {t : Text} {o : Nat} (h : ¬ StartsIn Hex t) : FW hexString ⟨t, o⟩ [(o, .ExpectedHex)] := by
  have ht : t.takeWhile (isDigit 16) = [] := by
    cases t with
    | nil => rfl
    | cons d t =>
      have : isDigit 16 d = false := by
        rw [Bool.eq_false_iff]
        intro hd
        exact h ⟨d, t, rfl, (isDigit_iff .Hexadecimal d).mp hd⟩
      simp [List.takeWhile, this]
  exact ⟨_, _, [], by simp only [hexString, takeWhileLen, ht, blen_nil, if_true]; rfl, rfl, by simp⟩

theorem ow_hexString {ds t : Text} {o : Nat} (hn : ds ≠ []) (hd : ∀ d ∈ ds, Hex d) (h : ¬ StartsIn Hex t) :
    OW hexString ⟨ds ++ t, o⟩ ⟨t, o + blen ds⟩ ds [] := by
  have ht : (ds ++ t).takeWhile (isDigit 16) = ds := by
    refine takeWhile_append_stop (fun d h => (isDigit_iff .Hexadecimal d).mpr (hd d h)) fun d r e => ?_
    rw [Bool.eq_false_iff]
    intro hd
    exact h ⟨d, r, e, (isDigit_iff .Hexadecimal d).mp hd⟩
  have h0 : blen ds ≠ 0 := by have := blen_pos hn; omega
  obtain ⟨l, hl, hx⟩ := ow_advance ds t o
  exact ⟨l, by simpa [hexString, takeWhileLen, ht, h0] using hl, hx⟩

theorem fw_noHex {u : Text} {o : Nat} (h : ¬ StartsIn (· = 'x') u) : FW escapedCharHex ⟨u, o⟩ [(o, .Literal c!"x")] :=
  FW.pointBind (FW.bind (fw_literal (single_prefix h)))

theorem fw_noUnicode {u : Text} {o : Nat} (h : ¬ c!"u{" <+: u) : FW escapedCharUnicode ⟨u, o⟩ [(o, .Literal c!"u{")] :=
  FW.pointBind (FW.bind (fw_literal h))

theorem fw_hex {t : Text} {o : Nat} (h : ¬ StartsIn Hex t) : FW escapedCharHex ⟨'x' :: t, o⟩ [(o + 1, .ExpectedHex)] :=
  FW.pointBind ((ow_literal c!"x" t o).bindF (L := []) (FW.bind (fw_hexString h)))

theorem fw_unicode {t : Text} {o : Nat} (h : ¬ StartsIn Hex t) : FW escapedCharUnicode ⟨c!"u{" ++ t, o⟩ [(o + 2, .ExpectedHex)] :=
  FW.pointBind ((ow_literal c!"u{" t o).bindF (L := []) (FW.bind (fw_hexString h)))

theorem fw_unicodeEnd {ds t : Text} {o : Nat} (hn : ds ≠ []) (hd : ∀ d ∈ ds, Hex d) (h : ¬ StartsIn (fun c => Hex c ∨ c = '}') t) :
    FW escapedCharUnicode ⟨c!"u{" ++ ds ++ t, o⟩ [(o + 2 + blen ds, .Literal c!"}")] := by
  refine FW.pointBind ((ow_literal c!"u{" (ds ++ t) o).bindF (L := []) ?_)
  refine (ow_hexString hn hd fun ⟨d, r, e, hd⟩ => h ⟨d, r, e, .inl hd⟩).bindF (L := []) (FW.bind (fw_literal (single_prefix ?_)))
  rintro ⟨d, r, e, rfl⟩
  exact h ⟨_, r, e, .inr rfl⟩

/-- A backslash that is followed by no escape is taken as the character. -/
theorem fw_badEscape {u : Text} {o : Nat} {L} (h : FW escapedCharCode ⟨u, o + 2⟩ L) (hu : ¬ StartsIn (· = '\'') u) :
    FW character ⟨c!"'\\" ++ u, o⟩ (L ++ [(o + 2, .Literal c!"'")]) := by
  refine FW.pointBind ((ow_literal c!"'" ('\\' :: u) o).bindF (L := []) ?_)
  have h1 : FW escapedChar ⟨'\\' :: u, o + 1⟩ L := (ow_literal c!"\\" u (o + 1)).bindF (L := []) (FW.bind h)
  have h2 := (h1.orElseO (ow_singleChar '\\' u (o + 1))).bindF (f := fun _ => literal c!"'" >>= fun _ => exHere ⟨'\'' :: '\\' :: u, o⟩)
    (FW.bind (fw_literal (o := o + 2) (single_prefix hu)))
  exact h2.congr (by simp)

theorem fw_escaped {u t : Text} {o m : Nat} {v L} (h : OW escapedCharCode ⟨u, o + 2⟩ ⟨t, m⟩ v L) (ht : ¬ StartsIn (· = '\'') t) :
    FW character ⟨c!"'\\" ++ u, o⟩ (L ++ [(m, .Literal c!"'")]) := by
  refine FW.pointBind ((ow_literal c!"'" ('\\' :: u) o).bindF (L := []) ?_)
  have h1 : OW escapedChar ⟨'\\' :: u, o + 1⟩ ⟨t, m⟩ () (L ++ []) := (ow_literal c!"\\" u (o + 1)).bind (L := []) (h.bind .pure)
  have h2 := (h1.orElse (q := singleChar)).bindF (f := fun _ => literal c!"'" >>= fun _ => exHere ⟨'\'' :: '\\' :: u, o⟩)
    (FW.bind (fw_literal (o := m) (single_prefix ht)))
  exact h2.congr (by simp)

/-- What `p` has tried is not beyond `N`. -/
def Bd {α} (N : Nat) (p : LP α) (pt : LPoint) : Prop := ∀ r l, p pt = (r, l) → (∀ x ∈ offs l, x.1 ≤ N) ∧ ∀ q e, r = .fail q e → q.offset ≤ N

theorem Bd.orElse {α} {N : Nat} {p q : LP α} {pt : LPoint} (h : Bd N p pt) (h' : Bd N q pt) : Bd N (LP.orElse p q) pt := by
  intro r l e
  cases hp : p pt with
  | mk r1 l1 =>
    obtain ⟨h1, h2⟩ := h _ _ hp
    simp only [LP.orElse, hp] at e
    cases r1 with
    | fail q1 e1 =>
      simp only at e
      split at e
      · cases hq : q pt with
        | mk r2 l2 =>
          obtain ⟨h3, h4⟩ := h' _ _ hq
          rw [hq] at e
          cases e
          refine ⟨fun x hx => ?_, h4⟩
          have := h2 _ _ rfl
          simp only [offs_append, offs_cons, offs_nil, List.mem_append, List.mem_cons, List.not_mem_nil, or_false] at hx
          rcases hx with (hx | hx) | rfl
          · exact h1 x hx
          · exact h3 x hx
          · exact this
      · cases e; exact ⟨h1, h2⟩
    | ok _ _ => cases e; exact ⟨h1, h2⟩
    | panic => cases e; exact ⟨h1, h2⟩
    | hang => cases e; exact ⟨h1, h2⟩

theorem Bd.alts {α} {N : Nat} {pt : LPoint} : ∀ {ps : List (LP α)} {p : LP α}, Bd N p pt → (∀ q ∈ ps, Bd N q pt) → Bd N (LP.alts p ps) pt
  | [], _, h, _ => h
  | q :: ps, p, h, h' => Bd.alts (ps := ps) (p := LP.orElse p q) (h.orElse (h' q (by simp))) fun r hr => h' r (by simp [hr])

theorem FW.bd {α} {p : LP α} {pt : LPoint} {L} {N : Nat} (h : FW p pt L) (hL : ∀ x ∈ L, x.1 ≤ N) : Bd N p pt := by
  obtain ⟨q, e, l, h, -, hx⟩ := h
  intro r l' e'
  rw [h] at e'
  cases e'
  refine ⟨fun x hx' => hL x ((hx x).mp (by simp [hx'])), ?_⟩
  rintro _ _ ⟨⟩
  exact hL (q.offset, e) ((hx _).mp (by simp))

theorem OW.bd {α} {p : LP α} {pt q : LPoint} {v : α} {L} {N : Nat} (h : OW p pt q v L) (hL : ∀ x ∈ L, x.1 ≤ N) : Bd N p pt := by
  obtain ⟨l, h, hx⟩ := h
  intro r l' e'
  rw [h] at e'
  cases e'
  exact ⟨fun x hx' => hL x ((hx x).mp hx'), by rintro _ _ ⟨⟩⟩

theorem bd_literal (w : Text) (pt : LPoint) : Bd pt.offset (literal w) pt := by
  by_cases h : w <+: pt.s
  · obtain ⟨s, h⟩ := h
    intro r l e
    rw [literal_ok h.symm] at e
    cases e
    exact ⟨by simp, by rintro _ _ ⟨⟩⟩
  · exact (fw_literal (o := pt.offset) h).bd (by simp)

/-- Reading an escape. -/
theorem ow_escapedCharCode {b t : Text} {o : Nat} (hb : Escape b) (ht : ∀ ds, b = 'x' :: ds → ¬ StartsIn Hex t) :
    ∃ v L, OW escapedCharCode ⟨b ++ t, o⟩ ⟨t, o + blen b⟩ v L ∧ ∀ x ∈ L, x.1 ≤ o := by
  have hx : Bd o escapedCharHex ⟨b ++ t, o⟩ := by
    cases hb with
    | @simple c hc =>
      refine (fw_noHex (o := o) ?_).bd (by simp)
      rintro ⟨d, r, e, rfl⟩
      cases e
      revert hc; decide
    | @hex ds hn hd =>
      have := ((ow_literal c!"x" (ds ++ t) o).bind (f := fun _ => hexString >>= fun _ => exHere ⟨'x' :: ds ++ t, o⟩) ((ow_hexString hn hd (ht ds rfl)).bind (ow_exHere (spt := ⟨'x' :: ds ++ t, o⟩) (by simp; omega))))
      exact (OW.pointBind (f := fun spt => literal c!"x" >>= fun _ => hexString >>= fun _ => exHere spt) this).bd (by simp)
    | unicode =>
      refine (fw_noHex (o := o) ?_).bd (by simp)
      rintro ⟨d, r, e, rfl⟩
      cases e
  have hu : Bd o escapedCharUnicode ⟨b ++ t, o⟩ := by
    cases hb with
    | @simple c hc =>
      refine (fw_noUnicode (o := o) ?_).bd (by simp)
      rintro ⟨r, e⟩
      cases e
      revert hc; decide
    | @hex ds hn hd =>
      refine (fw_noUnicode (o := o) ?_).bd (by simp)
      rintro ⟨r, e⟩
      cases e
    | @unicode ds hn hd =>
      have h1 : ¬ StartsIn Hex ('}' :: t) := by
        rintro ⟨d, r, e, h⟩
        cases e
        revert h; unfold Hex; decide
      have h2 := (ow_literal c!"u{" (ds ++ '}' :: t) o).bind (f := fun _ => hexString >>= fun _ => literal c!"}" >>= fun _ => exHere ⟨c!"u{" ++ ds ++ c!"}" ++ t, o⟩)
        ((ow_hexString hn hd h1).bind ((ow_literal c!"}" t _).bind (ow_exHere (spt := ⟨c!"u{" ++ ds ++ c!"}" ++ t, o⟩) (by simp; omega))))
      have h3 : c!"u{" ++ (ds ++ '}' :: t) = c!"u{" ++ ds ++ c!"}" ++ t := by simp
      rw [h3] at h2
      exact (OW.pointBind (f := fun spt => literal c!"u{" >>= fun _ => hexString >>= fun _ => literal c!"}" >>= fun _ => exHere spt) h2).bd (by simp)
  have hB : Bd o escapedCharCode ⟨b ++ t, o⟩ := by
    refine Bd.alts (bd_literal _ _) fun q hq => ?_
    simp only [List.mem_cons, List.not_mem_nil, or_false] at hq
    rcases hq with rfl | rfl | rfl | rfl | rfl | rfl | rfl | rfl
    iterate 6 exact bd_literal _ _
    · exact hx
    · exact hu
  have h3 : (∃ ds, b = 'x' :: ds) → ∀ d r, t = d :: r → isDigit 16 d = false := by
    rintro ⟨ds, e⟩ d r e'
    rw [Bool.eq_false_iff]
    intro hd
    exact ht ds e ⟨d, r, e', (isDigit_iff .Hexadecimal d).mp hd⟩
  obtain ⟨v, l, h⟩ := okAt_escapedCharCode (pt := ⟨b ++ t, o⟩) (q := ⟨t, o + blen b⟩) ⟨rfl, rfl⟩ hb h3
  exact ⟨v, offs l, ⟨l, h, fun x => Iff.rfl⟩, (hB _ _ h).1⟩

/-! ### lifetimes and strings -/

theorem fw_noLifetime {X : Xid} {s : Text} {o : Nat} (h : ¬ StartsIn (WordStart X) s) : FW (lifetime X) ⟨'\'' :: s, o⟩ [(o + 1, .ExpectedIdent)] :=
  FW.pointBind ((ow_literal c!"'" s o).bindF (L := []) (FW.bind (fw_ident h)))

theorem stringCharIdx_open {t : Text} (h : OpenStr t) : stringCharIdx false t = blen t := by
  induction h with
  | nil => rfl
  | slash => rfl
  | plain h1 h2 _ ih => simp [stringCharIdx, h1, h2, ih]
  | esc _ ih => simp [stringCharIdx, ih]

theorem fw_openStr {t : Text} {o : Nat} (h : OpenStr t) : FW string ⟨'"' :: t, o⟩ [(o + 1 + blen t, .Literal c!"\"")] := by
  refine FW.pointBind ((ow_literal c!"\"" t o).bindF (L := []) ?_)
  have h1 : OW stringChar ⟨t, o + 1⟩ ⟨[], o + 1 + blen t⟩ t [] := by
    have := ow_advance t [] (o + 1)
    rw [List.append_nil] at this
    obtain ⟨l, hl, hx⟩ := this
    exact ⟨l, by simpa [stringChar, stringCharIdx_open h] using hl, hx⟩
  exact h1.bindF (FW.bind (fw_literal (by simp)))

theorem ow_hashes {t : Text} (ht : ¬ StartsIn (· = '#') t) : ∀ (n m o : Nat), n < m →
    ∃ v, OW (LP.zeroOrMoreF (literal c!"#") m) ⟨List.replicate n '#' ++ t, o⟩ ⟨t, o + n⟩ v [(o + n, .Literal c!"#")] ∧ v.length = n
  | _, 0, _, h => absurd h (by omega)
  | 0, m + 1, o, _ => by
    have h := literal_fail (w := c!"#") (pt := ⟨t, o⟩) (by
      rw [Bool.eq_false_iff]
      intro hs
      obtain ⟨b, hb⟩ := startsWith_iff.mp hs
      exact ht ⟨'#', b, hb, rfl⟩)
    exact ⟨[], ⟨[(⟨t, o⟩, .Literal c!"#")], by simp [LP.zeroOrMoreF, h, LErr.recoverable], by simp⟩, rfl⟩
  | n + 1, m + 1, o, h => by
    obtain ⟨v, ⟨l, hl, hx⟩, hv⟩ := ow_hashes ht n m (o + 1) (by omega)
    have h1 : literal c!"#" ⟨List.replicate (n + 1) '#' ++ t, o⟩ = (.ok ⟨List.replicate n '#' ++ t, o + 1⟩ ⟨o, o + 1⟩, []) :=
      literal_ok (w := c!"#") (by simp [List.replicate_succ])
    refine ⟨⟨o, o + 1⟩ :: v, ⟨l, ?_, ?_⟩, by simp [hv]⟩
    · simp only [LP.zeroOrMoreF, h1, hl, List.nil_append]
      rw [show o + 1 + n = o + (n + 1) by omega]
    · intro x
      rw [hx x]
      simp [Nat.add_assoc, Nat.add_comm 1 n]

theorem fw_rawStart {n : Nat} {t : Text} {o : Nat} (ht : ¬ StartsIn (fun c => c = '#' ∨ c = '"') t) :
    FW stringRaw ⟨c!"r" ++ List.replicate n '#' ++ t, o⟩ [(o + 1 + n, .Literal c!"#"), (o + 1 + n, .Literal c!"\"")] := by
  refine FW.pointBind ((ow_literal c!"r" (List.replicate n '#' ++ t) o).bindF (L := []) ?_)
  obtain ⟨v, h, -⟩ := ow_hashes (t := t) (fun ⟨c, r, e, h⟩ => ht ⟨c, r, e, .inl h⟩) n ((List.replicate n '#' ++ t).length + 1) (o + 1) (by simp; omega)
  have h' : OW (LP.zeroOrMore (literal c!"#")) ⟨List.replicate n '#' ++ t, o + 1⟩ ⟨t, o + 1 + n⟩ v [(o + 1 + n, .Literal c!"#")] := h
  exact h'.bindF (FW.bind (fw_literal (single_prefix fun ⟨c, r, e, h⟩ => ht ⟨c, r, e, .inr h⟩)))

theorem fw_rawEnd {n : Nat} {t : Text} {o : Nat} (ht : NoOcc (rawClose n) t) :
    FW stringRaw ⟨c!"r" ++ List.replicate n '#' ++ c!"\"" ++ t, o⟩ [(o + 1 + n, .Literal c!"#"), (o + 1 + n + 1, .UnterminatedRawString)] := by
  have e : c!"r" ++ List.replicate n '#' ++ c!"\"" ++ t = c!"r" ++ (List.replicate n '#' ++ '"' :: t) := by simp
  rw [e]
  refine FW.pointBind ((ow_literal c!"r" (List.replicate n '#' ++ '"' :: t) o).bindF (L := []) ?_)
  obtain ⟨v, h, hv⟩ := ow_hashes (t := '"' :: t) (fun ⟨c, r, e, h⟩ => by cases e; cases h) n ((List.replicate n '#' ++ '"' :: t).length + 1) (o + 1)
    (by simp; omega)
  have h' : OW (LP.zeroOrMore (literal c!"#")) ⟨List.replicate n '#' ++ '"' :: t, o + 1⟩ ⟨'"' :: t, o + 1 + n⟩ v [(o + 1 + n, .Literal c!"#")] := h
  refine h'.bindF ((ow_literal c!"\"" t (o + 1 + n)).bindF (L := []) (FW.bind ?_))
  rw [hv]
  refine ⟨⟨t, o + 1 + n + 1⟩, .UnterminatedRawString, [], ?_, rfl, by simp⟩
  have hf : findStr ('"' :: List.replicate n '#') t = none := by
    cases hf : findStr ('"' :: List.replicate n '#') t with
    | none => rfl
    | some k =>
      obtain ⟨a, ⟨⟨b, hb⟩, -⟩, -⟩ := findStr_some hf (by simp)
      exact absurd hb (ht a b)
  simp only [rawStringTail]
  rw [hf]
  rfl

end Verif
