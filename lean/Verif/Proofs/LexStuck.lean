import Verif.Proofs.LexError
/-!
# Where the tokenizer stops, and what it reports there
-/

namespace Verif
open Spec

attribute [local irreducible] singleToken

/-- `p` fails, after these failures, itself among them. -/
def FA {α} (p : LP α) (pt : LPoint) (L : List (Nat × LErr)) : Prop :=
  ∃ q e l, p pt = (.fail q e, l) ∧ ∀ x, x ∈ offs (l ++ [(q, e)]) ↔ x ∈ L

theorem FW.fa {α} {p : LP α} {pt : LPoint} {L} (h : FW p pt L) : FA p pt L := by
  obtain ⟨q, e, l, h, -, hx⟩ := h
  exact ⟨q, e, l, h, hx⟩

theorem alts_append {α} (p : LP α) (as bs : List (LP α)) : LP.alts p (as ++ bs) = LP.alts (LP.alts p as) bs := by
  induction as generalizing p with
  | nil => rfl
  | cons a as ih => exact ih (LP.orElse p a)

/-- After a failure that is not recoverable no other alternative is tried. -/
theorem FA.alts {α} {pt q : LPoint} {e : LErr} {l : LLog} : ∀ (qs : List (LP α)) {p : LP α}, p pt = (.fail q e, l) → e.recoverable = false →
    LP.alts p qs pt = (.fail q e, l)
  | [], _, h, _ => h
  | r :: qs, p, h, he => FA.alts qs (p := LP.orElse p r) (by simp [LP.orElse, h, he]) he

/-- The alternatives before the word, with what each of them has tried. -/
def before (X : Xid) (o : Nat) (L1 L2 L3 L4 L5 L6 L7 : List (Nat × LErr)) : List (LP Token × List (Nat × LErr)) :=
  [(mapTok character .Character, L1), (mapTok string .String, L2), (mapTok stringRaw .StringRaw, L3), (mapTok byte .Byte, L4),
    (mapTok byteString .ByteString, L5), (mapTok byteStringRaw .ByteStringRaw, L6), (mapTok (lifetime X) .Lifetime, L7)] ++
  symbolTable.map fun r => (mapTok (literal r.1) r.2, [(o, .Literal r.1)])

variable {X : Xid} {s : Text} {o : Nat} {L0 L1 L2 L3 L4 L5 L6 L7 L8 L9 L10 : List (Nat × LErr)}

theorem fw_before (h0 : FW commentOrDocComment ⟨s, o⟩ L0) (h1 : FW character ⟨s, o⟩ L1) (h2 : FW string ⟨s, o⟩ L2) (h3 : FW stringRaw ⟨s, o⟩ L3)
    (h4 : FW byte ⟨s, o⟩ L4) (h5 : FW byteString ⟨s, o⟩ L5) (h6 : FW byteStringRaw ⟨s, o⟩ L6) (h7 : FW (lifetime X) ⟨s, o⟩ L7)
    (hs : ∀ r ∈ symbolTable, ¬ r.1 <+: s) :
    FW (LP.alts commentOrDocComment ((before X o L1 L2 L3 L4 L5 L6 L7).map Prod.fst)) ⟨s, o⟩
      (L0 ++ (before X o L1 L2 L3 L4 L5 L6 L7).flatMap Prod.snd) := by
  refine FW.alts _ h0 fun r hr => ?_
  rcases List.mem_append.mp hr with hr | hr
  · simp only [List.mem_cons, List.not_mem_nil, or_false] at hr
    rcases hr with rfl | rfl | rfl | rfl | rfl | rfl | rfl
    · exact h1.mapTok
    · exact h2.mapTok
    · exact h3.mapTok
    · exact h4.mapTok
    · exact h5.mapTok
    · exact h6.mapTok
    · exact h7.mapTok
  · obtain ⟨r', hr', rfl⟩ := List.mem_map.mp hr
    exact (fw_literal (hs r' hr')).mapTok

theorem alts_before (X : Xid) (o : Nat) : singleTokenAlts X = (before X o L1 L2 L3 L4 L5 L6 L7).map Prod.fst ++
    [keywordOrIdent X, LP.map (number X) Token.number, mapTok whitespace .Whitespace] := by
  simp [singleTokenAlts, before, Function.comp_def]

theorem fw_token (h0 : FW commentOrDocComment ⟨s, o⟩ L0) (h1 : FW character ⟨s, o⟩ L1) (h2 : FW string ⟨s, o⟩ L2) (h3 : FW stringRaw ⟨s, o⟩ L3)
    (h4 : FW byte ⟨s, o⟩ L4) (h5 : FW byteString ⟨s, o⟩ L5) (h6 : FW byteStringRaw ⟨s, o⟩ L6) (h7 : FW (lifetime X) ⟨s, o⟩ L7)
    (hs : ∀ r ∈ symbolTable, ¬ r.1 <+: s) (h8 : FW (keywordOrIdent X) ⟨s, o⟩ L8) (h9 : FW (number X) ⟨s, o⟩ L9) (h10 : FW whitespace ⟨s, o⟩ L10) :
    FA (singleToken X) ⟨s, o⟩ (L0 ++ (before X o L1 L2 L3 L4 L5 L6 L7).flatMap Prod.snd ++ L8 ++ L9 ++ L10) := by
  unfold singleToken
  rw [alts_before (L1 := L1) (L2 := L2) (L3 := L3) (L4 := L4) (L5 := L5) (L6 := L6) (L7 := L7) X o, alts_append]
  have h := fw_before h0 h1 h2 h3 h4 h5 h6 h7 hs
  generalize (before X o L1 L2 L3 L4 L5 L6 L7).flatMap Prod.snd = L at h ⊢
  generalize LP.alts commentOrDocComment ((before X o L1 L2 L3 L4 L5 L6 L7).map Prod.fst) = p at h ⊢
  simp only [LP.alts]
  exact (((h.orElse h8).orElse h9.map).orElse h10.mapTok).fa

theorem fa_raw (h0 : FW commentOrDocComment ⟨s, o⟩ L0) (h1 : FW character ⟨s, o⟩ L1) (h2 : FW string ⟨s, o⟩ L2) (h3 : FW stringRaw ⟨s, o⟩ L3)
    (h4 : FW byte ⟨s, o⟩ L4) (h5 : FW byteString ⟨s, o⟩ L5) (h6 : FW byteStringRaw ⟨s, o⟩ L6) (h7 : FW (lifetime X) ⟨s, o⟩ L7)
    (hs : ∀ r ∈ symbolTable, ¬ r.1 <+: s) (h8 : keywordOrIdent X ⟨s, o⟩ = (.fail ⟨s, o⟩ .RawIdentifierMissingIdentifier, [])) :
    FA (singleToken X) ⟨s, o⟩ (L0 ++ (before X o L1 L2 L3 L4 L5 L6 L7).flatMap Prod.snd ++ [(o, .RawIdentifierMissingIdentifier)]) := by
  unfold singleToken
  rw [alts_before (L1 := L1) (L2 := L2) (L3 := L3) (L4 := L4) (L5 := L5) (L6 := L6) (L7 := L7) X o, alts_append]
  obtain ⟨q, e, l, h, he, hx⟩ := fw_before h0 h1 h2 h3 h4 h5 h6 h7 hs
  generalize LP.alts commentOrDocComment ((before X o L1 L2 L3 L4 L5 L6 L7).map Prod.fst) = p at h
  refine ⟨⟨s, o⟩, .RawIdentifierMissingIdentifier, l ++ [] ++ [(q, e)], ?_, fun x => ?_⟩
  · refine FA.alts _ (p := LP.orElse p (keywordOrIdent X)) ?_ rfl
    simp [LP.orElse, h, h8, he]
  · have := hx x
    simp only [List.append_nil, offs_append, List.mem_append, offs_cons, offs_nil] at this ⊢
    rw [this]

theorem before_mem {x : Nat × LErr} : x ∈ (before X o L1 L2 L3 L4 L5 L6 L7).flatMap Prod.snd ↔
    x ∈ L1 ∨ x ∈ L2 ∨ x ∈ L3 ∨ x ∈ L4 ∨ x ∈ L5 ∨ x ∈ L6 ∨ x ∈ L7 ∨ ∃ r ∈ symbolTable, x = (o, .Literal r.1) := by
  simp only [before, List.flatMap_append, List.mem_append, List.flatMap_cons, List.flatMap_nil, List.append_nil, List.mem_flatMap, List.mem_map]
  constructor
  · rintro (h | ⟨_, ⟨r, hr, rfl⟩, h⟩)
    · grind
    · simp only [List.mem_cons, List.not_mem_nil, or_false] at h
      exact .inr (.inr (.inr (.inr (.inr (.inr (.inr ⟨r, hr, h⟩))))))
  · rintro (h | h | h | h | h | h | h | ⟨r, hr, h⟩)
    all_goals first
      | exact .inr ⟨_, ⟨r, hr, rfl⟩, by simp [h]⟩
      | exact .inl (by grind)

/-- What has been tried where no token can be read: nothing further than `n` bytes, and there just what is missing. -/
def Tried (X : Xid) (s : Text) (o n : Nat) (E : LErr → Prop) : Prop :=
  ∃ L, FA (singleToken X) ⟨s, o⟩ L ∧ (∀ x ∈ L, x.1 ≤ o + n) ∧ ∀ e, E e ↔ (o + n, e) ∈ L

theorem symbols_none {d : Char} {t : Text} (h : d ∉ symHeads) : ∀ r ∈ symbolTable, ¬ r.1 <+: d :: t :=
  fun _ hr hp => h (symbol_head hr hp)

theorem tried_quote (hX : Sane X) {u : Text} {n : Nat} {E : LErr → Prop} (h1 : FW character ⟨'\'' :: u, o⟩ L1) (hu : ¬ StartsIn (WordStart X) u)
    (hn : 1 ≤ n) (hL : ∀ x ∈ L1, x.1 ≤ o + n) (hE : ∀ e, E e ↔ (o + n, e) ∈ L1 ∨ (n = 1 ∧ e = .ExpectedIdent)) : Tried X ('\'' :: u) o n E := by
  have hq := not_start hX '\'' (by decide)
  refine ⟨_, fw_token (fw_comment (by decide)) h1 (fw_string (by decide)) (fw_stringRaw (by decide)) (fw_byte (by decide)) (fw_byteString (by decide))
    (fw_byteStringRaw (by decide)) (fw_noLifetime hu) (symbols_none (by decide)) (fw_keyword hq (by decide)) (fw_number (by decide) (by decide))
    (fw_ws (by decide)), ?_, ?_⟩
  · intro x hx
    simp only [List.mem_append, before_mem, List.mem_cons, List.not_mem_nil, or_false] at hx
    rcases hx with (((rfl | h | rfl | rfl | rfl | rfl | rfl | rfl | ⟨r, -, rfl⟩) | rfl) | rfl | rfl | rfl | rfl) | rfl
    case inl.inl.inl.inr.inl => exact hL x h
    all_goals dsimp only; omega
  · intro e
    rw [hE]
    have h0 : ¬ o + n = o := by omega
    have h1 : o + n = o + 1 ↔ n = 1 := by omega
    simp only [List.mem_append, before_mem, List.mem_cons, List.not_mem_nil, or_false, Prod.mk.injEq, h0, h1, false_and, false_or, and_false, exists_false]

theorem tried_raw (hX : Sane X) {u : Text} {n : Nat} {E : LErr → Prop} (h3 : FW stringRaw ⟨c!"r#" ++ u, o⟩ L3) (hu : ¬ StartsIn (WordStart X) u)
    (hn : 1 ≤ n) (hL : ∀ x ∈ L3, x.1 ≤ o + n) (hE : ∀ e, E e ↔ (o + n, e) ∈ L3) : Tried X (c!"r#" ++ u) o n E := by
  have h8 : keywordOrIdent X ⟨c!"r#" ++ u, o⟩ = (.fail ⟨c!"r#" ++ u, o⟩ .RawIdentifierMissingIdentifier, []) := by
    have hs : startsWith c!"r#" (c!"r#" ++ u) = true := startsWith_iff.mpr ⟨u, rfl⟩
    have h2 : splitAtByte 2 (c!"r#" ++ u) = some (c!"r#", u) := splitAtByte_blen c!"r#" u
    simp only [keywordOrIdent, hs, if_true, h2, identLen_zero hu]
  refine ⟨_, fa_raw (fw_comment (by decide)) (fw_character (by decide)) (fw_string (by decide)) h3 (fw_byte (by decide)) (fw_byteString (by decide))
    (fw_byteStringRaw (by decide)) (fw_lifetime (by decide)) (symbols_none (by decide)) h8, ?_, ?_⟩
  · intro x hx
    simp only [List.mem_append, before_mem, List.mem_cons, List.not_mem_nil, or_false] at hx
    rcases hx with (rfl | rfl | rfl | h | rfl | rfl | rfl | rfl | ⟨r, -, rfl⟩) | rfl
    case inl.inr.inr.inr.inl => exact hL x h
    all_goals dsimp only; omega
  · intro e
    rw [hE]
    have h0 : ¬ o + n = o := by omega
    simp only [List.mem_append, before_mem, List.mem_cons, List.not_mem_nil, or_false, Prod.mk.injEq, h0, false_and, false_or, and_false, exists_false]

theorem tried_string (hX : Sane X) {u : Text} {n : Nat} {E : LErr → Prop} (h2 : FW string ⟨'"' :: u, o⟩ L2)
    (hn : 1 ≤ n) (hL : ∀ x ∈ L2, x.1 ≤ o + n) (hE : ∀ e, E e ↔ (o + n, e) ∈ L2) : Tried X ('"' :: u) o n E := by
  have hq := not_start hX '"' (by decide)
  refine ⟨_, fw_token (fw_comment (by decide)) (fw_character (by decide)) h2 (fw_stringRaw (by decide)) (fw_byte (by decide)) (fw_byteString (by decide))
    (fw_byteStringRaw (by decide)) (fw_lifetime (by decide)) (symbols_none (by decide)) (fw_keyword hq (by decide)) (fw_number (by decide) (by decide))
    (fw_ws (by decide)), ?_, ?_⟩
  · intro x hx
    simp only [List.mem_append, before_mem, List.mem_cons, List.not_mem_nil, or_false] at hx
    rcases hx with (((rfl | rfl | h | rfl | rfl | rfl | rfl | rfl | ⟨r, -, rfl⟩) | rfl) | rfl | rfl | rfl | rfl) | rfl
    case inl.inl.inl.inr.inr.inl => exact hL x h
    all_goals dsimp only; omega
  · intro e
    rw [hE]
    have h0 : ¬ o + n = o := by omega
    simp only [List.mem_append, before_mem, List.mem_cons, List.not_mem_nil, or_false, Prod.mk.injEq, h0, false_and, false_or, and_false, exists_false]

theorem symHeads_table : ∀ c ∈ symHeads, ∃ r ∈ symbolTable, r.1 = [c] := by decide

theorem symHeads_single (c : Char) (h : c ∈ symHeads) : ∃ k, symbolText k = some [c] := by
  obtain ⟨r, hr, e⟩ := symHeads_table c h
  exact ⟨r.2, by rw [symbolTable_text r hr, e]⟩

theorem tried_stray {c : Char} {t : Text} (hX : Sane X) (h1 : ¬ WordStart X c) (h2 : c ∉ digitChars .Decimal) (h3 : c ∉ wsChars) (h4 : c ≠ '\'')
    (h5 : c ≠ '"') (h6 : ∀ k, symbolText k ≠ some [c]) : Tried X (c :: t) o 0 AnyToken := by
  have hr : ∀ d : Char, d.isAlpha = true → d.toNat < 128 → c ≠ d := by
    rintro d hd hd' rfl
    exact h1 (.inl (by rw [hX.start _ hd', hd]))
  have h7 : c ∉ symHeads := fun h => by obtain ⟨k, hk⟩ := symHeads_single c h; exact h6 k hk
  have h8 : c ≠ '/' := by rintro rfl; exact h7 (by decide)
  have h9 : c ≠ '_' := by rintro rfl; exact h1 (.inr rfl)
  refine ⟨_, fw_token (fw_comment h8) (fw_character h4) (fw_string h5) (fw_stringRaw (hr _ (by decide) (by decide))) (fw_byte (hr _ (by decide) (by decide)))
    (fw_byteString (hr _ (by decide) (by decide)))
    (fw_byteStringRaw (hr _ (by decide) (by decide))) (fw_lifetime h4) (symbols_none h7) (fw_keyword h1 (hr _ (by decide) (by decide))) (fw_number h2 h9)
    (fw_ws h3), ?_, ?_⟩
  · intro x hx
    simp only [List.mem_append, before_mem, List.mem_cons, List.not_mem_nil, or_false] at hx
    rcases hx with (((rfl | rfl | rfl | rfl | rfl | rfl | rfl | rfl | ⟨r, -, rfl⟩) | rfl) | rfl | rfl | rfl | rfl) | rfl
    all_goals dsimp only; omega
  · intro e
    have hs : (∃ k w, symbolText k = some w ∧ e = .Literal w) ↔ ∃ r ∈ symbolTable, e = .Literal r.1 := by
      constructor
      · rintro ⟨k, w, hk, he⟩
        exact ⟨(w, k), symbolText_table k w hk, he⟩
      · rintro ⟨r, hr, he⟩
        exact ⟨r.2, r.1, symbolTable_text r hr, he⟩
    unfold AnyToken
    rw [hs]
    simp only [List.mem_append, before_mem, List.mem_cons, List.not_mem_nil, or_false, Prod.mk.injEq, Nat.add_zero, true_and]
    grind

theorem noToken_tried (hX : Sane X) {n : Nat} {E : LErr → Prop} (h : NoToken X s n E) : Tried X s o n E := by
  have sl : ∀ t, ¬ StartsIn (WordStart X) ('\\' :: t) := by
    rintro t ⟨c, r, e, h⟩
    cases e
    exact not_start hX _ (by decide) h
  cases h with
  | stray h1 h2 h3 h4 h5 h6 => exact tried_stray hX h1 h2 h3 h4 h5 h6
  | str h =>
    refine tried_string hX (fw_openStr h) (by omega) ?_ ?_
    · simp; omega
    · intro e
      simp [Nat.add_assoc]
  | @rawStart n t h1 h2 h3 =>
    have h4 := fw_rawStart (n := n) (o := o) h2
    obtain ⟨m, rfl⟩ : ∃ m, n = m + 1 := ⟨n - 1, by omega⟩
    have e : c!"r" ++ List.replicate (m + 1) '#' ++ t = c!"r#" ++ (List.replicate m '#' ++ t) := by simp [List.replicate_succ]
    rw [e] at h4 ⊢
    refine tried_raw hX h4 ?_ (by omega) ?_ ?_
    · cases m with
      | zero => exact h3 rfl
      | succ m =>
        rintro ⟨c, r, e, h⟩
        simp [List.replicate_succ] at e
        rw [← e.1] at h
        exact not_start hX _ (by decide) h
    · simp; omega
    · intro e
      simp [Nat.add_assoc]
  | @rawEnd n t h1 h2 =>
    have h4 := fw_rawEnd (n := n) (o := o) h2
    obtain ⟨m, rfl⟩ : ∃ m, n = m + 1 := ⟨n - 1, by omega⟩
    have e : c!"r" ++ List.replicate (m + 1) '#' ++ c!"\"" ++ t = c!"r#" ++ (List.replicate m '#' ++ '"' :: t) := by simp [List.replicate_succ]
    rw [e] at h4 ⊢
    refine tried_raw hX h4 ?_ (by omega) ?_ ?_
    · rintro ⟨c, r, e, h⟩
      cases m with
      | zero => cases e; exact not_start hX _ (by decide) h
      | succ m =>
        simp [List.replicate_succ] at e
        rw [← e.1] at h
        exact not_start hX _ (by decide) h
    · simp; omega
    · intro e
      have h0 : ¬ o + (2 + (m + 1)) = o + 1 + (m + 1) := by omega
      have h1 : o + (2 + (m + 1)) = o + 1 + (m + 1) + 1 := by omega
      simp [h0, h1]
  | quoteEnd =>
    refine tried_quote hX (fw_quoteEnd o) ?_ (by omega) ?_ ?_
    · rintro ⟨c, r, e, -⟩; cases e
    · simp
    · intro e
      simp
      grind
  | @quote c t h1 h2 h3 =>
    have := c.utf8Size_pos
    refine tried_quote hX (fw_quote h1 h3) ?_ (by omega) ?_ ?_
    · rintro ⟨c, r, e, h⟩; cases e; exact h2 h
    · simp; omega
    · intro e
      have h0 : ¬ o + 1 + c.utf8Size = o + 1 := by omega
      have h2 : ¬ 1 + c.utf8Size = 1 := by omega
      rw [show o + (1 + c.utf8Size) = o + 1 + c.utf8Size by omega]
      simp only [List.mem_cons, Prod.mk.injEq, h0, h2, false_and, false_or, true_and, List.not_mem_nil, or_false]
  | @escaped b t h1 h2 h3 =>
    obtain ⟨v, L, h4, h5⟩ := ow_escapedCharCode (o := o + 2) h1 h3
    have h6 := fw_escaped h4 h2
    have hb : 0 < blen b := blen_pos (by cases h1 <;> simp)
    rw [List.append_assoc]
    refine tried_quote hX h6 (sl _) (by omega) ?_ ?_
    · intro x hx
      simp only [List.mem_append, List.mem_cons, List.not_mem_nil, or_false] at hx
      rcases hx with hx | rfl
      · have := h5 x hx; omega
      · dsimp only; omega
    · intro e
      rw [show o + (2 + blen b) = o + 2 + blen b by omega]
      have a0 : ¬ (o + 2 + blen b, e) ∈ L := fun h => by have := h5 _ h; dsimp only at this; omega
      have a2 : ¬ 2 + blen b = 1 := by omega
      rw [List.mem_append]
      simp only [a0, a2, false_or, List.mem_cons, Prod.mk.injEq, true_and, List.not_mem_nil, or_false, false_and]
  | @escape t h1 h2 =>
    have h3 := fw_escapedCharCode (u := t) (o := o + 2) (fun ⟨c, r, e, h⟩ => h1 ⟨c, r, e, by revert h; simp; grind⟩)
      (fw_noHex fun ⟨c, r, e, h⟩ => h1 ⟨c, r, e, by rw [h]; decide⟩) (fw_noUnicode h2)
    have h4 := fw_badEscape h3 fun ⟨c, r, e, h⟩ => h1 ⟨c, r, e, by rw [h]; decide⟩
    refine tried_quote hX h4 (sl _) (by omega) ?_ ?_
    · simp [simpleEscapes]
    · intro e
      simp [simpleEscapes, AnyEscape]
      grind
  | @hex t h1 =>
    have h3 := fw_escapedCharCode (u := 'x' :: t) (o := o + 2) (fun ⟨c, r, e, h⟩ => by cases e; revert h; decide)
      (fw_hex h1) (fw_noUnicode (by rintro ⟨r, e⟩; cases e))
    have h4 := fw_badEscape h3 fun ⟨c, r, e, h⟩ => by cases e; revert h; decide
    refine tried_quote hX h4 (sl _) (by omega) ?_ ?_
    · simp [simpleEscapes]
    · intro e
      simp [simpleEscapes]
  | @unicode t h1 =>
    have h3 := fw_escapedCharCode (u := c!"u{" ++ t) (o := o + 2) (fun ⟨c, r, e, h⟩ => by cases e; revert h; decide)
      (fw_noHex fun ⟨c, r, e, h⟩ => by cases e; revert h; decide) (fw_unicode h1)
    have h4 := fw_badEscape h3 fun ⟨c, r, e, h⟩ => by cases e; revert h; decide
    refine tried_quote hX h4 (sl _) (by omega) ?_ ?_
    · simp [simpleEscapes]
    · intro e
      simp [simpleEscapes]
  | @unicodeEnd ds t h1 h2 h5 =>
    have h3 := fw_escapedCharCode (u := c!"u{" ++ ds ++ t) (o := o + 2) (fun ⟨c, r, e, h⟩ => by cases e; revert h; decide)
      (fw_noHex fun ⟨c, r, e, h⟩ => by cases e; revert h; decide) (fw_unicodeEnd h1 h2 h5)
    have h4 := fw_badEscape h3 fun ⟨c, r, e, h⟩ => by cases e; revert h; decide
    have a1 : o + (4 + blen ds) = o + 2 + 2 + blen ds := by omega
    refine tried_quote hX h4 (sl _) (by omega) ?_ ?_
    · simp [simpleEscapes]; omega
    · intro e
      rw [a1]
      have a0 : ¬ o + 2 + 2 + blen ds = o + 2 := by omega
      have a2 : ¬ 4 + blen ds = 1 := by omega
      simp only [simpleEscapes, List.mem_append, List.mem_cons, Prod.mk.injEq, a0, a2, false_and, false_or, List.not_mem_nil, or_false, true_and]

end Verif
