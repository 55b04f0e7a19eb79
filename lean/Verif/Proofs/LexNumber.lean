import Verif.Proofs.LexRec
/-!
# The tokenizer reads numbers as the lexical grammar says
-/

namespace Verif
open Spec

/-- From `pt`, `p` succeeds at `q` with value `v`. -/
def Gives {α} (p : LP α) (pt q : LPoint) (v : α) : Prop := ∃ l, p pt = (.ok q v, l)

theorem Gives.bind {α β} {p : LP α} {f : α → LP β} {pt q r : LPoint} {v : α} {w : β} (h : Gives p pt q v)
    (hf : Gives (f v) q r w) : Gives (p >>= f) pt r w := by
  obtain ⟨l, h⟩ := h
  obtain ⟨l', h'⟩ := hf
  exact ⟨l ++ l', by simp [Bind.bind, LP.bind, h, h']⟩

theorem Gives.pure {α} {v : α} {pt : LPoint} : Gives (LP.pure v) pt pt v := ⟨[], rfl⟩
theorem Gives.point {pt : LPoint} : Gives LP.point pt pt pt := ⟨[], rfl⟩
theorem Gives.map {α β} {p : LP α} {f : α → β} {pt q : LPoint} {v : α} (h : Gives p pt q v) : Gives (LP.map p f) pt q (f v) :=
  Gives.bind h .pure

theorem Gives.literal (w b : Text) (o : Nat) : Gives (literal w) ⟨w ++ b, o⟩ ⟨b, o + blen w⟩ ⟨o, o + blen w⟩ := ⟨[], literal_ok rfl⟩

theorem Gives.exHere {spt pt : LPoint} (h : spt.offset ≤ pt.offset) : Gives (exHere spt) pt pt ⟨spt.offset, pt.offset⟩ :=
  ⟨[], by simp [Verif.exHere, lexEx, h]⟩

theorem Gives.optional {α} {p : LP α} {pt q : LPoint} {v : α} (h : Gives p pt q v) : Gives (LP.optional p) pt q (some v) := by
  obtain ⟨l, h⟩ := h
  exact ⟨l, by simp [LP.optional, h]⟩

theorem FailsAt.optional {α} {p : LP α} {pt : LPoint} (h : FailsAt p pt) : Gives (LP.optional p) pt pt none := by
  obtain ⟨q, e, l, h, he⟩ := h
  exact ⟨l ++ [(q, e)], by simp [LP.optional, h, he]⟩

theorem FailsAt.notPeek {α} {p : LP α} {e : LErr} {pt : LPoint} (h : FailsAt p pt) : Gives (LP.not (LP.peek p) e) pt pt () := by
  obtain ⟨q, e', l, h, -⟩ := h
  exact ⟨l, by simp [LP.not, LP.peek, h]⟩

theorem OkAt.notPeek {α} {p : LP α} {e : LErr} {pt q : LPoint} (h : OkAt p pt q) (he : e.recoverable = true) :
    FailsAt (LP.not (LP.peek p) e) pt := by
  obtain ⟨v, l, h⟩ := h
  exact ⟨pt, e, l, by simp [LP.not, LP.peek, h], he⟩

theorem Gives.okAt {α} {p : LP α} {pt q : LPoint} {v : α} (h : Gives p pt q v) : OkAt p pt q := by
  obtain ⟨l, h⟩ := h
  exact ⟨v, l, h⟩

theorem Gives.split {a b : Text} {o : Nat} {e : LErr} (h : a ≠ []) :
    Gives (splitPointAtNonZeroOffset (blen a) e) ⟨a ++ b, o⟩ ⟨b, o + blen a⟩ (a, ⟨o, o + blen a⟩) := by
  have h0 : blen a ≠ 0 := by have := blen_pos h; omega
  exact ⟨[], by simp [splitPointAtNonZeroOffset, h0, splitAtByte_blen]⟩

/-! ### words -/

theorem identLen_word {X : Xid} {w post : Text} (hw : Word X w) (hp : NoCont X post) : identLen X (w ++ post) = blen w := by
  obtain ⟨c, cs, rfl, hc, hcs⟩ := hw
  have h : (X.start c || decide (c = '_')) = true := by simpa using hc
  simp only [List.cons_append, identLen, h, if_true, takeWhileLen, takeWhile_append_stop hcs hp, blen_cons]

theorem identLen_zero {X : Xid} {s : Text} (h : ¬ StartsIn (WordStart X) s) : identLen X s = 0 := by
  cases s with
  | nil => rfl
  | cons c s =>
    have : ¬ (X.start c = true ∨ c = '_') := fun hc => h ⟨c, s, rfl, hc⟩
    simp only [identLen]
    rw [if_neg (by simpa using this)]

theorem Spec.Word.ne_nil {X : Xid} {w : Text} (h : Word X w) : w ≠ [] := by
  obtain ⟨c, cs, rfl, _⟩ := h; simp

theorem Spec.Word.starts {X : Xid} {w : Text} (h : Word X w) (s : Text) : StartsIn (WordStart X) (w ++ s) := by
  obtain ⟨c, cs, rfl, h, _⟩ := h; exact ⟨c, cs ++ s, rfl, h⟩

/-- The word at the front of a text. -/
theorem word_split {X : Xid} {s : Text} (h : StartsIn (WordStart X) s) : ∃ w post, s = w ++ post ∧ Word X w ∧ NoCont X post := by
  obtain ⟨a, b, rfl, h1, h2⟩ := identLen_split X s
  have ha : a ≠ [] := by
    rintro rfl
    obtain ⟨c, t, hs, hc⟩ := h
    rw [hs] at h1
    have : (X.start c || decide (c = '_')) = true := by simpa [WordStart] using hc
    simp only [identLen, this, if_true] at h1
    have := c.utf8Size_pos
    simp at h1
    omega
  exact ⟨a, b, rfl, h2 ha⟩

theorem gives_simpleIdent {X : Xid} {w post : Text} {o : Nat} (hw : Word X w) (hp : NoCont X post) :
    Gives (simpleIdent X) ⟨w ++ post, o⟩ ⟨post, o + blen w⟩ ⟨o, o + blen w⟩ := by
  obtain ⟨l, h⟩ := Gives.map (f := fun r : Text × Extent => r.2) (Gives.split (b := post) (o := o) (e := .ExpectedIdent) hw.ne_nil)
  exact ⟨l, by simpa only [simpleIdent, identLen_word hw hp] using h⟩

theorem simpleIdent_fails {X : Xid} {s : Text} {o : Nat} (h : ¬ StartsIn (WordStart X) s) : FailsAt (simpleIdent X) ⟨s, o⟩ :=
  (simpleIdent_spec X _).fails (.simpleIdent X) fun q v ⟨w, hw, _, he, _⟩ => h (by
    have := he.1; simp only at this; rw [this]; exact hw.starts _)

/-! ### digits -/

theorem digitOr_iff {b : NumBase} {c : Char} : isDigitOrUnderscore (radixOf b) c = true ↔ DigitOr_ b c := by
  simp [isDigitOrUnderscore, isDigit_iff, DigitOr_]

theorem digits_stop {b : NumBase} {s : Text} (h : ¬ StartsIn (DigitOr_ b) s) : ∀ d t, s = d :: t → isDigitOrUnderscore (radixOf b) d = false := by
  intro d t hs
  rw [Bool.eq_false_iff]
  exact fun hd => h ⟨d, t, hs, digitOr_iff.mp hd⟩

/-- The digits at the front of a text. -/
theorem digits_split (b : NumBase) (s : Text) : ∃ ds post, s = ds ++ post ∧ (∀ c ∈ ds, DigitOr_ b c) ∧ ¬ StartsIn (DigitOr_ b) post := by
  refine ⟨_, _, takeWhile_split (isDigitOrUnderscore (radixOf b)) s, fun c hc => digitOr_iff.mp (takeWhile_all c hc), ?_⟩
  rintro ⟨d, t, hd, hp⟩
  have := dropWhile_head hd
  rw [digitOr_iff.mpr hp] at this
  cases this

theorem gives_digits {b : NumBase} {ds post : Text} {o : Nat} (h : ∀ c ∈ ds, DigitOr_ b c) (hn : ds ≠ []) (hp : ¬ StartsIn (DigitOr_ b) post) :
    Gives (numberDigits (radixOf b)) ⟨ds ++ post, o⟩ ⟨post, o + blen ds⟩ (⟨o, o + blen ds⟩, ds.count '_') := by
  have ht : (ds ++ post).takeWhile (isDigitOrUnderscore (radixOf b)) = ds :=
    takeWhile_append_stop (fun c hc => digitOr_iff.mpr (h c hc)) (digits_stop hp)
  obtain ⟨l, h⟩ := Gives.map (f := fun r : Text × Extent => (r.2, ds.count '_')) (Gives.split (b := post) (o := o) (e := .ExpectedNumber) hn)
  exact ⟨l, by simpa only [numberDigits, ht] using h⟩

theorem digits_fails {b : NumBase} {s : Text} {o : Nat} (h : ¬ StartsIn (DigitOr_ b) s) : FailsAt (numberDigits (radixOf b)) ⟨s, o⟩ :=
  (numberDigits_spec b _).fails (.numberDigits _) fun q v ⟨ds, hn, hd, he, _⟩ => h (by
    have := he.1; simp only at this; rw [this]
    cases ds with
    | nil => exact absurd rfl hn
    | cons c cs => exact ⟨c, _, rfl, hd c (by simp)⟩)

/-! ### fractions -/

theorem literal_fails_head {c : Char} {s : Text} {o : Nat} (h : ¬ StartsIn (· = c) s) : FailsAt (literal [c]) ⟨s, o⟩ := by
  refine literal_fails ?_
  cases s with
  | nil => rfl
  | cons d s => exact startsWith_head_ne fun e => h ⟨d, s, rfl, e.symm⟩

theorem gives_fraction {X : Xid} {b : NumBase} {ds post : Text} {o : Nat} (h : Fraction X b ds post) :
    Gives (numberFractional X (radixOf b)) ⟨'.' :: ds ++ post, o⟩ ⟨post, o + blen ('.' :: ds)⟩ ⟨o, o + blen ('.' :: ds)⟩ := by
  have dg : ∃ v, Gives (LP.optional (numberDigits (radixOf b))) ⟨ds ++ post, o + blen c!"."⟩ ⟨post, o + blen c!"." + blen ds⟩ v := by
    by_cases hd : ds = []
    · subst hd
      exact ⟨_, (digits_fails h.longest).optional⟩
    · exact ⟨_, (gives_digits h.digits hd h.longest).optional⟩
  obtain ⟨v, dg⟩ := dg
  have e : o + blen c!"." + blen ds = o + blen ('.' :: ds) := by simp; omega
  rw [e] at dg
  exact .bind .point (.bind (.literal c!"." (ds ++ post) o) (.bind (literal_fails_head h.notRange).notPeek
    (.bind (simpleIdent_fails h.notAccess).notPeek (.bind dg (.exHere (spt := ⟨'.' :: ds ++ post, o⟩) (Nat.le_add_right _ _))))))

theorem fraction_fails {X : Xid} {n : Nat} {s : Text} {o : Nat} (h : NoFraction X s) : FailsAt (numberFractional X n) ⟨s, o⟩ := by
  refine point_fails ?_
  by_cases hs : StartsIn (· = '.') s
  · obtain ⟨_, t, rfl, rfl⟩ := hs
    refine bind_fails_snd (Gives.literal c!"." t o).okAt fun _ => ?_
    by_cases ht : StartsIn (· = '.') t
    · obtain ⟨_, t, rfl, rfl⟩ := ht
      exact bind_fails (OkAt.notPeek (Gives.literal c!"." t _).okAt rfl)
    · refine bind_fails_snd (literal_fails_head ht).notPeek.okAt fun _ => bind_fails ?_
      obtain ⟨w, post, rfl, hw, hp⟩ := word_split ((h t rfl).resolve_left ht)
      exact OkAt.notPeek (gives_simpleIdent hw hp).okAt rfl
  · exact bind_fails (literal_fails_head hs)

theorem fraction_split (X : Xid) (b : NumBase) (s : Text) :
    (∃ ds post, s = '.' :: ds ++ post ∧ Fraction X b ds post) ∨ NoFraction X s := by
  by_cases h : NoFraction X s
  · exact .inr h
  · left
    simp only [NoFraction, Classical.not_forall, not_or] at h
    obtain ⟨t, rfl, h1, h2⟩ := h
    obtain ⟨ds, post, rfl, h3, h4⟩ := digits_split b t
    exact ⟨ds, post, rfl, h3, h4, h1, h2⟩

/-! ### exponents -/

theorem gives_exponent {m : Char} {ds post : Text} {o : Nat} (hm : m = 'e' ∨ m = 'E') (hn : ds ≠ []) (hd : ∀ c ∈ ds, DigitOr_ .Decimal c)
    (hp : ¬ StartsIn (DigitOr_ .Decimal) post) :
    Gives numberExponent ⟨m :: ds ++ post, o⟩ ⟨post, o + blen (m :: ds)⟩ ⟨o + m.utf8Size, o + blen (m :: ds)⟩ := by
  have one : Gives (numberExponentWith [m]) ⟨m :: ds ++ post, o⟩ ⟨post, o + blen (m :: ds)⟩ ⟨o + m.utf8Size, o + blen (m :: ds)⟩ := by
    have g := gives_digits (o := o + blen [m]) hd hn hp
    have e : o + blen [m] + blen ds = o + blen (m :: ds) := by simp; omega
    rw [e] at g
    exact .bind (.literal [m] (ds ++ post) o) (.bind g .pure)
  obtain ⟨l, h⟩ := one
  rcases hm with rfl | rfl
  · exact alts_first_ok (before := []) rfl h (by simp)
  · refine alts_first_ok (before := [numberExponentWith c!"e"]) rfl h ?_
    intro r hr
    simp only [List.mem_singleton] at hr
    subst hr
    exact bind_fails (literal_fails (startsWith_head_ne (by decide)))

theorem exponent_spec (pt : LPoint) : SpecAt numberExponent pt (fun _ _ => ∃ m d ds, (m = 'e' ∨ m = 'E') ∧ DigitOr_ .Decimal d ∧ pt.s = m :: d :: ds) := by
  have one : ∀ m, (m = 'e' ∨ m = 'E') → SpecAt (numberExponentWith [m]) pt (fun _ _ => ∃ m d ds, (m = 'e' ∨ m = 'E') ∧ DigitOr_ .Decimal d ∧ pt.s = m :: d :: ds) := by
    intro m hm
    refine SpecAt.bind (literal_spec _ _) fun q _ _ h1 => SpecAt.bind (numberDigits_spec .Decimal q) ?_
    rintro r _ _ ⟨ds, hn, hd, h2, -⟩
    refine .pure ?_
    cases ds with
    | nil => exact absurd rfl hn
    | cons d ds => exact ⟨m, d, ds ++ r.s, hm, hd d (by simp), by rw [h1.1.1, h2.1]; rfl⟩
  exact SpecAt.alts (one _ (.inl rfl)) (by simpa using one 'E' (.inr rfl))

theorem exponent_fails {s : Text} {o : Nat} (h : NoExponent s) : FailsAt numberExponent ⟨s, o⟩ :=
  (exponent_spec _).fails .numberExponent fun _ _ ⟨m, d, ds, hm, hd, hs⟩ => h m (d :: ds) hs hm ⟨d, ds, rfl, hd⟩

theorem exponent_split (s : Text) :
    (∃ m ds post, s = m :: ds ++ post ∧ (m = 'e' ∨ m = 'E') ∧ ds ≠ [] ∧ (∀ c ∈ ds, DigitOr_ .Decimal c) ∧ ¬ StartsIn (DigitOr_ .Decimal) post) ∨
      NoExponent s := by
  by_cases h : NoExponent s
  · exact .inr h
  · left
    simp only [NoExponent, Classical.not_forall, Classical.not_not] at h
    obtain ⟨m, t, rfl, hm, hd⟩ := h
    obtain ⟨ds, post, rfl, h3, h4⟩ := digits_split .Decimal t
    refine ⟨m, ds, post, rfl, hm, ?_, h3, h4⟩
    rintro rfl
    exact h4 hd

/-! ### numbers -/

theorem gives_base {X : Xid} {p : NumParts} {post : Text} {o : Nat} (h : NumText X p post) :
    Gives (numberBase X p.base (basePrefix p.base) (radixOf p.base)) ⟨p.text ++ post, o⟩
      ⟨p.expText ++ (p.sufText ++ post), o + blen (basePrefix p.base) + blen p.ints + blen p.fracText⟩
      ⟨p.base, ⟨o + blen (basePrefix p.base), o + blen (basePrefix p.base) + blen p.ints⟩,
        p.frac.map fun _ => ⟨o + blen (basePrefix p.base) + blen p.ints, o + blen (basePrefix p.base) + blen p.ints + blen p.fracText⟩,
        p.ints.count '_'⟩ := by
  have e : p.text ++ post = basePrefix p.base ++ (p.ints ++ (p.fracText ++ (p.expText ++ (p.sufText ++ post)))) := by
    simp [NumParts.text]
  rw [e]
  have hl := h.longest
  simp only [List.append_assoc] at hl
  refine .bind (.literal _ _ _) (.bind (gives_digits h.digits h.ne hl) (.bind ?_ .pure))
  cases hf : p.frac with
  | none =>
    have hn := h.noFrac hf
    simp only [NumParts.fracText, hf, Option.elim, List.append_assoc] at hn ⊢
    exact (fraction_fails hn).optional
  | some ds =>
    have hy := h.frac _ hf
    simp only [NumParts.fracText, hf, Option.elim, List.append_assoc] at hy ⊢
    exact (gives_fraction hy).optional

/-- A number with prefix of base `b`. -/
def HasBase (b : NumBase) (s : Text) : Prop := ∃ t, s = basePrefix b ++ t ∧ StartsIn (DigitOr_ b) t

theorem base_fails {X : Xid} {b : NumBase} {s : Text} {o : Nat} (h : ¬ HasBase b s) : FailsAt (numberBase X b (basePrefix b) (radixOf b)) ⟨s, o⟩ := by
  refine (numberBase_spec X b _).fails (Rec.numberBase X _ _ _) ?_
  rintro q v ⟨ints, frac, he, hn, hd, -⟩
  cases ints with
  | nil => exact hn rfl
  | cons c cs =>
    have := he.1
    simp only [List.append_assoc, List.cons_append] at this
    exact h ⟨_, this, c, _, rfl, hd c (by simp)⟩

theorem Spec.NumText.hasBase {X : Xid} {p : NumParts} {post : Text} (h : NumText X p post) : HasBase p.base (p.text ++ post) := by
  refine ⟨p.ints ++ (p.fracText ++ (p.expText ++ (p.sufText ++ post))), by simp [NumParts.text], ?_⟩
  have hn := h.ne
  have hd := h.digits
  cases hi : p.ints with
  | nil => exact absurd hi hn
  | cons c cs => exact ⟨c, _, rfl, hd c (by simp [hi])⟩

theorem HasBase.inj {b b' : NumBase} {s : Text} (h : HasBase b s) (h' : HasBase b' s) (hb : b ≠ .Decimal) (hb' : b' ≠ .Decimal) : b = b' := by
  obtain ⟨t, rfl, -⟩ := h
  obtain ⟨t', h', -⟩ := h'
  cases b <;> cases b' <;> simp_all [basePrefix]

theorem gives_value {X : Xid} {p : NumParts} {post : Text} {o : Nat} {q : LPoint} {v : NumberPartial} (h : NumText X p post)
    (hg : Gives (numberBase X p.base (basePrefix p.base) (radixOf p.base)) ⟨p.text ++ post, o⟩ q v) :
    Gives (numberValue X) ⟨p.text ++ post, o⟩ q v := by
  have no : ∀ b, b ≠ p.base → b ≠ .Decimal → FailsAt (numberBase X b (basePrefix b) (radixOf b)) ⟨p.text ++ post, o⟩ := by
    intro b hb hd
    refine base_fails fun hh => ?_
    by_cases hp : p.base = .Decimal
    · obtain ⟨t, ht, hs⟩ := hh
      exact h.decimal hp b hd t ht hs
    · exact hb (hh.inj h.hasBase hd hp)
  obtain ⟨l, hg⟩ := hg
  cases hb : p.base with
  | Binary =>
    rw [hb] at hg
    exact alts_first_ok (before := []) rfl hg (by simp)
  | Hexadecimal =>
    rw [hb] at hg no
    refine alts_first_ok (before := [_]) rfl hg ?_
    intro r hr
    simp only [List.mem_cons, List.not_mem_nil, or_false] at hr
    subst hr
    exact no .Binary (by decide) (by decide)
  | Octal =>
    rw [hb] at hg no
    refine alts_first_ok (before := [_, _]) rfl hg ?_
    intro r hr
    simp only [List.mem_cons, List.not_mem_nil, or_false] at hr
    rcases hr with rfl | rfl
    · exact no .Binary (by decide) (by decide)
    · exact no .Hexadecimal (by decide) (by decide)
  | Decimal =>
    rw [hb] at hg no
    refine alts_first_ok (before := [_, _, _]) rfl hg ?_
    intro r hr
    simp only [List.mem_cons, List.not_mem_nil, or_false] at hr
    rcases hr with rfl | rfl | rfl
    · exact no .Binary (by decide) (by decide)
    · exact no .Hexadecimal (by decide) (by decide)
    · exact no .Octal (by decide) (by decide)

/-- A number of the lexical grammar is read as it is written. -/
theorem gives_number {X : Xid} {p : NumParts} {post : Text} {o : Nat} (h : NumText X p post) :
    Gives (number X) ⟨p.text ++ post, o⟩ ⟨post, o + blen p.text⟩ (p.number o) := by
  have ex : Gives (LP.optional numberExponent)
      ⟨p.expText ++ (p.sufText ++ post), o + blen (basePrefix p.base) + blen p.ints + blen p.fracText⟩
      ⟨p.sufText ++ post, o + blen (basePrefix p.base) + blen p.ints + blen p.fracText + blen p.expText⟩
      (p.exp.map fun r => ⟨o + blen (basePrefix p.base) + blen p.ints + blen p.fracText + r.1.utf8Size,
        o + blen (basePrefix p.base) + blen p.ints + blen p.fracText + blen p.expText⟩) := by
    cases he : p.exp with
    | none =>
      simp only [NumParts.expText, he, Option.elim]
      exact (exponent_fails (h.noExp he)).optional
    | some r =>
      obtain ⟨m, ds⟩ := r
      obtain ⟨h1, h2, h3, h4⟩ := h.exp _ _ he
      simp only [NumParts.expText, he, Option.elim]
      exact (gives_exponent h1 h2 h3 h4).optional
  have su : Gives (LP.optional (simpleIdent X))
      ⟨p.sufText ++ post, o + blen (basePrefix p.base) + blen p.ints + blen p.fracText + blen p.expText⟩
      ⟨post, o + blen p.text⟩
      (p.suf.map fun _ => ⟨o + blen (basePrefix p.base) + blen p.ints + blen p.fracText + blen p.expText, o + blen p.text⟩) := by
    have e : o + blen p.text = o + blen (basePrefix p.base) + blen p.ints + blen p.fracText + blen p.expText + blen p.sufText := by
      simp only [NumParts.text, blen_append]; omega
    rw [e]
    cases hs : p.suf with
    | none =>
      simp only [NumParts.sufText, hs, Option.getD]
      exact (simpleIdent_fails (h.noSuf hs)).optional
    | some w =>
      obtain ⟨h1, h2⟩ := h.suf _ hs
      simp only [NumParts.sufText, hs, Option.getD]
      exact (gives_simpleIdent h1 h2).optional
  have g := Gives.bind (f := fun spt => (do
      let value ← numberValue X
      let exponent ← LP.optional numberExponent
      let typeSuffix ← LP.optional (simpleIdent X)
      let e ← exHere spt
      LP.pure (value.finish e exponent typeSuffix) : LP Number)) (.point (pt := ⟨p.text ++ post, o⟩)) (.bind (gives_value h (gives_base h)) (.bind ex (.bind su
    (.bind (.exHere (spt := ⟨p.text ++ post, o⟩) (pt := ⟨post, o + blen p.text⟩) (Nat.le_add_right _ _)) .pure))))
  have e : blen p.text = blen (basePrefix p.base) + blen p.ints + blen p.fracText + blen p.expText + blen p.sufText := by
    simp only [NumParts.text, blen_append]
  have ev : p.number o = NumberPartial.finish ⟨p.base, ⟨o + blen (basePrefix p.base), o + blen (basePrefix p.base) + blen p.ints⟩,
        p.frac.map fun _ => ⟨o + blen (basePrefix p.base) + blen p.ints, o + blen (basePrefix p.base) + blen p.ints + blen p.fracText⟩,
        p.ints.count '_'⟩ ⟨o, o + blen p.text⟩ (p.exp.map fun r => ⟨o + blen (basePrefix p.base) + blen p.ints + blen p.fracText + r.1.utf8Size,
        o + blen (basePrefix p.base) + blen p.ints + blen p.fracText + blen p.expText⟩)
        (p.suf.map fun _ => ⟨o + blen (basePrefix p.base) + blen p.ints + blen p.fracText + blen p.expText, o + blen p.text⟩) := by
    simp only [NumParts.number, NumberPartial.finish, e, Nat.add_assoc]
  rw [ev]
  exact g

/-- The number at the front of a text. -/
theorem number_split (X : Xid) (b : NumBase) {s : Text} (h : HasBase b s) (hb : b = .Decimal → ∀ b' ≠ .Decimal, ¬ HasBase b' s) :
    ∃ p post, p.base = b ∧ s = p.text ++ post ∧ NumText X p post := by
  obtain ⟨t, rfl, ht⟩ := h
  obtain ⟨ints, t1, rfl, hi, hi'⟩ := digits_split b t
  have hn : ints ≠ [] := by rintro rfl; exact hi' ht
  have suf : ∀ s, ∃ (x : Option Text) (post : Text), s = x.getD [] ++ post ∧ (∀ w, x = some w → Word X w ∧ NoCont X post) ∧
      (x = none → ¬ StartsIn (WordStart X) post) := by
    intro s
    by_cases hs : StartsIn (WordStart X) s
    · obtain ⟨w, post, rfl, h1, h2⟩ := word_split hs
      exact ⟨some w, post, rfl, by rintro _ ⟨⟩; exact ⟨h1, h2⟩, by simp⟩
    · exact ⟨none, s, rfl, by simp, fun _ => hs⟩
  have exp : ∀ s, ∃ (x : Option (Char × Text)) (r : Text), s = x.elim [] (fun r => r.1 :: r.2) ++ r ∧
      (∀ m ds, x = some (m, ds) → (m = 'e' ∨ m = 'E') ∧ ds ≠ [] ∧ (∀ c ∈ ds, DigitOr_ .Decimal c) ∧ ¬ StartsIn (DigitOr_ .Decimal) r) ∧
      (x = none → NoExponent r) := by
    intro s
    rcases exponent_split s with ⟨m, ds, post, rfl, h⟩ | h
    · exact ⟨some (m, ds), post, rfl, by rintro _ _ ⟨⟩; exact h, by simp⟩
    · exact ⟨none, s, rfl, by simp, fun _ => h⟩
  have frac : ∀ s, ∃ (x : Option Text) (r : Text), s = x.elim [] ('.' :: ·) ++ r ∧ (∀ ds, x = some ds → Fraction X b ds r) ∧
      (x = none → NoFraction X r) := by
    intro s
    rcases fraction_split X b s with ⟨ds, post, rfl, h⟩ | h
    · exact ⟨some ds, post, rfl, by rintro _ ⟨⟩; exact h, by simp⟩
    · exact ⟨none, s, rfl, by simp, fun _ => h⟩
  obtain ⟨f, r1, rfl, f1, f2⟩ := frac t1
  obtain ⟨x, r2, rfl, x1, x2⟩ := exp r1
  obtain ⟨u, post, rfl, u1, u2⟩ := suf r2
  refine ⟨⟨b, ints, f, x, u⟩, post, rfl, by simp [NumParts.text, NumParts.fracText, NumParts.expText, NumParts.sufText], ?_⟩
  constructor
  · exact hn
  · exact hi
  · simpa [NumParts.fracText, NumParts.expText, NumParts.sufText] using hi'
  · intro hd b' hb' t' ht' hs
    exact hb hd b' hb' ⟨t', by rw [← ht']; simp [NumParts.text, NumParts.fracText, NumParts.expText, NumParts.sufText], hs⟩
  · intro ds hds
    simpa [NumParts.expText, NumParts.sufText] using f1 ds hds
  · intro hds
    simpa [NumParts.expText, NumParts.sufText] using f2 hds
  · exact x1
  · exact x2
  · exact u1
  · exact u2

end Verif
