import Verif.Proofs.LexBase
import Verif.Spec.Lex
/-!
# What each tokenizer function consumes
-/

set_option linter.unusedSimpArgs false

namespace Verif
open Spec

/-- `q` is reached from `p` by consuming exactly `a`. -/
def Eats (p : LPoint) (a : Text) (q : LPoint) : Prop := p.s = a ++ q.s ∧ q.offset = p.offset + blen a

theorem Eats.adv {p q : LPoint} {a : Text} (h : Eats p a q) : Adv p q := ⟨a, h⟩
theorem Eats.refl (p : LPoint) : Eats p [] p := ⟨by simp, by simp⟩

theorem Eats.trans {p q r : LPoint} {a b : Text} (h1 : Eats p a q) (h2 : Eats q b r) :
    Eats p (a ++ b) r := by
  obtain ⟨ha, ha'⟩ := h1
  obtain ⟨hb, hb'⟩ := h2
  exact ⟨by simp [ha, hb], by simp [hb', ha']; omega⟩

theorem advance_spec {pt : LPoint} {a b : Text} (h : pt.s = a ++ b) :
    SpecAt (advance (blen a)) pt (fun q v => Eats pt a q ∧ q.s = b ∧ v = a) := by
  refine .mk_ok (pt' := ⟨b, pt.offset + blen a⟩) (v := a) (l := []) ?_ ⟨⟨a, h, rfl⟩, ⟨⟨h, rfl⟩, rfl, rfl⟩, .nil _⟩
  simp [advance, h, splitAtByte_blen]

theorem exHere_spec {spt pt : LPoint} (h : Adv spt pt) :
    SpecAt (exHere spt) pt (fun q v => q = pt ∧ v = ⟨spt.offset, pt.offset⟩) := by
  have := h.le
  exact .mk_ok (pt' := pt) (v := ⟨spt.offset, pt.offset⟩) (l := []) (by simp [exHere, lexEx, this])
    ⟨.refl _, ⟨rfl, rfl⟩, .nil _⟩

theorem startsWith_iff {pat s : Text} : startsWith pat s = true ↔ ∃ b, s = pat ++ b := by
  simp only [startsWith, List.isPrefixOf_iff_prefix]
  constructor
  · rintro ⟨b, rfl⟩; exact ⟨b, rfl⟩
  · rintro ⟨b, rfl⟩; exact ⟨b, rfl⟩

theorem literal_spec (w : Text) (pt : LPoint) :
    SpecAt (literal w) pt (fun q v => Eats pt w q ∧ v = ⟨pt.offset, q.offset⟩) := by
  by_cases h : startsWith w pt.s = true
  · refine SpecAt.congr (q := (do let _ ← advance (blen w); exHere pt : LP Extent)) (by simp [literal, h]) ?_
    obtain ⟨b, hb⟩ := startsWith_iff.mp h
    refine (advance_spec hb).bind fun mid v ha hq => ?_
    refine (exHere_spec ha).mono fun q v _ h => ?_
    obtain ⟨rfl, rfl⟩ := h
    exact ⟨hq.1, rfl⟩
  · exact .mk_fail (pt' := pt) (l := []) (.Literal w) (by simp [literal, h]) ⟨.refl _, .nil _⟩

theorem literal_fail {w : Text} {pt : LPoint} (h : startsWith w pt.s = false) :
    literal w pt = (.fail pt (.Literal w), []) := by simp [literal, h]

theorem literal_ok {w b : Text} {pt : LPoint} (h : pt.s = w ++ b) :
    literal w pt = (.ok ⟨b, pt.offset + blen w⟩ ⟨pt.offset, pt.offset + blen w⟩, []) := by
  have h' : startsWith w pt.s = true := startsWith_iff.mpr ⟨b, h⟩
  have h'' : startsWith w (w ++ b) = true := startsWith_iff.mpr ⟨b, rfl⟩
  simp [literal, h'', Bind.bind, LP.bind, advance, h, splitAtByte_blen, exHere, lexEx]

theorem splitPoint_spec {pt : LPoint} {a b : Text} (e : LErr) (h : pt.s = a ++ b) :
    SpecAt (splitPointAtNonZeroOffset (blen a) e) pt
      (fun q v => a ≠ [] ∧ Eats pt a q ∧ q.s = b ∧ v = (a, ⟨pt.offset, q.offset⟩)) := by
  by_cases ha : a = []
  · exact .mk_fail (pt' := pt) (l := []) e (by simp [splitPointAtNonZeroOffset, ha]) ⟨.refl _, .nil _⟩
  · have := blen_pos ha
    refine .mk_ok (pt' := ⟨b, pt.offset + blen a⟩) (v := (a, ⟨pt.offset, pt.offset + blen a⟩)) (l := []) ?_
      ⟨⟨a, h, rfl⟩, ⟨ha, ⟨h, rfl⟩, rfl, rfl⟩, .nil _⟩
    have h0 : blen a ≠ 0 := by omega
    simp [splitPointAtNonZeroOffset, h0, h, splitAtByte_blen]

theorem takeWhile_split (f : Char → Bool) (s : Text) : s = s.takeWhile f ++ s.dropWhile f := by simp

theorem dropWhile_head {f : Char → Bool} {s : Text} {d : Char} {t : Text} (h : s.dropWhile f = d :: t) :
    f d = false := by
  induction s with
  | nil => simp at h
  | cons c cs ih =>
    by_cases hc : f c = true
    · simp [List.dropWhile, hc] at h; exact ih h
    · simp only [Bool.not_eq_true] at hc
      simp only [List.dropWhile, hc, List.cons.injEq] at h
      rw [← h.1]; exact hc

theorem takeWhile_all {f : Char → Bool} {s : Text} : ∀ c ∈ s.takeWhile f, f c = true := by
  induction s with
  | nil => simp
  | cons c cs ih =>
    by_cases hc : f c = true
    · simp [List.takeWhile, hc]; exact ih
    · simp only [Bool.not_eq_true] at hc; simp [List.takeWhile, hc]

/-- The word at the front of a text, if any. -/
theorem identLen_split (X : Xid) (s : Text) :
    ∃ a b, s = a ++ b ∧ identLen X s = blen a ∧ (a ≠ [] → Word X a ∧ NoCont X b) := by
  cases s with
  | nil => exact ⟨[], [], rfl, rfl, by simp⟩
  | cons c ci =>
    by_cases h : (X.start c || c = '_') = true
    · refine ⟨c :: ci.takeWhile X.cont, ci.dropWhile X.cont, by simp, ?_, ?_⟩
      · simp only [identLen, h, if_true, takeWhileLen, blen_cons]
      · intro _
        refine ⟨⟨c, _, rfl, ?_, takeWhile_all⟩, fun d t hd => dropWhile_head hd⟩
        simpa using h
    · refine ⟨[], c :: ci, rfl, ?_, by simp⟩
      simp only [identLen, h]; simp

theorem simpleIdent_spec (X : Xid) (pt : LPoint) :
    SpecAt (simpleIdent X) pt
      (fun q v => ∃ w, Word X w ∧ NoCont X q.s ∧ Eats pt w q ∧ v = ⟨pt.offset, q.offset⟩) := by
  obtain ⟨a, b, hs, hl, hw⟩ := identLen_split X pt.s
  refine SpecAt.congr (q := LP.map (splitPointAtNonZeroOffset (blen a) .ExpectedIdent) (fun r => r.2)) ?_ ?_
  · simp [simpleIdent, hl]
  · refine SpecAt.map ((splitPoint_spec _ hs).mono fun q v _ h => ?_)
    obtain ⟨h1, h2, h3, rfl⟩ := h
    exact ⟨a, (hw h1).1, h3 ▸ (hw h1).2, h2, rfl⟩

/-! ### digits -/

theorem mem_toNat (c : Char) (l : List Char) : c ∈ l ↔ c.toNat ∈ l.map Char.toNat := by
  constructor
  · intro h; exact List.mem_map_of_mem h
  · intro h
    obtain ⟨d, hd, he⟩ := List.mem_map.mp h
    rw [← Char.toNat_inj.mp he]; exact hd
def radixOf : NumBase → Nat | .Binary => 2 | .Octal => 8 | .Decimal => 10 | .Hexadecimal => 16

macro "digits_tac" : tactic => `(tactic| (
  (repeat' split) <;>
  simp only [decide_eq_true_eq, List.mem_cons, List.not_mem_nil, or_false, Bool.false_eq_true, false_iff] <;>
  (try simp only [radixOf]) <;> omega))

theorem isDigit_iff (b : NumBase) (c : Char) : isDigit (radixOf b) c = true ↔ c ∈ digitChars b := by
  rw [mem_toNat]
  unfold isDigit; dsimp only
  generalize c.toNat = n
  cases b
  case Binary =>
    have h : (digitChars NumBase.Binary).map Char.toNat = [48,49] := by decide
    rw [h]
    digits_tac
  case Octal =>
    have h : (digitChars NumBase.Octal).map Char.toNat = [48,49,50,51,52,53,54,55] := by decide
    rw [h]
    digits_tac
  case Decimal =>
    have h : (digitChars NumBase.Decimal).map Char.toNat = [48,49,50,51,52,53,54,55,56,57] := by decide
    rw [h]
    digits_tac
  case Hexadecimal =>
    have h : (digitChars NumBase.Hexadecimal).map Char.toNat = [48,49,50,51,52,53,54,55,56,57,97,98,99,100,101,102,65,66,67,68,69,70] := by decide
    rw [h]
    digits_tac

theorem numberDigits_spec (b : NumBase) (pt : LPoint) :
    SpecAt (numberDigits (radixOf b)) pt
      (fun q v => ∃ ds, ds ≠ [] ∧ (∀ c ∈ ds, c ∈ digitChars b ∨ c = '_') ∧ Eats pt ds q ∧
        v = (⟨pt.offset, q.offset⟩, ds.count '_')) := by
  have hs := takeWhile_split (isDigitOrUnderscore (radixOf b)) pt.s
  refine SpecAt.congr (q := LP.map (splitPointAtNonZeroOffset
    (blen (pt.s.takeWhile (isDigitOrUnderscore (radixOf b)))) .ExpectedNumber) _) rfl ?_
  refine SpecAt.map ((splitPoint_spec _ hs).mono fun q v _ h => ?_)
  obtain ⟨h1, h2, h3, rfl⟩ := h
  refine ⟨_, h1, ?_, h2, rfl⟩
  intro c hc
  have := takeWhile_all c hc
  simp only [isDigitOrUnderscore, Bool.or_eq_true, decide_eq_true_eq, isDigit_iff] at this
  exact this

theorem numberFractional_spec (X : Xid) (b : NumBase) (pt : LPoint) :
    SpecAt (numberFractional X (radixOf b)) pt
      (fun q v => ∃ ds, (∀ c ∈ ds, c ∈ digitChars b ∨ c = '_') ∧ Eats pt ('.' :: ds) q ∧
        v = ⟨pt.offset, q.offset⟩) := by
  unfold numberFractional
  refine SpecAt.bind .point fun _ _ _ h => ?_
  obtain ⟨rfl, rfl⟩ := h
  refine SpecAt.bind (literal_spec _ _) fun m1 _ ha1 h1 => ?_
  refine SpecAt.bind (SpecAt.not (SpecAt.peek (literal_spec _ _))) fun m2 _ _ h2 => ?_
  subst h2
  refine SpecAt.bind (SpecAt.not (SpecAt.peek (simpleIdent_spec _ _))) fun m3 _ _ h3 => ?_
  subst h3
  refine SpecAt.bind (Q := fun q _ => ∃ ds, (∀ c ∈ ds, c ∈ digitChars b ∨ c = '_') ∧ Eats m3 ds q)
    (SpecAt.optional ((numberDigits_spec b m3).mono ?_) ?_) ?_
  · rintro q v _ ⟨ds, _, h4, h5, _⟩
    exact ⟨ds, h4, h5⟩
  · exact ⟨[], by simp, .refl _⟩
  · rintro m4 _ ha4 ⟨ds, h4, h5⟩
    refine (exHere_spec (ha1.trans ha4)).mono fun q v _ h => ?_
    obtain ⟨rfl, rfl⟩ := h
    exact ⟨ds, h4, by simpa using h1.1.trans h5, rfl⟩

theorem numberBase_spec (X : Xid) (b : NumBase) (pt : LPoint) :
    SpecAt (numberBase X b (basePrefix b) (radixOf b)) pt
      (fun q v => ∃ ints frac, Eats pt (basePrefix b ++ ints ++ frac) q ∧ ints ≠ [] ∧
        (∀ c ∈ ints, c ∈ digitChars b ∨ c = '_') ∧ v.base = b ∧
        v.integral = ⟨pt.offset + blen (basePrefix b), pt.offset + blen (basePrefix b ++ ints)⟩ ∧
        v.underscores = ints.count '_' ∧
        Part v.fractional (pt.offset + blen (basePrefix b ++ ints)) frac ∧
        (v.fractional ≠ none → ∃ ds, frac = '.' :: ds ∧ ∀ c ∈ ds, c ∈ digitChars b ∨ c = '_')) := by
  unfold numberBase
  refine SpecAt.bind (literal_spec _ _) fun m1 _ ha1 h1 => ?_
  refine SpecAt.bind (numberDigits_spec b _) fun m2 r ha2 h2 => ?_
  obtain ⟨ints, hi, hid, he2, rfl⟩ := h2
  have e1 := h1.1.2
  have e2 := he2.2
  refine SpecAt.bind (Q := fun q v => ∃ frac, Eats m2 frac q ∧ Part v m2.offset frac ∧
    (v ≠ none → ∃ ds, frac = '.' :: ds ∧ ∀ c ∈ ds, c ∈ digitChars b ∨ c = '_'))
    (SpecAt.optional ((numberFractional_spec X b m2).mono ?_) ?_) ?_
  · rintro q v _ ⟨ds, h4, h5, rfl⟩
    exact ⟨_, h5, .inr (by rw [h5.2]), fun _ => ⟨ds, rfl, h4⟩⟩
  · exact ⟨[], .refl _, .inl ⟨rfl, rfl⟩, by simp⟩
  · rintro m3 f ha3 ⟨frac, h3, h4, h5⟩
    refine .pure ⟨ints, frac, (h1.1.trans he2).trans h3, hi, hid, rfl, ?_, rfl, ?_, h5⟩
    · simp [e1, e2]; omega
    · have : m2.offset = pt.offset + blen (basePrefix b ++ ints) := by simp [e1, e2]; omega
      rw [← this]; exact h4

theorem numberExponentWith_spec (mark : Text) (pt : LPoint) :
    SpecAt (numberExponentWith mark) pt
      (fun q v => ∃ exp, exp ≠ [] ∧ (∀ c ∈ exp, c ∈ digitChars .Decimal ∨ c = '_') ∧
        Eats pt (mark ++ exp) q ∧ v = ⟨pt.offset + blen mark, pt.offset + blen mark + blen exp⟩) := by
  unfold numberExponentWith
  refine SpecAt.bind (literal_spec _ _) fun m1 _ ha1 h1 => ?_
  refine SpecAt.bind (numberDigits_spec .Decimal _) fun m2 r ha2 h2 => ?_
  obtain ⟨ds, hi, hid, he2, rfl⟩ := h2
  have e1 := h1.1.2
  have e2 := he2.2
  exact .pure ⟨ds, hi, hid, h1.1.trans he2, by simp [e1, e2]⟩

theorem number_spec (X : Xid) (pt : LPoint) :
    SpecAt (number X) pt (fun q n => ∃ body, Eats pt body q ∧ NumberShape X n pt.offset body) := by
  unfold number
  refine SpecAt.bind .point fun _ _ _ h => ?_
  obtain ⟨rfl, rfl⟩ := h
  refine SpecAt.bind (Q := fun q v => ∃ b ints frac, Eats pt (basePrefix b ++ ints ++ frac) q ∧ ints ≠ [] ∧
        (∀ c ∈ ints, c ∈ digitChars b ∨ c = '_') ∧ v.base = b ∧
        v.integral = ⟨pt.offset + blen (basePrefix b), pt.offset + blen (basePrefix b ++ ints)⟩ ∧
        v.underscores = ints.count '_' ∧
        Part v.fractional (pt.offset + blen (basePrefix b ++ ints)) frac ∧
        (v.fractional ≠ none → ∃ ds, frac = '.' :: ds ∧ ∀ c ∈ ds, c ∈ digitChars b ∨ c = '_')) ?_ ?_
  · refine SpecAt.alts ((numberBase_spec X .Binary pt).mono fun q v _ h => ⟨_, h⟩) ?_
    intro q hq
    simp at hq
    rcases hq with rfl | rfl | rfl
    · exact (numberBase_spec X .Hexadecimal pt).mono fun q v _ h => ⟨_, h⟩
    · exact (numberBase_spec X .Octal pt).mono fun q v _ h => ⟨_, h⟩
    · exact (numberBase_spec X .Decimal pt).mono fun q v _ h => ⟨_, h⟩
  rintro m1 v ha1 ⟨b, ints, frac, he1, hi, hid, rfl, hint, hu, hf, hf'⟩
  refine SpecAt.bind (Q := fun q x => ∃ mark exp, Eats m1 (mark ++ exp) q ∧
    Part x (m1.offset + blen mark) exp ∧
    ((x = none ∧ mark = []) ∨ (x ≠ none ∧ (mark = c!"e" ∨ mark = c!"E") ∧ exp ≠ [] ∧
      ∀ c ∈ exp, c ∈ digitChars .Decimal ∨ c = '_')))
    (SpecAt.optional (SpecAt.alts ((numberExponentWith_spec _ _).mono ?_) ?_) ?_) ?_
  · rintro q w _ ⟨exp, h1, h2, h3, rfl⟩
    exact ⟨_, exp, h3, .inr rfl, .inr ⟨by simp, .inl rfl, h1, h2⟩⟩
  · intro p hp
    simp at hp
    subst hp
    refine (numberExponentWith_spec _ _).mono ?_
    rintro q w _ ⟨exp, h1, h2, h3, rfl⟩
    exact ⟨_, exp, h3, .inr rfl, .inr ⟨by simp, .inr rfl, h1, h2⟩⟩
  · exact ⟨[], [], .refl _, .inl ⟨rfl, rfl⟩, .inl ⟨rfl, rfl⟩⟩
  rintro m2 x ha2 ⟨mark, exp, he2, hx, hx'⟩
  refine SpecAt.bind (Q := fun q y => ∃ suf, Eats m2 suf q ∧ Part y m2.offset suf ∧ (y ≠ none → Word X suf))
    (SpecAt.optional ((simpleIdent_spec _ _).mono ?_) ?_) ?_
  · rintro q w _ ⟨suf, h1, h2, h3, rfl⟩
    exact ⟨suf, h3, .inr (by rw [h3.2]), fun _ => h1⟩
  · exact ⟨[], .refl _, .inl ⟨rfl, rfl⟩, by simp⟩
  rintro m3 y ha3 ⟨suf, he3, hy, hy'⟩
  have hall := (he1.trans he2).trans he3
  refine SpecAt.bind (exHere_spec hall.adv) ?_
  rintro _ _ _ ⟨rfl, rfl⟩
  have e1 := he1.2
  have e2 := he2.2
  refine .pure ⟨_, hall, ⟨by simp [NumberPartial.finish, hall.2], ints, frac, mark, exp, suf, ?_⟩⟩
  have o1 : m1.offset + blen mark = pt.offset + blen (basePrefix v.base ++ ints ++ frac ++ mark) := by
    simp [e1]; omega
  have o2 : m2.offset = pt.offset + blen (basePrefix v.base ++ ints ++ frac ++ mark ++ exp) := by
    simp [e1, e2]; omega
  refine ⟨by simp [NumberPartial.finish], hi, hid, hint, hu, hf, hf', ?_, ?_, ?_, hy'⟩
  · exact o1 ▸ hx
  · exact hx'
  · exact o2 ▸ hy

/-! ### whitespace, comments -/

theorem isWs_iff (c : Char) : isWs c = true ↔ c ∈ wsChars := by
  simp [isWs, wsChars, or_assoc]

theorem whitespace_spec (pt : LPoint) :
    SpecAt whitespace pt (fun q v => ∃ body, Eats pt body q ∧ v = ⟨pt.offset, q.offset⟩ ∧ body ≠ [] ∧
      (∀ c ∈ body, c ∈ wsChars) ∧ (∀ d t, q.s = d :: t → d ∉ wsChars)) := by
  have hs := takeWhile_split isWs pt.s
  refine SpecAt.congr (q := LP.map (splitPointAtNonZeroOffset
    (blen (pt.s.takeWhile isWs)) .ExpectedWhitespace) _) rfl ?_
  refine SpecAt.map ((splitPoint_spec _ hs).mono fun q v _ h => ?_)
  obtain ⟨h1, h2, h3, rfl⟩ := h
  refine ⟨_, h2, rfl, h1, fun c hc => (isWs_iff c).mp (takeWhile_all c hc), ?_⟩
  intro d t hd hm
  have := dropWhile_head (h3 ▸ hd)
  rw [(isWs_iff d).mpr hm] at this
  cases this

theorem findChar_split (c : Char) (s : Text) :
    ∃ a b, s = a ++ b ∧ (findChar c s).getD (blen s) = blen a ∧ c ∉ a ∧ ∀ d t, b = d :: t → d = c := by
  induction s with
  | nil => exact ⟨[], [], rfl, rfl, by simp, by simp⟩
  | cons d ds ih =>
    by_cases h : d = c
    · exact ⟨[], d :: ds, rfl, by simp [findChar, h], by simp, by rintro _ _ h'; simp at h'; rw [← h'.1, h]⟩
    · obtain ⟨a, b, h1, h2, h3, h4⟩ := ih
      refine ⟨d :: a, b, by simp [h1], ?_, ?_, h4⟩
      · simp only [findChar, h, if_false]
        cases hf : findChar c ds with
        | none => rw [hf] at h2; simp at h2 ⊢; omega
        | some n => rw [hf] at h2; simp at h2 ⊢; omega
      · simp [h3]; exact fun e => h e.symm

theorem findStr_some {pat s : Text} {n : Nat} (h : findStr pat s = some n) (hp : pat ≠ []) :
    ∃ a, FirstOcc pat s a ∧ blen a = n := by
  induction s generalizing n with
  | nil => simp [findStr, hp] at h
  | cons d ds ih =>
    unfold findStr at h
    split at h
    · rename_i hs
      simp at h
      subst h
      obtain ⟨b, hb⟩ := startsWith_iff.mp hs
      exact ⟨[], ⟨⟨b, hb⟩, by simp⟩, rfl⟩
    · rename_i hs
      cases hf : findStr pat ds with
      | none => rw [hf] at h; simp at h
      | some m =>
        rw [hf] at h; simp at h
        obtain ⟨a, ⟨⟨b, hb⟩, hmin⟩, hm⟩ := ih hf
        refine ⟨d :: a, ⟨⟨b, by simp [hb]⟩, ?_⟩, by simp [hm]; omega⟩
        intro a' b' he
        cases a' with
        | nil =>
          exact absurd (startsWith_iff.mpr ⟨b', by simpa using he⟩) hs
        | cons x xs =>
          simp at he
          have := hmin xs b' (by simpa using he.2)
          simp; exact this

theorem findStr_none {pat s : Text} (h : findStr pat s = none) : NoOcc pat s := by
  induction s with
  | nil =>
    intro a b he
    simp [findStr] at h
    simp at he
    exact h he.2.1
  | cons d ds ih =>
    unfold findStr at h
    split at h
    · simp at h
    · rename_i hs
      simp at h
      intro a b he
      cases a with
      | nil => exact hs (startsWith_iff.mpr ⟨b, by simpa using he⟩)
      | cons x xs =>
        simp at he
        exact ih h xs b (by simpa using he.2)

theorem lineComment_spec (k : TK) (pt : LPoint) :
    SpecAt (lineComment k) pt (fun q v => ∃ body, Eats pt body q ∧ v = .plain k ⟨pt.offset, q.offset⟩ ∧
      LineTo body q.s) := by
  obtain ⟨a, b, h1, h2, h3, h4⟩ := findChar_split '\n' pt.s
  refine SpecAt.congr (q := (do let _ ← advance (blen a)
                                let e ← exHere pt
                                LP.pure (Token.plain k e) : LP Token)) ?_ ?_
  · simp only [lineComment, h2]
  · refine SpecAt.bind (advance_spec h1) fun m _ ha hm => ?_
    refine SpecAt.bind (exHere_spec ha) ?_
    rintro _ _ _ ⟨rfl, rfl⟩
    exact .pure ⟨a, hm.1, rfl, h3, hm.2.1 ▸ h4⟩

theorem blockComment_spec (k : TK) {op rest : Text} {pt : LPoint} (h : pt.s = op ++ rest) :
    SpecAt (blockComment k (blen op)) pt
      (fun q v => ∃ body, Eats pt body q ∧ v = .plain k ⟨pt.offset, q.offset⟩ ∧ BlockTo op body q.s) := by
  have key : ∃ a b, pt.s = a ++ b ∧
      ((findStr c!"*/" rest).map (fun x => blen op + x + 2)).getD (blen pt.s) = blen a ∧ BlockTo op a b := by
    cases hf : findStr c!"*/" rest with
    | none =>
      exact ⟨op ++ rest, [], by simp [h], by simp [h], .inr ⟨rest, rfl, findStr_none hf, rfl⟩⟩
    | some n =>
      obtain ⟨inner, hfo, hn⟩ := findStr_some hf (by simp)
      obtain ⟨post, hp⟩ := hfo.1
      refine ⟨op ++ inner ++ c!"*/", post, by rw [h, hp]; simp, ?_, .inl ⟨inner, rfl, ?_⟩⟩
      · have : blen c!"*/" = 2 := by decide
        simp only [Option.map_some, Option.getD_some, blen_append, this, hn]
      · rw [← hp]; exact hfo
  obtain ⟨a, b, h1, h2, h3⟩ := key
  refine SpecAt.congr (q := (do let _ ← advance (blen a)
                                let e ← exHere pt
                                LP.pure (Token.plain k e) : LP Token)) ?_ ?_
  · simp only [blockComment]
    rw [h, splitAtByte_blen]
    simp only []
    rw [← h, h2]
  · refine SpecAt.bind (advance_spec h1) fun m _ ha hm => ?_
    refine SpecAt.bind (exHere_spec ha) ?_
    rintro _ _ _ ⟨rfl, rfl⟩
    exact .pure ⟨a, hm.1, rfl, hm.2.1 ▸ h3⟩

theorem commentKind_aux : ∀ b1 b2 b3 b4 b5 b6 b7 b8 b9 : Bool, (b3 = true → b1 = true) → (b4 = true → b1 = true) →
    (b5 = true → b2 = true) → (b6 = true → b2 = true) → (b1 = true → b2 = false) →
    (if b1 then
      if b3 ∧ ¬ b7 then some TK.DocCommentOuterLine
      else if b4 then some .DocCommentInnerLine
      else some .CommentLine
    else if b2 then
      if b5 ∧ ¬ b8 ∧ ¬ b9 then some .DocCommentOuterBlock
      else if b6 then some .DocCommentInnerBlock
      else some .CommentBlock
    else none) =
    (if b3 && !b7 then some .DocCommentOuterLine
      else if b4 then some .DocCommentInnerLine
      else if b1 then some .CommentLine
      else if b5 && !b8 && !b9 then some .DocCommentOuterBlock
      else if b6 then some .DocCommentInnerBlock
      else if b2 then some .CommentBlock
      else none) := by decide

theorem commentKind_cases (s : Text) :
    commentKind s =
      if startsWith c!"///" s && !startsWith c!"////" s then some .DocCommentOuterLine
      else if startsWith c!"//!" s then some .DocCommentInnerLine
      else if startsWith c!"//" s then some .CommentLine
      else if startsWith c!"/**" s && !startsWith c!"/***" s && !startsWith c!"/**/" s then
        some .DocCommentOuterBlock
      else if startsWith c!"/*!" s then some .DocCommentInnerBlock
      else if startsWith c!"/*" s then some .CommentBlock
      else none := by
  have pre : ∀ a b : Text, startsWith (a ++ b) s = true → startsWith a s = true := by
    intro a b h
    obtain ⟨r, hr⟩ := startsWith_iff.mp h
    exact startsWith_iff.mpr ⟨b ++ r, by simp [hr]⟩
  have p1 := pre c!"//" c!"/"
  have p2 := pre c!"//" c!"!"
  have p3 := pre c!"/*" c!"*"
  have p4 := pre c!"/*" c!"!"
  have p5 : startsWith c!"//" s = true → startsWith c!"/*" s = false := by
    intro h
    obtain ⟨r, hr⟩ := startsWith_iff.mp h
    subst hr
    rfl
  simp only [List.cons_append, List.nil_append] at p1 p2 p3 p4
  exact commentKind_aux _ _ _ _ _ _ _ _ _ p1 p2 p3 p4 p5

theorem commentOrDocComment_spec (X : Xid) (pt : LPoint) :
    SpecAt commentOrDocComment pt
      (fun q v => ∃ body, Eats pt body q ∧ TokenShape X pt.offset v body q.s) := by
  have hk := commentKind_cases pt.s
  have line : ∀ k, isLineKind k → commentKind pt.s = some k →
      SpecAt (lineComment k) pt (fun q v => ∃ body, Eats pt body q ∧ TokenShape X pt.offset v body q.s) := by
    intro k h1 h2
    refine (lineComment_spec k pt).mono ?_
    rintro q v _ ⟨body, he, rfl, hl⟩
    refine ⟨body, he, ?_⟩
    rw [he.2]
    exact .line h1 (he.1 ▸ h2) hl
  have block : ∀ k op, blockOpener k = some op → commentKind pt.s = some k → startsWith op pt.s = true →
      SpecAt (blockComment k (blen op)) pt
        (fun q v => ∃ body, Eats pt body q ∧ TokenShape X pt.offset v body q.s) := by
    intro k op h1 h2 h3
    obtain ⟨rest, hr⟩ := startsWith_iff.mp h3
    refine (blockComment_spec k hr).mono ?_
    rintro q v _ ⟨body, he, rfl, hl⟩
    refine ⟨body, he, ?_⟩
    rw [he.2]
    exact .block h1 (he.1 ▸ h2) hl
  by_cases h1 : (startsWith c!"///" pt.s && !startsWith c!"////" pt.s) = true
  · simp only [h1, if_true] at hk
    exact SpecAt.congr (by simp only [commentOrDocComment, h1, if_true]) (line _ (.inl rfl) hk)
  by_cases h2 : startsWith c!"//!" pt.s = true
  · simp only [h1, h2, if_true, if_false, Bool.false_eq_true] at hk
    exact SpecAt.congr (by simp only [commentOrDocComment, h1, h2, if_true, if_false, Bool.false_eq_true])
      (line _ (.inr (.inl rfl)) hk)
  by_cases h3 : startsWith c!"//" pt.s = true
  · simp only [h1, h2, h3, if_true, if_false, Bool.false_eq_true] at hk
    exact SpecAt.congr (by simp only [commentOrDocComment, h1, h2, h3, if_true, if_false, Bool.false_eq_true])
      (line _ (.inr (.inr rfl)) hk)
  by_cases h4 : (startsWith c!"/**" pt.s && !startsWith c!"/***" pt.s && !startsWith c!"/**/" pt.s) = true
  · simp only [h1, h2, h3, h4, if_true, if_false, Bool.false_eq_true] at hk
    exact SpecAt.congr (by simp only [commentOrDocComment, h1, h2, h3, h4, if_true, if_false, Bool.false_eq_true]; rfl)
      (block _ c!"/**" rfl hk (by simp_all))
  by_cases h5 : startsWith c!"/*!" pt.s = true
  · simp only [h1, h2, h3, h4, h5, if_true, if_false, Bool.false_eq_true] at hk
    exact SpecAt.congr (by simp only [commentOrDocComment, h1, h2, h3, h4, h5, if_true, if_false, Bool.false_eq_true]; rfl)
      (block _ c!"/*!" rfl hk h5)
  by_cases h6 : startsWith c!"/*" pt.s = true
  · simp only [h1, h2, h3, h4, h5, h6, if_true, if_false, Bool.false_eq_true] at hk
    exact SpecAt.congr (by simp only [commentOrDocComment, h1, h2, h3, h4, h5, h6, if_true, if_false, Bool.false_eq_true]; rfl)
      (block _ c!"/*" rfl hk h6)
  · refine .mk_fail (pt' := pt) (l := []) .ExpectedComment ?_ ⟨.refl _, .nil _⟩
    simp only [commentOrDocComment, h1, h2, h3, h4, h5, h6, if_false, Bool.false_eq_true]

end Verif
