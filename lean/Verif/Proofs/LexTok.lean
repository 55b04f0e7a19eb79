import Verif.Proofs.LexSpec
/-!
# What each tokenizer function consumes: quoted forms, words, and `single_token`
-/

namespace Verif
open Spec

theorem hexString_spec (pt : LPoint) :
    SpecAt hexString pt (fun q _ => ∃ ds, ds ≠ [] ∧ (∀ d ∈ ds, d ∈ digitChars .Hexadecimal) ∧ Eats pt ds q) := by
  have hs := takeWhile_split (isDigit 16) pt.s
  by_cases h : pt.s.takeWhile (isDigit 16) = []
  · exact .mk_fail (pt' := pt) (l := []) .ExpectedHex (by simp [hexString, takeWhileLen, h]) ⟨.refl _, .nil _⟩
  · have hp := blen_pos h
    refine SpecAt.congr (q := advance (blen (pt.s.takeWhile (isDigit 16)))) ?_
      ((advance_spec hs).mono fun q v _ hq => ⟨_, h, ?_, hq.1⟩)
    · have h0 : blen (pt.s.takeWhile (isDigit 16)) ≠ 0 := by omega
      simp [hexString, takeWhileLen, h0]
    · intro d hd
      exact (isDigit_iff .Hexadecimal d).mp (takeWhile_all d hd)

theorem escapedCharHex_spec (pt : LPoint) :
    SpecAt escapedCharHex pt (fun q _ => ∃ t, Escape t ∧ Eats pt t q) := by
  unfold escapedCharHex
  refine SpecAt.bind .point ?_
  rintro _ _ _ ⟨rfl, rfl⟩
  refine SpecAt.bind (literal_spec _ _) fun m1 _ ha1 h1 => ?_
  refine SpecAt.bind (hexString_spec _) ?_
  rintro m2 _ ha2 ⟨ds, hd1, hd2, h2⟩
  have h := h1.1.trans h2
  refine (exHere_spec h.adv).mono ?_
  rintro _ _ _ ⟨rfl, _⟩
  exact ⟨_, .hex hd1 hd2, h⟩

theorem escapedCharUnicode_spec (pt : LPoint) :
    SpecAt escapedCharUnicode pt (fun q _ => ∃ t, Escape t ∧ Eats pt t q) := by
  unfold escapedCharUnicode
  refine SpecAt.bind .point ?_
  rintro _ _ _ ⟨rfl, rfl⟩
  refine SpecAt.bind (literal_spec _ _) fun m1 _ ha1 h1 => ?_
  refine SpecAt.bind (hexString_spec _) ?_
  rintro m2 _ ha2 ⟨ds, hd1, hd2, h2⟩
  refine SpecAt.bind (literal_spec _ _) fun m3 _ ha3 h3 => ?_
  have h := (h1.1.trans h2).trans h3.1
  refine (exHere_spec h.adv).mono ?_
  rintro _ _ _ ⟨rfl, _⟩
  exact ⟨_, .unicode hd1 hd2, h⟩

theorem escapedCharCode_spec (pt : LPoint) :
    SpecAt escapedCharCode pt (fun q _ => ∃ t, Escape t ∧ Eats pt t q) := by
  have lit : ∀ c, c ∈ c!"nrt\\'\"0" →
      SpecAt (literal [c]) pt (fun q _ => ∃ t, Escape t ∧ Eats pt t q) := by
    intro c hc
    exact (literal_spec _ _).mono fun q v _ h => ⟨_, .simple hc, h.1⟩
  unfold escapedCharCode
  refine SpecAt.alts (lit 'n' (by decide)) ?_
  intro q hq
  simp only [List.mem_cons, List.not_mem_nil, or_false] at hq
  rcases hq with rfl | rfl | rfl | rfl | rfl | rfl | rfl | rfl
  · exact lit 'r' (by decide)
  · exact lit 't' (by decide)
  · exact lit '\\' (by decide)
  · exact lit '\'' (by decide)
  · exact lit '"' (by decide)
  · exact lit '0' (by decide)
  · exact escapedCharHex_spec pt
  · exact escapedCharUnicode_spec pt

theorem escapedChar_spec (pt : LPoint) :
    SpecAt escapedChar pt (fun q _ => ∃ b, CharBody b ∧ Eats pt b q) := by
  unfold escapedChar
  refine SpecAt.bind (literal_spec _ _) fun m1 _ ha1 h1 => ?_
  refine SpecAt.bind (escapedCharCode_spec _) ?_
  rintro m2 _ _ ⟨t, h2, h3⟩
  exact .pure ⟨_, .esc h2, h1.1.trans h3⟩

theorem singleChar_spec (pt : LPoint) :
    SpecAt singleChar pt (fun q _ => ∃ c, Eats pt [c] q) := by
  cases h : pt.s with
  | nil => exact .mk_fail (pt' := pt) (l := []) .ExpectedCharacter (by simp [singleChar, h]) ⟨.refl _, .nil _⟩
  | cons c cs =>
    refine SpecAt.congr (q := LP.map (advance (blen [c])) fun _ => ()) (by simp [singleChar, h]) ?_
    exact SpecAt.map ((advance_spec (a := [c]) (b := cs) (by simp [h])).mono fun q v _ hq => ⟨c, hq.1⟩)

/-! #### completeness for escapes -/

/-- `p` succeeds from `pt` having consumed exactly `a`. -/
def OkAt {α} (p : LP α) (pt : LPoint) (q : LPoint) : Prop := ∃ v l, p pt = (.ok q v, l)

theorem OkAt.bind {α β} {p : LP α} {f : α → LP β} {pt q r : LPoint} (h : OkAt p pt q)
    (hf : ∀ v, OkAt (f v) q r) : OkAt (p >>= f) pt r := by
  obtain ⟨v, l, h⟩ := h
  obtain ⟨w, l', h'⟩ := hf v
  exact ⟨w, l ++ l', by simp [Bind.bind, LP.bind, h, h']⟩

theorem OkAt.pure {α} {v : α} {pt : LPoint} : OkAt (LP.pure v) pt pt := ⟨v, [], rfl⟩
theorem OkAt.point {pt : LPoint} : OkAt LP.point pt pt := ⟨pt, [], rfl⟩

theorem okAt_literal {w : Text} {pt q : LPoint} (h : Eats pt w q) : OkAt (literal w) pt q := by
  obtain ⟨h1, h2⟩ := h
  obtain ⟨qs, qo⟩ := q
  simp only at h1 h2
  subst h2
  exact ⟨_, _, literal_ok h1⟩

theorem OkAt.alts {α} {p : LP α} {ps before after : List (LP α)} {q : LP α} {pt pt' : LPoint}
    (hq : OkAt q pt pt') (heq : p :: ps = before ++ q :: after)
    (hb : ∀ r ∈ before, ∃ pe e le, r pt = (.fail pe e, le) ∧ e.recoverable = true) :
    OkAt (LP.alts p ps) pt pt' := by
  obtain ⟨v, l, hq⟩ := hq
  obtain ⟨l', h⟩ := alts_first_ok heq hq hb
  exact ⟨v, l', h⟩

theorem literal_fails {w : Text} {pt : LPoint} (h : startsWith w pt.s = false) :
    ∃ pe e le, literal w pt = (.fail pe e, le) ∧ e.recoverable = true :=
  ⟨_, _, _, literal_fail h, rfl⟩

theorem takeWhile_append_stop {f : Char → Bool} {ds rest : Text} (h1 : ∀ d ∈ ds, f d = true)
    (h2 : ∀ d t, rest = d :: t → f d = false) : (ds ++ rest).takeWhile f = ds := by
  induction ds with
  | nil =>
    cases rest with
    | nil => rfl
    | cons d t => simp [h2 d t rfl]
  | cons c cs ih =>
    simp [h1 c (by simp)]
    exact ih fun d hd => h1 d (by simp [hd])

theorem okAt_advance {pt q : LPoint} {a : Text} (h : Eats pt a q) : OkAt (advance (blen a)) pt q := by
  obtain ⟨h1, h2⟩ := h
  obtain ⟨qs, qo⟩ := q
  simp only at h1 h2
  subst h2
  exact ⟨a, [], by simp [advance, h1, splitAtByte_blen]⟩

theorem okAt_exHere {spt pt : LPoint} (h : Adv spt pt) : OkAt (exHere spt) pt pt := by
  have := h.le
  exact ⟨⟨spt.offset, pt.offset⟩, [], by simp [exHere, lexEx, this]⟩

theorem okAt_hexString {pt q : LPoint} {ds : Text} (h : Eats pt ds q) (h1 : ds ≠ [])
    (h2 : ∀ d ∈ ds, d ∈ digitChars .Hexadecimal) (h3 : ∀ d t, q.s = d :: t → isDigit 16 d = false) :
    OkAt hexString pt q := by
  have ht : pt.s.takeWhile (isDigit 16) = ds := by
    rw [h.1]
    exact takeWhile_append_stop (fun d hd => (isDigit_iff .Hexadecimal d).mpr (h2 d hd)) h3
  have hp := blen_pos h1
  obtain ⟨v, l, hv⟩ := okAt_advance h
  have h0 : blen ds ≠ 0 := by omega
  exact ⟨v, l, by simp [hexString, takeWhileLen, ht, h0, hv]⟩

/-- Point reached by consuming `a` when `b` remains. -/
def atEnd (pt : LPoint) (a b : Text) : LPoint := ⟨b, pt.offset + blen a⟩

theorem eats_atEnd {pt : LPoint} {a b : Text} (h : pt.s = a ++ b) : Eats pt a (atEnd pt a b) := ⟨h, rfl⟩

theorem OkAt.pointBind {β} {f : LPoint → LP β} {pt r : LPoint} (h : OkAt (f pt) pt r) :
    OkAt (LP.point >>= f) pt r := by
  obtain ⟨v, l, h⟩ := h
  exact ⟨v, l, by simp [Bind.bind, LP.bind, LP.point, h]⟩

theorem okAt_escapedCharHex {pt q : LPoint} {ds : Text} (h : Eats pt ('x' :: ds) q) (h1 : ds ≠ [])
    (h2 : ∀ d ∈ ds, d ∈ digitChars .Hexadecimal) (h3 : ∀ d t, q.s = d :: t → isDigit 16 d = false) :
    OkAt escapedCharHex pt q := by
  unfold escapedCharHex
  have e1 : Eats pt c!"x" (atEnd pt c!"x" (ds ++ q.s)) := eats_atEnd (by simp [h.1])
  have e2 : Eats (atEnd pt c!"x" (ds ++ q.s)) ds q := ⟨rfl, by simp [atEnd, h.2]; omega⟩
  exact .pointBind (OkAt.bind (okAt_literal e1) fun _ => OkAt.bind (okAt_hexString e2 h1 h2 h3) fun _ =>
    okAt_exHere h.adv)

theorem okAt_escapedCharUnicode {pt q : LPoint} {ds : Text} (h : Eats pt (c!"u{" ++ ds ++ c!"}") q)
    (h1 : ds ≠ []) (h2 : ∀ d ∈ ds, d ∈ digitChars .Hexadecimal) :
    OkAt escapedCharUnicode pt q := by
  unfold escapedCharUnicode
  have e1 : Eats pt c!"u{" (atEnd pt c!"u{" (ds ++ '}' :: q.s)) := eats_atEnd (by simp [h.1])
  have e2 := eats_atEnd (pt := atEnd pt c!"u{" (ds ++ '}' :: q.s)) (a := ds) (b := '}' :: q.s) rfl
  have e3 : Eats (atEnd (atEnd pt c!"u{" (ds ++ '}' :: q.s)) ds ('}' :: q.s)) c!"}" q :=
    ⟨rfl, by simp [atEnd, h.2]; omega⟩
  refine .pointBind (OkAt.bind (okAt_literal e1) fun _ => OkAt.bind (okAt_hexString e2 h1 h2 ?_) fun _ =>
    OkAt.bind (okAt_literal e3) fun _ => okAt_exHere h.adv)
  intro d t hd
  simp [atEnd] at hd
  rw [← hd.1]
  decide

theorem okAt_escapedCharCode {pt q : LPoint} {t : Text} (h : Eats pt t q) (ht : Escape t)
    (h3 : (∃ ds, t = 'x' :: ds) → ∀ d t, q.s = d :: t → isDigit 16 d = false) : OkAt escapedCharCode pt q := by
  unfold escapedCharCode
  cases ht with
  | @simple c hc =>
    have hl := okAt_literal h
    have hs : pt.s = c :: q.s := by simpa using h.1
    simp only [List.mem_cons, List.not_mem_nil, or_false] at hc
    rcases hc with rfl | rfl | rfl | rfl | rfl | rfl | rfl
    · exact hl.alts (before := []) rfl (by simp)
    · refine hl.alts (before := [literal c!"n"]) rfl ?_
      intro r hr
      simp only [List.mem_cons, List.not_mem_nil, or_false] at hr
      rcases hr with rfl
      exact literal_fails (by rw [hs]; rfl)
    · refine hl.alts (before := [literal c!"n", literal c!"r"]) rfl ?_
      intro r hr
      simp only [List.mem_cons, List.not_mem_nil, or_false] at hr
      rcases hr with rfl | rfl <;> exact literal_fails (by rw [hs]; rfl)
    · refine hl.alts (before := [literal c!"n", literal c!"r", literal c!"t"]) rfl ?_
      intro r hr
      simp only [List.mem_cons, List.not_mem_nil, or_false] at hr
      rcases hr with rfl | rfl | rfl <;> exact literal_fails (by rw [hs]; rfl)
    · refine hl.alts (before := [literal c!"n", literal c!"r", literal c!"t", literal c!"\\"]) rfl ?_
      intro r hr
      simp only [List.mem_cons, List.not_mem_nil, or_false] at hr
      rcases hr with rfl | rfl | rfl | rfl <;> exact literal_fails (by rw [hs]; rfl)
    · refine hl.alts (before := [literal c!"n", literal c!"r", literal c!"t", literal c!"\\", literal c!"'"]) rfl ?_
      intro r hr
      simp only [List.mem_cons, List.not_mem_nil, or_false] at hr
      rcases hr with rfl | rfl | rfl | rfl | rfl <;> exact literal_fails (by rw [hs]; rfl)
    · refine hl.alts (before := [literal c!"n", literal c!"r", literal c!"t", literal c!"\\", literal c!"'",
        literal c!"\""]) rfl ?_
      intro r hr
      simp only [List.mem_cons, List.not_mem_nil, or_false] at hr
      rcases hr with rfl | rfl | rfl | rfl | rfl | rfl <;> exact literal_fails (by rw [hs]; rfl)
  | @hex ds h1 h2 =>
    have hs : pt.s = 'x' :: (ds ++ q.s) := by simpa using h.1
    refine (okAt_escapedCharHex h h1 h2 (h3 ⟨_, rfl⟩)).alts (before := [literal c!"n", literal c!"r", literal c!"t",
      literal c!"\\", literal c!"'", literal c!"\"", literal c!"0"]) rfl ?_
    intro r hr
    simp only [List.mem_cons, List.not_mem_nil, or_false] at hr
    rcases hr with rfl | rfl | rfl | rfl | rfl | rfl | rfl <;> exact literal_fails (by rw [hs]; rfl)
  | @unicode ds h1 h2 =>
    have hs : pt.s = 'u' :: '{' :: (ds ++ '}' :: q.s) := by simpa using h.1
    refine (okAt_escapedCharUnicode h h1 h2).alts (before := [literal c!"n", literal c!"r", literal c!"t",
      literal c!"\\", literal c!"'", literal c!"\"", literal c!"0", escapedCharHex]) rfl ?_
    intro r hr
    simp only [List.mem_cons, List.not_mem_nil, or_false] at hr
    rcases hr with rfl | rfl | rfl | rfl | rfl | rfl | rfl | rfl
    iterate 7 exact literal_fails (by rw [hs]; rfl)
    have : literal c!"x" pt = (.fail pt (.Literal c!"x"), []) := literal_fail (by rw [hs]; rfl)
    exact ⟨pt, .Literal c!"x", [], by simp [escapedCharHex, Bind.bind, LP.bind, LP.point, this], rfl⟩

theorem okAt_escapedChar {pt q : LPoint} {t : Text} (h : Eats pt ('\\' :: t) q) (ht : Escape t)
    (h3 : (∃ ds, t = 'x' :: ds) → ∀ d t, q.s = d :: t → isDigit 16 d = false) : OkAt escapedChar pt q := by
  unfold escapedChar
  have e1 : Eats pt c!"\\" (atEnd pt c!"\\" (t ++ q.s)) := eats_atEnd (by simp [h.1])
  have e2 : Eats (atEnd pt c!"\\" (t ++ q.s)) t q := ⟨rfl, by simp [atEnd, h.2]; omega⟩
  exact OkAt.bind (okAt_literal e1) fun _ => OkAt.bind (okAt_escapedCharCode e2 ht h3) fun _ => .pure

theorem okAt_singleChar {pt q : LPoint} {c : Char} (h : Eats pt [c] q) : OkAt singleChar pt q := by
  obtain ⟨v, l, hv⟩ := okAt_advance h
  have hs : pt.s = c :: q.s := by simpa using h.1
  refine ⟨(), l, ?_⟩
  simp at hv
  simp [singleChar, hs, LP.map, LP.bind, hv, LP.pure]

theorem okAt_characterChar {pt q : LPoint} {b : Text} (h : Eats pt b q) (hb : CharBody b)
    (h3 : ∀ d t, q.s = d :: t → isDigit 16 d = false) : OkAt characterChar pt q := by
  unfold characterChar
  cases hb with
  | @single c hc =>
    refine (okAt_singleChar h).alts (before := [escapedChar]) rfl ?_
    intro r hr
    simp at hr
    subst hr
    have hs : pt.s = c :: q.s := by simpa using h.1
    have : literal c!"\\" pt = (.fail pt (.Literal c!"\\"), []) := by
      apply literal_fail
      rw [hs]
      show (('\\' == c) && true) = false
      simp
      exact Ne.symm hc
    exact ⟨pt, .Literal c!"\\", [], by simp [escapedChar, Bind.bind, LP.bind, this], rfl⟩
  | esc ht => exact (okAt_escapedChar h ht fun _ => h3).alts (before := []) rfl (by simp)

theorem okAt_character {pt q : LPoint} {b : Text} (h : Eats pt (c!"'" ++ b ++ c!"'") q) (hb : CharBody b) :
    OkAt character pt q := by
  unfold character
  have e1 : Eats pt c!"'" (atEnd pt c!"'" (b ++ '\'' :: q.s)) := eats_atEnd (by simp [h.1])
  have e2 := eats_atEnd (pt := atEnd pt c!"'" (b ++ '\'' :: q.s)) (a := b) (b := '\'' :: q.s) rfl
  have e3 : Eats (atEnd (atEnd pt c!"'" (b ++ '\'' :: q.s)) b ('\'' :: q.s)) c!"'" q :=
    ⟨rfl, by simp [atEnd, h.2]; omega⟩
  refine .pointBind (OkAt.bind (okAt_literal e1) fun _ => OkAt.bind (okAt_characterChar e2 hb ?_) fun _ =>
    OkAt.bind (okAt_literal e3) fun _ => okAt_exHere h.adv)
  intro d t hd
  simp [atEnd] at hd
  rw [← hd.1]
  decide

/-! #### soundness of `character` -/

theorem characterChar_spec (pt : LPoint) :
    SpecAt characterChar pt (fun q _ => ∃ b, Eats pt b q ∧ (CharBody b ∨ (b = ['\\'] ∧ ∀ r, q.s ≠ '\'' :: r))) := by
  by_cases h : ∃ r, pt.s = '\\' :: '\'' :: r
  · obtain ⟨r, hr⟩ := h
    have e : Eats pt c!"\\'" (atEnd pt c!"\\'" r) := eats_atEnd hr
    have hok : OkAt characterChar pt (atEnd pt c!"\\'" r) :=
      (okAt_escapedChar (t := ['\'']) e (.simple (by decide)) (by rintro ⟨ds, h⟩; simp at h)).alts
        (before := []) rfl (by simp)
    have hsp : SpecAt characterChar pt (fun _ _ => True) := by
      refine SpecAt.alts ((escapedChar_spec pt).mono fun _ _ _ _ => trivial) ?_
      intro q hq
      simp at hq
      subst hq
      exact (singleChar_spec pt).mono fun _ _ _ _ => trivial
    obtain ⟨v, l, hok⟩ := hok
    obtain ⟨ha, _, hl⟩ := hsp.of_ok hok
    exact .mk_ok hok ⟨ha, ⟨_, e, .inl (.esc (.simple (by decide)))⟩, hl⟩
  · refine SpecAt.alts ((escapedChar_spec pt).mono fun q _ _ ⟨b, h1, h2⟩ => ⟨b, h2, .inl h1⟩) ?_
    intro q hq
    simp at hq
    subst hq
    refine (singleChar_spec pt).mono ?_
    rintro q _ _ ⟨c, hc⟩
    refine ⟨_, hc, ?_⟩
    by_cases hc' : c = '\\'
    · refine .inr ⟨by rw [hc'], ?_⟩
      intro r hr
      apply h
      exact ⟨r, by rw [hc.1, hr, hc']; rfl⟩
    · exact .inl (.single hc')

theorem character_spec (pt : LPoint) :
    SpecAt character pt (fun q v => ∃ b, CharBody b ∧ Eats pt (c!"'" ++ b ++ c!"'") q ∧ v = ⟨pt.offset, q.offset⟩) := by
  unfold character
  refine SpecAt.bind .point ?_
  rintro _ _ _ ⟨rfl, rfl⟩
  refine SpecAt.bind (literal_spec _ _) fun m1 _ ha1 h1 => ?_
  refine SpecAt.bind (characterChar_spec _) ?_
  rintro m2 _ ha2 ⟨b, h2, hb⟩
  refine SpecAt.bind (literal_spec _ _) fun m3 _ ha3 h3 => ?_
  have h := (h1.1.trans h2).trans h3.1
  refine (exHere_spec h.adv).mono ?_
  rintro _ _ _ ⟨rfl, rfl⟩
  rcases hb with hb | ⟨_, hb⟩
  · exact ⟨b, hb, h, rfl⟩
  · exact absurd h3.1.1 (hb _)

/-! ### strings -/

theorem stringCharIdx_split (s : Text) : ∃ a b, s = a ++ b ∧ stringCharIdx false s = blen a ∧
    (∀ t, b = '"' :: t → StrBody a) := by
  have key : ∀ n (s : Text), s.length ≤ n → ∃ a b, s = a ++ b ∧ stringCharIdx false s = blen a ∧
      (∀ t, b = '"' :: t → StrBody a) := by
    intro n
    induction n with
    | zero =>
      intro s hs
      have : s = [] := by simpa using hs
      subst this
      exact ⟨[], [], rfl, rfl, by simp⟩
    | succ n ih =>
      intro s hs
      match s with
      | [] => exact ⟨[], [], rfl, rfl, by simp⟩
      | c :: cs =>
        by_cases h1 : c = '\\'
        · match cs with
          | [] => exact ⟨[c], [], rfl, by simp [stringCharIdx, h1], by simp⟩
          | d :: ds =>
            obtain ⟨a, b, h2, h3, h4⟩ := ih ds (by simp at hs; omega)
            refine ⟨c :: d :: a, b, by simp [h2], by simp [stringCharIdx, h1, h3], ?_⟩
            intro t ht
            rw [h1]
            exact .esc (h4 t ht)
        · by_cases h2 : c = '"'
          · exact ⟨[], c :: cs, rfl, by simp [stringCharIdx, h2], fun _ _ => .nil⟩
          · obtain ⟨a, b, h3, h4, h5⟩ := ih cs (by simp at hs; omega)
            exact ⟨c :: a, b, by simp [h3], by simp [stringCharIdx, h1, h2, h4],
              fun t ht => .plain h2 h1 (h5 t ht)⟩
  exact key s.length s (Nat.le_refl _)

theorem string_spec (pt : LPoint) :
    SpecAt string pt (fun q v => ∃ b, StrLit b ∧ Eats pt b q ∧ v = ⟨pt.offset, q.offset⟩) := by
  unfold string
  refine SpecAt.bind .point ?_
  rintro _ _ _ ⟨rfl, rfl⟩
  refine SpecAt.bind (literal_spec _ _) fun m1 _ ha1 h1 => ?_
  obtain ⟨a, b, h2, h3, h4⟩ := stringCharIdx_split m1.s
  refine SpecAt.bind (SpecAt.congr (q := advance (blen a)) (by simp [stringChar, h3]) (advance_spec h2)) ?_
  rintro m2 _ ha2 ⟨he2, hs2, _⟩
  refine SpecAt.bind (literal_spec _ _) fun m3 _ ha3 h5 => ?_
  have h := (h1.1.trans he2).trans h5.1
  have hb : StrBody a := h4 m3.s (by rw [← hs2, h5.1.1]; rfl)
  refine (exHere_spec h.adv).mono ?_
  rintro _ _ _ ⟨rfl, rfl⟩
  exact ⟨_, ⟨a, hb, rfl⟩, h, rfl⟩

theorem hashes_spec (n : Nat) (pt : LPoint) (hn : pt.s.length < n) :
    SpecAt (LP.zeroOrMoreF (literal c!"#") n) pt (fun q v => Eats pt (List.replicate v.length '#') q) := by
  induction n generalizing pt with
  | zero => omega
  | succ n ih =>
    rcases (literal_spec c!"#" pt).cases with ⟨q, v, l, hp, ha, hq, hl⟩ | ⟨q, e, l, hp, ha, hl⟩
    · have hlen : q.s.length < n := by
        have := congrArg List.length hq.1.1
        simp at this
        omega
      rcases (ih q hlen).cases with ⟨q', v', l', hp', ha', hq', hl'⟩ | ⟨q', e', l', hp', ha', hl'⟩
      · refine .mk_ok (v := v :: v') (by simp only [LP.zeroOrMoreF, hp, hp'])
          ⟨ha.trans ha', ?_, hl.append (hl'.adv ha)⟩
        have := hq.1.trans hq'
        simpa [List.replicate_succ] using this
      · exact .mk_fail e' (by simp only [LP.zeroOrMoreF, hp, hp']) ⟨ha.trans ha', hl.append (hl'.adv ha)⟩
    · by_cases he : e.recoverable = true
      · exact .mk_ok (v := []) (by simp only [LP.zeroOrMoreF, hp, he, if_true]; rfl)
          ⟨.refl _, .refl _, hl.append (.single _ ha)⟩
      · exact .mk_fail e (by simp only [LP.zeroOrMoreF, hp, he]; rfl) ⟨ha, hl⟩

theorem rawStringTail_spec (n : Nat) (pt : LPoint) :
    SpecAt (rawStringTail n) pt (fun q _ => ∃ content, Eats pt (content ++ rawClose n) q ∧
      FirstOcc (rawClose n) (content ++ rawClose n ++ q.s) content) := by
  cases hf : findStr (rawClose n) pt.s with
  | none =>
    exact .mk_fail (pt' := pt) (l := []) .UnterminatedRawString (by
      have hf' : findStr ('"' :: List.replicate n '#') pt.s = none := hf
      simp [rawStringTail, hf']) ⟨.refl _, .nil _⟩
  | some k =>
    obtain ⟨a, hfo, hk⟩ := findStr_some hf (by simp [rawClose])
    obtain ⟨b, hb⟩ := hfo.1
    have e : Eats pt (a ++ rawClose n) ⟨b, pt.offset + k + blen (rawClose n)⟩ :=
      ⟨hb, by simp [hk]; omega⟩
    refine .mk_ok (pt' := ⟨b, pt.offset + k + blen (rawClose n)⟩) (v := a) (l := []) ?_
      ⟨e.adv, ⟨a, e, by rw [← hb]; exact hfo⟩, .nil _⟩
    show ((match findStr (rawClose n) pt.s with
      | some end_ =>
        match splitAtByte end_ pt.s with
        | none => (.panic, [])
        | some (strContent, quoteTail) =>
          match splitAtByte (blen (rawClose n)) quoteTail with
          | none => (.panic, [])
          | some (_, tail) => (.ok ⟨tail, pt.offset + end_ + blen (rawClose n)⟩ strContent, [])
      | none => (.fail pt .UnterminatedRawString, [])) : LRes Text × LLog) = _
    rw [hf]
    simp only []
    rw [hb, ← hk, List.append_assoc, splitAtByte_blen]
    simp only [splitAtByte_blen]

theorem stringRaw_spec (pt : LPoint) :
    SpecAt stringRaw pt (fun q v => ∃ b, RawStrLit b q.s ∧ Eats pt b q ∧ v = ⟨pt.offset, q.offset⟩) := by
  unfold stringRaw
  refine SpecAt.bind .point ?_
  rintro _ _ _ ⟨rfl, rfl⟩
  refine SpecAt.bind (literal_spec _ _) fun m1 _ ha1 h1 => ?_
  refine SpecAt.bind (hashes_spec _ m1 (Nat.lt_succ_self _)) fun m2 h ha2 h2 => ?_
  refine SpecAt.bind (literal_spec _ _) fun m3 _ ha3 h3 => ?_
  refine SpecAt.bind (rawStringTail_spec _ _) ?_
  rintro m4 _ ha4 ⟨content, h4, h5⟩
  have e := ((h1.1.trans h2).trans h3.1).trans h4
  refine (exHere_spec e.adv).mono ?_
  rintro _ _ _ ⟨rfl, rfl⟩
  exact ⟨_, ⟨h.length, content, by simp, h5⟩, e, rfl⟩

theorem prefixed_spec {p : LP Extent} {P : Text → Text → Prop} (pt : LPoint)
    (hp : ∀ m, SpecAt p m (fun q _ => ∃ b, P b q.s ∧ Eats m b q)) :
    SpecAt (do let spt ← LP.point
               let _ ← literal c!"b"
               let _ ← p
               exHere spt : LP Extent) pt
      (fun q v => ∃ b, P b q.s ∧ Eats pt ('b' :: b) q ∧ v = ⟨pt.offset, q.offset⟩) := by
  refine SpecAt.bind .point ?_
  rintro _ _ _ ⟨rfl, rfl⟩
  refine SpecAt.bind (literal_spec _ _) fun m1 _ ha1 h1 => ?_
  refine SpecAt.bind (hp m1) ?_
  rintro m2 _ ha2 ⟨b, hb, h2⟩
  have e := h1.1.trans h2
  refine (exHere_spec e.adv).mono ?_
  rintro _ _ _ ⟨rfl, rfl⟩
  exact ⟨b, hb, e, rfl⟩

theorem lifetime_spec (X : Xid) (pt : LPoint) :
    SpecAt (lifetime X) pt (fun q v => ∃ w, Word X w ∧ NoCont X q.s ∧ Eats pt ('\'' :: w) q ∧
      v = ⟨pt.offset, q.offset⟩) := by
  unfold lifetime
  refine SpecAt.bind .point ?_
  rintro _ _ _ ⟨rfl, rfl⟩
  refine SpecAt.bind (literal_spec _ _) fun m1 _ ha1 h1 => ?_
  refine SpecAt.bind (simpleIdent_spec _ _) ?_
  rintro m2 _ ha2 ⟨w, hw, hn, h2, _⟩
  have e := h1.1.trans h2
  refine (exHere_spec e.adv).mono ?_
  rintro _ _ _ ⟨rfl, rfl⟩
  exact ⟨w, hw, hn, e, rfl⟩

/-! ### words -/

theorem keywordOf_spec (w : Text) :
    (w, keywordOf w) ∈ keywordTable ∨ (keywordOf w = .Ident ∧ ∀ k, (w, k) ∉ keywordTable) := by
  unfold keywordOf
  generalize keywordTable = t
  induction t with
  | nil => right; simp
  | cons r rs ih =>
    obtain ⟨x, k⟩ := r
    by_cases h : w = x
    · subst h; left; simp [List.lookup]
    · have hb : (w == x) = false := by simpa using h
      simp only [List.lookup, hb]
      rcases ih with ih | ⟨ih1, ih2⟩
      · left; exact List.mem_cons_of_mem _ ih
      · right
        refine ⟨ih1, ?_⟩
        intro k' hk'
        rcases List.mem_cons.mp hk' with h' | h'
        · simp at h'; exact h h'.1
        · exact ih2 k' h'

theorem keywordOrIdent_spec (X : Xid) (pt : LPoint) :
    SpecAt (keywordOrIdent X) pt (fun q v => ∃ body, Eats pt body q ∧ TokenShape X pt.offset v body q.s) := by
  by_cases h : startsWith c!"r#" pt.s = true
  · obtain ⟨s2, hs2⟩ := startsWith_iff.mp h
    have hsplit : splitAtByte 2 pt.s = some (c!"r#", s2) := by
      rw [hs2]; exact splitAtByte_blen c!"r#" s2
    obtain ⟨a, b, h1, h2, h3⟩ := identLen_split X s2
    by_cases ha : a = []
    · refine .mk_fail (pt' := pt) (l := []) .RawIdentifierMissingIdentifier ?_ ⟨.refl _, .nil _⟩
      simp [keywordOrIdent, h, hsplit, h2, ha]
    · have h0 : blen a ≠ 0 := by have := blen_pos ha; omega
      have hl : 2 + blen a = blen (c!"r#" ++ a) := by
        rw [blen_append]; rfl
      refine SpecAt.congr (q := LP.map (splitPointAtNonZeroOffset (blen (c!"r#" ++ a)) .ExpectedIdentOrKeyword)
              fun r => Token.plain .Ident r.2) ?_ ?_
      · simp only [keywordOrIdent, h, if_true, hsplit, h2, h0, if_false, hl]
      · refine SpecAt.map ((splitPoint_spec (a := c!"r#" ++ a) (b := b) _ (by rw [hs2, h1]; simp)).mono
          fun q v _ hq => ?_)
        obtain ⟨_, he, hb, rfl⟩ := hq
        refine ⟨_, he, ?_⟩
        simp only [he.2]
        exact .rawIdent (h3 ha).1 (hb ▸ (h3 ha).2)
  · obtain ⟨a, b, h1, h2, h3⟩ := identLen_split X pt.s
    refine SpecAt.congr (q := LP.map (splitPointAtNonZeroOffset (blen a) .ExpectedIdentOrKeyword)
      fun r => Token.plain (keywordOf r.1) r.2) ?_ ?_
    · simp only [keywordOrIdent, h, h2]; rfl
    · refine SpecAt.map ((splitPoint_spec _ h1).mono fun q v _ hq => ?_)
      obtain ⟨ha, he, hb, rfl⟩ := hq
      refine ⟨_, he, ?_⟩
      simp only [he.2]
      rcases keywordOf_spec a with hk | ⟨hk1, hk2⟩
      · exact .keyword (h3 ha).1 (hb ▸ (h3 ha).2) hk
      · rw [hk1]; exact .ident (h3 ha).1 (hb ▸ (h3 ha).2) hk2

/-! ### `single_token` -/

/-- The shape of the token produced from `pt`, ending at `q`. -/
def TokPost (X : Xid) (pt q : LPoint) (v : Token) : Prop :=
  ∃ body, Eats pt body q ∧ TokenShape X pt.offset v body q.s

theorem singleTokenAlt_spec (X : Xid) (pt : LPoint) :
    ∀ p ∈ commentOrDocComment :: singleTokenAlts X, SpecAt p pt (TokPost X pt) := by
  intro p hp
  simp only [singleTokenAlts, List.mem_cons, List.mem_append, List.mem_map, List.not_mem_nil, or_false] at hp
  rcases hp with rfl | ((rfl | rfl | rfl | rfl | rfl | rfl | rfl) | ⟨r, hr, rfl⟩) | rfl | rfl | rfl
  · exact commentOrDocComment_spec X pt
  · refine SpecAt.map ((character_spec pt).mono ?_)
    rintro q _ _ ⟨b, hb, he, rfl⟩
    exact ⟨_, he, he.2 ▸ .char ⟨b, hb, rfl⟩⟩
  · refine SpecAt.map ((string_spec pt).mono ?_)
    rintro q _ _ ⟨b, hb, he, rfl⟩
    exact ⟨_, he, he.2 ▸ .str hb⟩
  · refine SpecAt.map ((stringRaw_spec pt).mono ?_)
    rintro q _ _ ⟨b, hb, he, rfl⟩
    exact ⟨_, he, he.2 ▸ .strRaw hb⟩
  · refine SpecAt.map ((prefixed_spec (P := fun b _ => CharLit b) pt ?_).mono ?_)
    · exact fun m => (character_spec m).mono fun q v _ ⟨b, hb, he, _⟩ => ⟨_, ⟨b, hb, rfl⟩, he⟩
    · rintro q _ _ ⟨b, hb, he, rfl⟩
      exact ⟨_, he, he.2 ▸ .byte hb⟩
  · refine SpecAt.map ((prefixed_spec (P := fun b _ => StrLit b) pt ?_).mono ?_)
    · exact fun m => (string_spec m).mono fun q v _ ⟨b, hb, he, _⟩ => ⟨_, hb, he⟩
    · rintro q _ _ ⟨b, hb, he, rfl⟩
      exact ⟨_, he, he.2 ▸ .byteStr hb⟩
  · refine SpecAt.map ((prefixed_spec (P := RawStrLit) pt ?_).mono ?_)
    · exact fun m => (stringRaw_spec m).mono fun q v _ ⟨b, hb, he, _⟩ => ⟨_, hb, he⟩
    · rintro q _ _ ⟨b, hb, he, rfl⟩
      exact ⟨_, he, he.2 ▸ .byteStrRaw hb⟩
  · refine SpecAt.map ((lifetime_spec X pt).mono ?_)
    rintro q _ _ ⟨w, hw, hn, he, rfl⟩
    exact ⟨_, he, he.2 ▸ .lifetime hw hn⟩
  · refine SpecAt.map ((literal_spec r.1 pt).mono ?_)
    rintro q _ _ ⟨he, rfl⟩
    exact ⟨_, he, he.2 ▸ .symbol hr⟩
  · exact keywordOrIdent_spec X pt
  · refine SpecAt.map ((number_spec X pt).mono ?_)
    rintro q n _ ⟨body, he, hn⟩
    exact ⟨_, he, .number hn⟩
  · refine SpecAt.map ((whitespace_spec pt).mono ?_)
    rintro q _ _ ⟨body, he, rfl, h1, h2, h3⟩
    exact ⟨_, he, he.2 ▸ .ws h1 h2 h3⟩

theorem singleToken_spec (X : Xid) (pt : LPoint) : SpecAt (singleToken X) pt (TokPost X pt) := by
  have h := singleTokenAlt_spec X pt
  unfold singleToken
  generalize singleTokenAlts X = ps at h ⊢
  exact SpecAt.alts (h _ List.mem_cons_self) (fun q hq => h q (List.mem_cons_of_mem _ hq))

end Verif
