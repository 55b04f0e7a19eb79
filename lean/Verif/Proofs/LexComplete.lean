import Verif.Proofs.LexMore
/-!
# Completeness of the literal alternatives of the tokenizer

If a literal of some form is present at a point, the corresponding alternative reads exactly it.
-/

namespace Verif
open Spec

attribute [local irreducible] singleToken

theorem OkAt.map {α β} {p : LP α} {f : α → β} {pt q : LPoint} (h : OkAt p pt q) : OkAt (LP.map p f) pt q :=
  OkAt.bind h (fun _ => .pure)

/-- The first character rules out an alternative that starts with a literal. -/
theorem bind_fails {α β} {p : LP α} {f : α → LP β} {pt : LPoint}
    (h : ∃ pe e le, p pt = (.fail pe e, le) ∧ e.recoverable = true) :
    ∃ pe e le, (p >>= f) pt = (.fail pe e, le) ∧ e.recoverable = true := by
  obtain ⟨pe, e, le, h, he⟩ := h
  exact ⟨pe, e, le, by simp [Bind.bind, LP.bind, h], he⟩

theorem bind_fails_snd {α β} {p : LP α} {f : α → LP β} {pt q : LPoint} (hp : OkAt p pt q)
    (h : ∀ v, ∃ pe e le, f v q = (.fail pe e, le) ∧ e.recoverable = true) :
    ∃ pe e le, (p >>= f) pt = (.fail pe e, le) ∧ e.recoverable = true := by
  obtain ⟨v, l, hp⟩ := hp
  obtain ⟨pe, e, le, h, he⟩ := h v
  exact ⟨pe, e, l ++ le, by simp [Bind.bind, LP.bind, hp, h], he⟩

theorem point_fails {β} {f : LPoint → LP β} {pt : LPoint}
    (h : ∃ pe e le, f pt pt = (.fail pe e, le) ∧ e.recoverable = true) :
    ∃ pe e le, (LP.point >>= f) pt = (.fail pe e, le) ∧ e.recoverable = true := by
  obtain ⟨pe, e, le, h, he⟩ := h
  exact ⟨pe, e, le, by simp [Bind.bind, LP.bind, LP.point, h], he⟩

/-- `p` fails recoverably at `pt`. -/
def FailsAt {α} (p : LP α) (pt : LPoint) : Prop := ∃ pe e le, p pt = (.fail pe e, le) ∧ e.recoverable = true

theorem mapTok_fails {p : LP Extent} {k : TK} {pt : LPoint} (h : FailsAt p pt) : FailsAt (mapTok p k) pt :=
  bind_fails h

theorem startsWith_head_ne {c d : Char} {w s : Text} (h : c ≠ d) : startsWith (c :: w) (d :: s) = false := by
  simp [startsWith, List.isPrefixOf, h]

theorem comment_fails {pt : LPoint} {d : Char} {s : Text} (hs : pt.s = d :: s) (hd : d ≠ '/') :
    FailsAt commentOrDocComment pt := by
  refine ⟨pt, .ExpectedComment, [], ?_, rfl⟩
  unfold commentOrDocComment
  rw [hs]
  simp [startsWith, List.isPrefixOf, Ne.symm hd]

theorem character_fails {pt : LPoint} {d : Char} {s : Text} (hs : pt.s = d :: s) (hd : d ≠ '\'') :
    FailsAt character pt :=
  point_fails (bind_fails (literal_fails (by rw [hs]; exact startsWith_head_ne (Ne.symm hd))))

theorem string_fails {pt : LPoint} {d : Char} {s : Text} (hs : pt.s = d :: s) (hd : d ≠ '"') :
    FailsAt string pt :=
  point_fails (bind_fails (literal_fails (by rw [hs]; exact startsWith_head_ne (Ne.symm hd))))

theorem stringRaw_fails {pt : LPoint} {d : Char} {s : Text} (hs : pt.s = d :: s) (hd : d ≠ 'r') :
    FailsAt stringRaw pt :=
  point_fails (bind_fails (literal_fails (by rw [hs]; exact startsWith_head_ne (Ne.symm hd))))

theorem stringCharIdx_body {b : Text} (h : StrBody b) (s : Text) :
    stringCharIdx false (b ++ '"' :: s) = blen b := by
  induction h with
  | nil => simp [stringCharIdx]
  | plain h1 h2 _ ih => simp [stringCharIdx, h1, h2, ih]
  | esc _ ih => simp [stringCharIdx, ih]

theorem okAt_string {pt q : LPoint} {b : Text} (h : Eats pt b q) (hb : StrLit b) : OkAt string pt q := by
  obtain ⟨c, hc, rfl⟩ := hb
  unfold string
  have e1 : Eats pt c!"\"" (atEnd pt c!"\"" (c ++ '"' :: q.s)) := eats_atEnd (by simp [h.1])
  have e2 := eats_atEnd (pt := atEnd pt c!"\"" (c ++ '"' :: q.s)) (a := c) (b := '"' :: q.s) rfl
  have e3 : Eats (atEnd (atEnd pt c!"\"" (c ++ '"' :: q.s)) c ('"' :: q.s)) c!"\"" q :=
    ⟨rfl, by simp [atEnd, h.2]; omega⟩
  refine .pointBind (.bind (okAt_literal e1) fun _ => .bind ?_ fun _ => .bind (okAt_literal e3) fun _ =>
    okAt_exHere h.adv)
  have := okAt_advance e2
  unfold stringChar
  have hi := stringCharIdx_body hc q.s
  unfold OkAt at this ⊢
  rw [← hi] at this
  exact this

theorem okAt_hashes (k : Nat) {pt q : LPoint} (h : Eats pt (List.replicate k '#') q)
    (hq : ∀ r, q.s ≠ '#' :: r) (n : Nat) (hn : k < n) :
    ∃ v l, LP.zeroOrMoreF (literal c!"#") n pt = (.ok q v, l) ∧ v.length = k := by
  induction k generalizing pt n with
  | zero =>
    obtain ⟨m, rfl⟩ : ∃ m, n = m + 1 := ⟨n - 1, by omega⟩
    have hpq : pt = q := by
      obtain ⟨h1, h2⟩ := h
      cases pt; cases q; simp at h1 h2; simp [h1, h2]
    subst hpq
    have hf : startsWith c!"#" pt.s = false := by
      cases hs : pt.s with
      | nil => rfl
      | cons d s =>
        exact startsWith_head_ne (by rintro rfl; exact hq _ hs)
    refine ⟨[], [(pt, .Literal c!"#")], ?_, rfl⟩
    simp [LP.zeroOrMoreF, literal_fail hf, LErr.recoverable]
  | succ k ih =>
    obtain ⟨m, rfl⟩ : ∃ m, n = m + 1 := ⟨n - 1, by omega⟩
    have e1 : Eats pt c!"#" (atEnd pt c!"#" (List.replicate k '#' ++ q.s)) :=
      eats_atEnd (by simp [h.1, List.replicate_succ])
    have e2 : Eats (atEnd pt c!"#" (List.replicate k '#' ++ q.s)) (List.replicate k '#') q :=
      ⟨rfl, by have := h.2; simp [atEnd, List.replicate_succ] at this ⊢; omega⟩
    obtain ⟨v0, l0, h0⟩ := okAt_literal e1
    obtain ⟨v, l, h1, h2⟩ := ih e2 m (by omega)
    exact ⟨v0 :: v, l0 ++ l, by simp [LP.zeroOrMoreF, h0, h1], by simp [h2]⟩

theorem firstOcc_unique {pat s a b : Text} (h1 : FirstOcc pat s a) (h2 : FirstOcc pat s b) : a = b := by
  obtain ⟨⟨x, hx⟩, ha⟩ := h1
  obtain ⟨⟨y, hy⟩, hb⟩ := h2
  have l1 := ha b y hy
  have l2 := hb a x hx
  have hl : a.length = b.length := by omega
  have : s.take a.length = s.take b.length := by rw [hl]
  rw [hx] at this
  have e : a ++ pat ++ x = b ++ pat ++ y := hx ▸ hy
  rw [List.append_assoc, List.append_assoc] at e
  exact (List.append_inj e hl).1

theorem okAt_stringRaw {pt q : LPoint} {b : Text} (h : Eats pt b q) (hb : RawStrLit b q.s) : OkAt stringRaw pt q := by
  obtain ⟨n, content, rfl, hf⟩ := hb
  unfold stringRaw
  let m1 := atEnd pt c!"r" (List.replicate n '#' ++ ('"' :: (content ++ rawClose n ++ q.s)))
  let m2 := atEnd m1 (List.replicate n '#') ('"' :: (content ++ rawClose n ++ q.s))
  let m3 := atEnd m2 c!"\"" (content ++ rawClose n ++ q.s)
  have e1 : Eats pt c!"r" m1 := eats_atEnd (by simp [h.1])
  have e2 : Eats m1 (List.replicate n '#') m2 := eats_atEnd rfl
  have e3 : Eats m2 c!"\"" m3 := eats_atEnd rfl
  have e4 : Eats m3 (content ++ rawClose n) q := ⟨rfl, by have := h.2; simp [m3, m2, m1, atEnd] at this ⊢; omega⟩
  refine .pointBind (.bind (okAt_literal e1) fun _ => ?_)
  obtain ⟨v, l, hv, hl⟩ := okAt_hashes n e2 (by simp [m2, atEnd]) (m1.s.length + 1) (by simp [m1, atEnd]; omega)
  have key : OkAt (rawStringTail n) m3 q := by
    have hfs : findStr (rawClose n) m3.s = some (blen content) := by
      cases hx : findStr (rawClose n) m3.s with
      | some x =>
        obtain ⟨a, ha, hb⟩ := findStr_some hx (by simp [rawClose])
        rw [← hb, firstOcc_unique ha hf]
      | none => exact absurd (by simp [m3, atEnd]) (findStr_none hx content q.s)
    have s1 : splitAtByte (blen content) m3.s = some (content, rawClose n ++ q.s) := by
      rw [e4.1, List.append_assoc]; exact splitAtByte_blen _ _
    have s2 : splitAtByte (blen (rawClose n)) (rawClose n ++ q.s) = some (rawClose n, q.s) := splitAtByte_blen _ _
    have hq : q = ⟨q.s, m3.offset + blen content + blen (rawClose n)⟩ := by
      have := e4.2
      cases q; simp at this ⊢; omega
    refine ⟨content, [], ?_⟩
    unfold rawStringTail
    simp only [rawClose] at hfs s1 s2 hq
    simp only [hfs, s1, s2]
    rw [← hq]
  obtain ⟨v2, l2, h2⟩ : OkAt (do let _ ← literal c!"\""
                                 let _ ← rawStringTail v.length
                                 exHere pt : LP Extent) m2 q := by
    rw [hl]
    exact .bind (okAt_literal e3) fun _ => .bind key fun _ => okAt_exHere h.adv
  exact ⟨v2, l ++ l2, by simp only [Bind.bind, LP.bind, LP.zeroOrMore] at h2 ⊢; rw [hv]; simp only [h2]⟩

theorem okAt_prefixed {p : LP Extent} {pt m q : LPoint} (h1 : Eats pt c!"b" m) (h2 : OkAt p m q) (h3 : Adv pt q) :
    OkAt (do let spt ← LP.point
             let _ ← literal c!"b"
             let _ ← p
             exHere spt : LP Extent) pt q :=
  .pointBind (.bind (okAt_literal h1) fun _ => .bind h2 fun _ => okAt_exHere h3)

theorem prefixed_fails {p : LP Extent} {pt m : LPoint} (h1 : Eats pt c!"b" m) (h2 : FailsAt p m) :
    FailsAt (do let spt ← LP.point
                let _ ← literal c!"b"
                let _ ← p
                exHere spt : LP Extent) pt :=
  point_fails (bind_fails_snd (okAt_literal h1) fun _ => bind_fails h2)

/-- A comment opener makes the comment alternative succeed. -/
theorem comment_ok {pt : LPoint} {k : TK} (h : commentKind pt.s = some k) : ∃ q e l,
    commentOrDocComment pt = (.ok q (.plain k e), l) := by
  have tail : ∀ (k : TK) (a b : Text), pt.s = a ++ b → ∃ q e l,
      (do let _ ← advance (blen a)
          let e ← exHere pt
          LP.pure (Token.plain k e) : LP Token) pt = (.ok q (.plain k e), l) := by
    intro k a b hs
    have e1 := eats_atEnd hs
    obtain ⟨v, l, h⟩ := okAt_advance e1
    obtain ⟨v', l', h'⟩ := okAt_exHere e1.adv
    exact ⟨atEnd pt a b, v', l ++ (l' ++ []), by simp [Bind.bind, LP.bind, h, h', LP.pure]⟩
  have line : ∀ k : TK, ∃ q e l, lineComment k pt = (.ok q (.plain k e), l) := by
    intro k
    obtain ⟨a, b, h1, h2, _, _⟩ := findChar_split '\n' pt.s
    have := tail k a b h1
    unfold lineComment
    simp only [h2]
    exact this
  have block : ∀ (k : TK) (op : Text), startsWith op pt.s = true →
      ∃ q e l, blockComment k (blen op) pt = (.ok q (.plain k e), l) := by
    intro k op hop
    obtain ⟨rest, hr⟩ := startsWith_iff.mp hop
    rcases SpecAt.cases (blockComment_spec k hr) with ⟨q, v, l, h1, _, ⟨body, _, rfl, _⟩, _⟩ | ⟨q, e, l, h1, _, _⟩
    · exact ⟨q, _, l, h1⟩
    · exfalso
      unfold blockComment at h1
      rw [hr, splitAtByte_blen] at h1
      simp only [Bind.bind, LP.bind, LP.pure, advance, exHere] at h1
      split at h1
      · rename_i h2
        split at h2 <;> simp at h2
        split at h1
        · rename_i h3
          split at h3 <;> simp at h3
          simp at h1
        all_goals first | simp at h1 | skip
        rename_i h3
        split at h3 <;> simp at h3
      · rename_i h2
        split at h2 <;> simp at h2
      · simp at h1
      · simp at h1
  rw [commentKind_cases] at h
  unfold commentOrDocComment
  split at h
  · cases h; rename_i hc; rw [if_pos hc]; exact line _
  rename_i h1
  rw [if_neg h1]
  split at h
  · cases h; rename_i hc; rw [if_pos hc]; exact line _
  rename_i h2
  rw [if_neg h2]
  split at h
  · cases h; rename_i hc; rw [if_pos hc]; exact line _
  rename_i h3
  rw [if_neg h3]
  split at h
  · cases h; rename_i hc; rw [if_pos hc]
    exact block _ c!"/**" (by simp only [Bool.and_eq_true] at hc; exact hc.1.1)
  rename_i h4
  rw [if_neg h4]
  split at h
  · cases h; rename_i hc; rw [if_pos hc]; exact block _ c!"/*!" hc
  rename_i h5
  rw [if_neg h5]
  split at h
  · cases h; rename_i hc; rw [if_pos hc]; exact block _ c!"/*" hc
  · cases h

/-- What `single_token` yields when the alternative number `before.length` succeeds. -/
theorem singleToken_alt {X : Xid} {pt q : LPoint} {before after : List (LP Token)} {p : LP Extent} {k : TK}
    (heq : commentOrDocComment :: singleTokenAlts X = before ++ mapTok p k :: after) (hp : OkAt p pt q)
    (hb : ∀ r ∈ before, FailsAt r pt) : ∃ l, singleToken X pt = (.ok q (.plain k ⟨pt.offset, q.offset⟩), l) := by
  obtain ⟨v, l, hv⟩ := hp
  have h1 : mapTok p k pt = (.ok q (.plain k v), l) := by simp [mapTok, LP.map, LP.bind, hv, LP.pure]
  have hspec := singleTokenAlt_spec X pt (mapTok p k) (by rw [heq]; simp)
  obtain ⟨_, ⟨body, he, hs⟩, _⟩ := hspec.of_ok h1
  have hx := TokenShape.extent hs
  simp only [Token.extent] at hx
  unfold singleToken
  generalize singleTokenAlts X = ps at heq
  obtain ⟨l', h⟩ := alts_first_ok heq h1 hb
  exact ⟨l', by rw [h, hx, he.2]⟩

end Verif
