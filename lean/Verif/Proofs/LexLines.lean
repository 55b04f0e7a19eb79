import Verif.Proofs.LexSpelling
import Verif.Spec.Shape
/-!
# A token may be followed by a new line
-/

namespace Verif
open Spec

attribute [local irreducible] singleToken

/-! ### texts without new lines -/

theorem prefix_newline {p a t : Text} (h : '\n' ∉ p) : p <+: a ++ '\n' :: t ↔ p <+: a := by
  constructor
  · rintro ⟨r, hr⟩
    rcases List.append_eq_append_iff.mp hr with ⟨x, h1, _⟩ | ⟨x, h1, h2⟩
    · exact ⟨x, h1.symm⟩
    · cases x with
      | nil => simp at h1; rw [h1]; exact List.prefix_refl _
      | cons c x =>
        simp at h2
        exact absurd (by rw [h1, ← h2.1]; simp) h
  · exact fun h => h.trans (List.prefix_append _ _)

theorem isPrefixOf_newline {p a t : Text} (h : '\n' ∉ p) : p.isPrefixOf (a ++ '\n' :: t) = p.isPrefixOf a := by
  rw [Bool.eq_iff_iff, List.isPrefixOf_iff_prefix, List.isPrefixOf_iff_prefix]
  exact prefix_newline h

theorem commentKind_newline (a t : Text) : commentKind (a ++ '\n' :: t) = commentKind a := by
  unfold commentKind
  simp only [isPrefixOf_newline (p := c!"//") (by decide), isPrefixOf_newline (p := c!"///") (by decide),
    isPrefixOf_newline (p := c!"////") (by decide), isPrefixOf_newline (p := c!"//!") (by decide),
    isPrefixOf_newline (p := c!"/*") (by decide), isPrefixOf_newline (p := c!"/**") (by decide),
    isPrefixOf_newline (p := c!"/***") (by decide), isPrefixOf_newline (p := c!"/**/") (by decide),
    isPrefixOf_newline (p := c!"/*!") (by decide)]

/-! ### first occurrences -/

theorem firstOcc_post {pat a b c : Text} (h : FirstOcc pat (a ++ pat ++ b) a) : FirstOcc pat (a ++ pat ++ c) a := by
  refine ⟨⟨c, rfl⟩, fun a' b' e => ?_⟩
  apply Classical.byContradiction
  intro hl
  have hl : a'.length < a.length := by omega
  have h1 : a' ++ pat <+: a ++ pat :=
    List.prefix_of_prefix_length_le (l₃ := a ++ pat ++ c) ⟨b', by rw [e]⟩ ⟨c, rfl⟩ (by simp; omega)
  obtain ⟨r, hr⟩ := h1
  have := h.2 a' (r ++ b) (by rw [← hr]; simp)
  omega

theorem rawStr_post {a b c : Text} (h : RawStrLit a b) : RawStrLit a c := by
  obtain ⟨n, content, rfl, h⟩ := h
  exact ⟨n, content, rfl, firstOcc_post h⟩

/-! ### numbers -/

theorem newline_digit (b : NumBase) : ¬ DigitOr_ b '\n' := by
  rintro (h | h)
  · cases b <;> revert h <;> decide
  · revert h; decide

theorem startsIn_append {P : Char → Prop} {a b : Text} : StartsIn P (a ++ b) ↔ (StartsIn P a ∨ (a = [] ∧ StartsIn P b)) := by
  cases a with
  | nil => simp [StartsIn]
  | cons c a => simp [StartsIn]

theorem startsIn_cons {P : Char → Prop} {c : Char} {a : Text} : StartsIn P (c :: a) ↔ P c := by simp [StartsIn]

theorem numText_newline {X : Xid} (hX : Sane X) {p : NumParts} {post : Text} (h : NumText X p post) (post' : Text) : NumText X p ('\n' :: post') := by
  have hw : ¬ WordStart X '\n' := ws_not_start hX (by decide)
  have hc : X.cont '\n' = false := (hX.ws _ (by decide)).2
  have dig : ∀ (b : NumBase) (a : Text), ¬ StartsIn (DigitOr_ b) (a ++ post) → ¬ StartsIn (DigitOr_ b) (a ++ '\n' :: post') := by
    intro b a h
    rw [startsIn_append, startsIn_cons] at *
    rintro (h' | ⟨_, h'⟩)
    · exact h (.inl h')
    · exact newline_digit b h'
  constructor
  · exact h.ne
  · exact h.digits
  · exact dig _ _ h.longest
  · intro hb b hb' t e hd
    obtain ⟨d, t', rfl, hd⟩ := hd
    have e1 : basePrefix b ++ [d] <+: p.text ++ '\n' :: post' := ⟨t', by rw [e]; simp⟩
    have hn : '\n' ∉ basePrefix b ++ [d] := by
      simp only [List.mem_append, List.mem_singleton, not_or]
      refine ⟨by cases b <;> decide, ?_⟩
      rintro rfl
      exact newline_digit b hd
    obtain ⟨r, hr⟩ := (prefix_newline hn).mp e1
    exact h.decimal hb b hb' (d :: (r ++ post)) (by rw [← hr]; simp) ⟨d, _, rfl, hd⟩
  · intro ds hds
    obtain ⟨h1, h2, h3, h4⟩ := h.frac ds hds
    refine ⟨h1, dig _ _ h2, ?_, ?_⟩
    · rw [← List.append_assoc] at h3 ⊢
      rw [startsIn_append, startsIn_cons] at *
      rintro (h' | ⟨_, h'⟩)
      · exact h3 (.inl h')
      · revert h'; decide
    · rw [← List.append_assoc] at h4 ⊢
      rw [startsIn_append, startsIn_cons] at *
      rintro (h' | ⟨_, h'⟩)
      · exact h4 (.inl h')
      · exact hw h'
  · intro hf t e
    have hn := h.noFrac hf
    cases hr : p.expText ++ p.sufText with
    | nil => rw [hr] at e; simp at e
    | cons c cs =>
      exfalso
      rw [hr] at e
      simp at e
      have hd : c ≠ '.' := by
        cases he : p.exp with
        | some r =>
          obtain ⟨m, ds⟩ := r
          have := (h.exp m ds he).1
          simp only [NumParts.expText, he, Option.elim, List.cons_append, List.cons.injEq] at hr
          rw [← hr.1]
          rcases this with rfl | rfl <;> decide
        | none =>
          cases hs : p.suf with
          | none => simp [NumParts.expText, NumParts.sufText, he, hs] at hr
          | some w =>
            obtain ⟨x, xs, rfl, hx, -⟩ := (h.suf w hs).1
            simp [NumParts.expText, NumParts.sufText, he, hs] at hr
            rw [← hr.1]
            rintro rfl
            exact not_start hX '.' (by decide) hx
      exact hd e.1
  · intro m ds he
    obtain ⟨h1, h2, h3, h4⟩ := h.exp m ds he
    exact ⟨h1, h2, h3, dig _ _ h4⟩
  · intro he m t e hm
    have hn := h.noExp he
    cases hs : p.sufText with
    | nil =>
      rw [hs] at e
      simp at e
      rcases hm with rfl | rfl <;> simp at e
    | cons c cs =>
      rw [hs] at hn e
      simp at e
      obtain ⟨rfl, rfl⟩ := e
      exact dig _ _ (hn c (cs ++ post) rfl hm)
  · intro w hs
    refine ⟨(h.suf w hs).1, ?_⟩
    rintro d t ⟨⟩
    exact hc
  · intro _
    rw [startsIn_cons]
    exact hw

/-! ### all tokens -/

theorem sameKind_number (p : NumParts) (o o' : Nat) : SameKind (.number (p.number o)) (.number (p.number o')) := by
  simp [SameKind, NumParts.number]

theorem commentKind_long {a : Text} (h : 4 ≤ a.length) (b c : Text) : commentKind (a ++ b) = commentKind (a ++ c) := by
  match a, h with
  | x :: y :: z :: w :: r, _ => simp [commentKind, List.isPrefixOf]

/-- After a token there may as well be a new line.  The exception is a comment that is not closed: it takes the new line in. -/
theorem respell {X : Xid} (hX : Sane X) {o : Nat} {t : Token} {body post : Text} (h : Spelling X o t body post)
    (ht : t.kind? ≠ some .Whitespace) (o' : Nat) (post' : Text) :
    (∃ t', Spelling X o' t' body ('\n' :: post') ∧ SameKind t t') ∨
      (post = [] ∧ ∃ t', Spelling X o' t' (body ++ c!"\n") [] ∧ SameKind t t') := by
  have hnc : NoCont X ('\n' :: post') := by
    rintro d t ⟨⟩
    exact (hX.ws _ (by decide)).2
  cases h with
  | @ident w _ hw hk hp hl hr =>
    refine .inl ⟨_, .ident hw hk hnc ?_ ?_, rfl⟩
    · obtain ⟨c, cs, rfl, hc, hcs⟩ := hw
      have no : ∀ d ∈ cs, d ∉ c!"'\"#" := fun d hd hm => by
        have := hcs d hd
        rw [not_cont hX d hm] at this
        cases this
      intro hl
      rcases literalAt_cases hl with ⟨d, t, e, hd⟩ | ⟨d, t, e, hd⟩ | ⟨d, t, e, hd⟩
      · cases cs with
        | nil => simp at e; obtain ⟨_, rfl, _⟩ := e; revert hd; decide
        | cons x xs => simp at e; exact no x (by simp) (by rw [e.2.1]; rcases hd with rfl | rfl <;> decide)
      · cases cs with
        | nil => simp at e; obtain ⟨_, rfl, _⟩ := e; revert hd; decide
        | cons x xs => simp at e; exact no x (by simp) (by rw [e.2.1]; rcases hd with rfl | rfl <;> decide)
      · cases cs with
        | nil => simp at e
        | cons x xs =>
          cases xs with
          | nil => simp at e; obtain ⟨_, _, rfl, _⟩ := e; revert hd; decide
          | cons y ys => simp at e; exact no y (by simp) (by rw [e.2.2.1]; rcases hd with rfl | rfl <;> decide)
    · rw [prefix_newline (by decide)]
      exact fun h => hr (h.trans (List.prefix_append _ _))
  | keyword hk hp => exact .inl ⟨_, .keyword hk hnc, rfl⟩
  | rawIdent hw hp => exact .inl ⟨_, .rawIdent hw hnc, rfl⟩
  | @symbol k w _ hk hlong hc =>
    refine .inl ⟨_, .symbol hk (fun k' w' hk' hp => ?_) ?_, rfl⟩
    · have key : ∀ r ∈ symbolTable, '\n' ∉ r.1 := by decide
      exact ((prefix_newline (key _ (symbolText_table k' w' hk'))).mp hp).length_le
    · rw [commentKind_newline]
      have key : ∀ r ∈ symbolTable, commentKind r.1 = none := by decide
      exact key _ (symbolText_table k _ hk)
  | char hb => exact .inl ⟨_, .char hb, rfl⟩
  | str hb => exact .inl ⟨_, .str hb, rfl⟩
  | strRaw hb => exact .inl ⟨_, .strRaw (rawStr_post hb), rfl⟩
  | byte hb => exact .inl ⟨_, .byte hb, rfl⟩
  | byteStr hb => exact .inl ⟨_, .byteStr hb, rfl⟩
  | byteStrRaw hb => exact .inl ⟨_, .byteStrRaw (rawStr_post hb), rfl⟩
  | lifetime hw hp hq =>
    refine .inl ⟨_, .lifetime hw hnc ?_, rfl⟩
    rw [startsIn_cons]
    rintro ⟨_, h⟩
    revert h; decide
  | number hn hu => exact .inl ⟨_, .number (numText_newline hX hn post') hu, sameKind_number ..⟩
  | line hk hc hl =>
    refine .inl ⟨_, .line hk ?_ ⟨hl.1, by rintro d t ⟨⟩; rfl⟩, rfl⟩
    rw [commentKind_newline]
    cases post with
    | nil => simpa using hc
    | cons d s => rw [hl.2 d s rfl, commentKind_newline] at hc; exact hc
  | @block k op _ _ hk hc hb =>
    rcases hb with ⟨inner, rfl, hf⟩ | ⟨inner, rfl, hn, rfl⟩
    · refine .inl ⟨_, .block hk ?_ (.inl ⟨inner, rfl, firstOcc_post hf⟩), rfl⟩
      rw [commentKind_long _ _ post]
      · exact hc
      · have : 2 ≤ op.length := by cases k <;> simp [blockOpener] at hk <;> subst hk <;> decide
        simp; omega
    · refine .inr ⟨rfl, _, .block hk ?_ (.inr ⟨inner ++ c!"\n", by simp, ?_, rfl⟩), rfl⟩
      · rw [List.append_nil, show c!"\n" = '\n' :: ([] : Text) from rfl, commentKind_newline]
        simpa using hc
      · intro a b e
        rcases List.eq_nil_or_concat b with rfl | ⟨b', x, rfl⟩
        · have := congrArg List.getLast? e
          simp at this
        · have e2 : inner ++ c!"\n" = (a ++ c!"*/" ++ b') ++ [x] := by rw [e]; simp
          exact hn a b' (List.append_inj_left' e2 rfl)
  | ws => exact absurd rfl ht

/-- Only white space starts with white space. -/
theorem spelling_head {X : Xid} (hX : Sane X) {o : Nat} {t : Token} {body post : Text} (h : Spelling X o t body post)
    (ht : t.kind? ≠ some .Whitespace) : ¬ StartsIn (· ∈ wsChars) body := by
  rintro ⟨d, s, rfl, hd⟩
  have key : ∀ c, isWs c = true ↔ c ∈ wsChars := fun c => by simp [isWs, wsChars, or_assoc]
  have e := takeWhile_split isWs (d :: s ++ post)
  have hw : Spelling X o (.plain .Whitespace ⟨o, o + blen ((d :: s ++ post).takeWhile isWs)⟩)
      ((d :: s ++ post).takeWhile isWs) ((d :: s ++ post).dropWhile isWs) := by
    refine .ws ?_ (fun c hc => (key c).mp (takeWhile_all c hc)) ?_
    · simp [(key d).mpr hd]
    · rintro ⟨d, r, hd, hw⟩
      have := dropWhile_head hd
      rw [(key d).mpr hw] at this
      cases this
  obtain ⟨l1, h1⟩ := spelling_read hX h
  obtain ⟨l2, h2⟩ := spelling_read hX hw
  rw [← e, h1] at h2
  simp only [Prod.mk.injEq, LRes.ok.injEq] at h2
  exact ht (by rw [h2.1.2]; rfl)

theorem spelling_ext {X : Xid} (hX : Sane X) {o : Nat} {t : Token} {body post : Text} (h : Spelling X o t body post) :
    body ≠ [] ∧ t.extent = ⟨o, o + blen body⟩ ∧ t.kind? ≠ some .EndOfFile := by
  obtain ⟨l, hg⟩ := spelling_read hX h
  obtain ⟨_, ⟨b, he, hb⟩, _⟩ := (singleToken_spec X _).of_ok hg
  have e := List.append_cancel_right he.1
  subst e
  refine ⟨TokenShape.ne_nil hb, TokenShape.extent hb, ?_⟩
  cases h with
  | keyword hk => rintro ⟨⟩; cases hk
  | symbol hk => rintro ⟨⟩; cases hk
  | line hk => rintro ⟨⟩; rcases hk with h | h | h <;> cases h
  | block hk => rintro ⟨⟩; cases hk
  | number => intro h; cases h
  | _ => intro h; cases h

/-- The tokens that matter, one per line, are read as before. -/
theorem lines_spelled {X : Xid} (hX : Sane X) {o : Nat} {ts : List Token} {s : Text} (h : Spelled X o ts s) :
    ∀ (pre : Text), o = blen pre → ∀ o', ∃ text ts', OnePerLine (pre ++ s) (ts.filter fun t => !isTrivia t) text ∧ Spelled X o' ts' text ∧
      SameKinds (ts.filter fun t => !isTrivia t) (ts'.filter fun t => !isTrivia t) ∧ ¬ StartsIn (· ∈ wsChars) text := by
  induction h with
  | @done o =>
    intro pre ho o'
    refine ⟨[], _, .done, .done, ?_, by simp [StartsIn]⟩
    exact .cons rfl .nil
  | @token o t body post ts hs hts ih =>
    intro pre ho o'
    have e : pre ++ (body ++ post) = (pre ++ body) ++ post := by simp
    obtain ⟨hne, hext, -⟩ := spelling_ext hX hs
    by_cases ht : isTrivia t = true
    · have hf : (t :: ts).filter (fun t => !isTrivia t) = ts.filter (fun t => !isTrivia t) := by simp [ht]
      rw [hf, e]
      exact ih (pre ++ body) (by simp [ho]) o'
    · have hf : (t :: ts).filter (fun t => !isTrivia t) = t :: ts.filter (fun t => !isTrivia t) := by simp [ht]
      rw [hf]
      have hk : t.kind? ≠ some .Whitespace := fun hk => ht (by simp [isTrivia, hk])
      have same : ∀ {t'}, SameKind t t' → isTrivia t' = false := by
        intro t' hst
        cases t with
        | plain k e =>
          cases t' with
          | plain k' e' => cases hst; simpa [isTrivia, Token.kind?] using ht
          | number n => cases hst
        | number n =>
          cases t' with
          | plain k' e' => cases hst
          | number m => rfl
      have hsl : sliceText (pre ++ (body ++ post)) t.extent = some body := by
        rw [hext, ho]; exact sliceText_append pre body post
      have hhead : ∀ text : Text, ¬ StartsIn (· ∈ wsChars) (body ++ text) := by
        intro text h
        rcases startsIn_append.mp h with h | ⟨h, _⟩
        · exact spelling_head hX hs hk h
        · exact hne h
      obtain ⟨text, ts', h1, h2, h3, h4⟩ := ih (pre ++ body) (by simp [ho]) (o' + blen body + blen c!"\n")
      rw [← e] at h1
      rcases respell hX hs hk o' text with ⟨t', hs', hst⟩ | ⟨rfl, t', hs', hst⟩
      · refine ⟨body ++ '\n' :: text, t' :: .plain .Whitespace ⟨o' + blen body, o' + blen body + blen c!"\n"⟩ :: ts', .line hsl h1, ?_, ?_, hhead _⟩
        · refine .token hs' ?_
          exact Spelled.token (body := c!"\n") (.ws (by simp) (by decide) h4) h2
        · have : (t' :: .plain .Whitespace ⟨o' + blen body, o' + blen body + blen c!"\n"⟩ :: ts').filter (fun t => !isTrivia t) =
              t' :: ts'.filter (fun t => !isTrivia t) := by
            have hw : isTrivia (.plain .Whitespace ⟨o' + blen body, o' + blen body + blen c!"\n"⟩) = true := rfl
            rw [List.filter_cons, List.filter_cons, hw, same hst]
            rfl
          rw [this]
          exact .cons hst h3
      · generalize hpost : ([] : Text) = post at hts
        cases hts with
        | done =>
          refine ⟨body ++ '\n' :: [], [t', .plain .EndOfFile ⟨o' + blen (body ++ c!"\n"), o' + blen (body ++ c!"\n")⟩], .line hsl .done, ?_, ?_, hhead _⟩
          · have := Spelled.token hs' .done
            simpa using this
          · have : [t', .plain .EndOfFile ⟨o' + blen (body ++ c!"\n"), o' + blen (body ++ c!"\n")⟩].filter (fun t => !isTrivia t) =
                t' :: [.plain .EndOfFile ⟨o' + blen (body ++ c!"\n"), o' + blen (body ++ c!"\n")⟩] := by
              rw [List.filter_cons, same hst]
              rfl
            rw [this]
            exact .cons hst (.cons rfl .nil)
        | @token _ t2 b2 p2 ts2 hs2 _ =>
          exact absurd (List.append_eq_nil_iff.mp hpost.symm).1 (spelling_ext hX hs2).1

end Verif
