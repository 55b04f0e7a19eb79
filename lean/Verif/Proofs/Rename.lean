import Verif.Proofs.ExcerptLex
/-!
# The tokens before a word do not depend on which word it is
-/

namespace Verif
open Spec

attribute [local irreducible] singleToken

/-- A character that does not occur in `p` ends what `p` can be a prefix of. -/
theorem prefix_stop {p a t : Text} {c : Char} (h : c ∉ p) : p <+: a ++ c :: t ↔ p <+: a := by
  constructor
  · rintro ⟨r, hr⟩
    rcases List.append_eq_append_iff.mp hr with ⟨x, h1, _⟩ | ⟨x, h1, h2⟩
    · exact ⟨x, h1.symm⟩
    · cases x with
      | nil => simp at h1; rw [h1]; exact List.prefix_refl _
      | cons d x =>
        simp at h2
        exact absurd (by rw [h1, ← h2.1]; simp) h
  · exact fun h => h.trans (List.prefix_append _ _)

theorem commentKind_stop {c : Char} (hc : c ∉ c!"/*!") (a t : Text) : commentKind (a ++ c :: t) = commentKind a := by
  have key : ∀ {p : Text}, (∀ d ∈ p, d ∈ c!"/*!") → p.isPrefixOf (a ++ c :: t) = p.isPrefixOf a := by
    intro p hp
    rw [Bool.eq_iff_iff, List.isPrefixOf_iff_prefix, List.isPrefixOf_iff_prefix]
    exact prefix_stop fun h => hc (hp c h)
  unfold commentKind
  simp only [key (p := c!"//") (by decide), key (p := c!"///") (by decide), key (p := c!"////") (by decide),
    key (p := c!"//!") (by decide), key (p := c!"/*") (by decide), key (p := c!"/**") (by decide),
    key (p := c!"/***") (by decide), key (p := c!"/**/") (by decide), key (p := c!"/*!") (by decide)]

theorem startsIn_swap {P : Char → Prop} (a : Text) (x : Char) (s t : Text) : StartsIn P (a ++ x :: s) ↔ StartsIn P (a ++ x :: t) := by
  cases a <;> simp [StartsIn]

/-- What occurs has a first occurrence. -/
theorem firstOcc_exists {pat s : Text} : ∀ (n : Nat) (a b : Text), a.length ≤ n → s = a ++ pat ++ b → ∃ a' b', s = a' ++ pat ++ b' ∧ FirstOcc pat s a' := by
  intro n
  induction n with
  | zero =>
    intro a b hn e
    exact ⟨a, b, e, ⟨b, e⟩, fun a' b' _ => by omega⟩
  | succ n ih =>
    intro a b hn e
    by_cases h : ∃ a' b', s = a' ++ pat ++ b' ∧ a'.length < a.length
    · obtain ⟨a', b', e', hl⟩ := h
      exact ih a' b' (by omega) e'
    · refine ⟨a, b, e, ⟨b, e⟩, fun a' b' e' => ?_⟩
      apply Classical.byContradiction
      intro hl
      exact h ⟨a', b', e', by omega⟩

/-- What occurs in a text with the word `w'` in it, and has no character in common with it, occurs in the text with any other word there. -/
theorem occurs_swap {pat x w w' b u v : Text} (hp : pat ≠ []) (hw' : w' ≠ []) (hd : ∀ c ∈ w', c ∉ pat) (h : x ++ (w' ++ b) = u ++ pat ++ v) :
    ∃ u v, x ++ (w ++ b) = u ++ pat ++ v := by
  rw [List.append_assoc] at h
  rcases List.append_eq_append_iff.mp h with ⟨y, h1, h2⟩ | ⟨y, h1, h2⟩
  · -- it does not start before the word
    rcases List.append_eq_append_iff.mp h2 with ⟨z, h3, h4⟩ | ⟨z, h3, h4⟩
    · exact ⟨x ++ w ++ z, v, by rw [h4]; simp⟩
    · cases z with
      | nil => exact ⟨x ++ w, v, by simp at h4; simp [h4]⟩
      | cons c z =>
        cases pat with
        | nil => exact absurd rfl hp
        | cons d pat =>
          simp at h4
          exact absurd (by rw [h4.1]; simp) (hd c (by rw [h3]; simp))
  · -- it starts before the word
    rcases List.append_eq_append_iff.mp h2 with ⟨z, h3, h4⟩ | ⟨z, h3, h4⟩
    · exact ⟨u, z ++ (w ++ b), by rw [h1, h3]; simp⟩
    · cases z with
      | nil => exact ⟨u, w ++ b, by simp at h3; rw [h1, h3]⟩
      | cons c z =>
        cases w' with
        | nil => exact absurd rfl hw'
        | cons d w' =>
          simp at h4
          exact absurd (by rw [h3]; simp [h4.1]) (hd d (by simp))

theorem numText_swap {X : Xid} (hX : Sane X) (hS : ∀ c, X.start c = true → X.cont c = true) {p : NumParts} {c c' : Char} {P r r' : Text}
    (hc : WordStart X c) (hc' : WordStart X c') (h : NumText X p (P ++ c :: r)) : NumText X p (P ++ c' :: r') := by
  have cont : X.cont c = true := by
    rcases hc with hc | rfl
    · exact hS c hc
    · rw [hX.cont '_' (by decide)]; decide
  have suf_ne : ∀ {w}, p.suf = some w → p.sufText ≠ [] := by
    intro w hw
    obtain ⟨⟨d, ds, rfl, -⟩, -⟩ := h.suf w hw
    simp [NumParts.sufText, hw]
  cases P with
  | nil =>
    exfalso
    cases hs : p.suf with
    | none => exact h.noSuf hs ⟨c, r, rfl, hc⟩
    | some w => have := (h.suf w hs).2 c r rfl; rw [cont] at this; cases this
  | cons x P =>
    rw [List.cons_append] at h ⊢
    have sw : ∀ {Q : Char → Prop} (a : Text), ¬ StartsIn Q (a ++ x :: (P ++ c :: r)) → ¬ StartsIn Q (a ++ x :: (P ++ c' :: r')) :=
      fun a h h' => h ((startsIn_swap a x _ _).mp h')
    have sufx : WordStart X x → ∃ w, p.suf = some w := by
      intro hx
      cases hs : p.suf with
      | none => exact absurd ⟨x, _, rfl, hx⟩ (h.noSuf hs)
      | some w => exact ⟨w, rfl⟩
    constructor
    · exact h.ne
    · exact h.digits
    · exact sw _ h.longest
    · intro hb b hb' t e hd
      have hp2 : 2 ≤ p.text.length := by
        apply Classical.byContradiction
        intro hl
        have hi : 1 ≤ p.ints.length := List.length_pos_iff.mpr h.ne
        have hs : p.sufText = [] := by
          apply List.length_eq_zero_iff.mp
          simp only [NumParts.text, List.length_append] at hl
          omega
        cases ht : p.text with
        | nil => simp [NumParts.text, h.ne] at ht
        | cons d ds =>
          cases ds with
          | cons => rw [ht] at hl; simp at hl
          | nil =>
            rw [ht] at e
            have hx : x ∈ c!"box" := by
              cases b <;> simp [basePrefix] at e hb' ⊢ <;> simp [e]
            have hx' : WordStart X x := by
              left
              have key : ∀ x ∈ c!"box", x.toNat < 128 ∧ x.isAlpha = true := by decide
              rw [hX.start x (key x hx).1, (key x hx).2]
            obtain ⟨w, hw⟩ := sufx hx'
            exact suf_ne hw hs
      match ht : p.text, hp2 with
      | y :: z :: zs, _ =>
        rw [ht] at e
        have hlen : ∃ y z, basePrefix b = [y, z] := by
          cases b with
          | Decimal => exact absurd rfl hb'
          | _ => exact ⟨_, _, rfl⟩
        obtain ⟨y', z', hbp⟩ := hlen
        rw [hbp] at e
        simp at e
        obtain ⟨rfl, rfl, rfl⟩ := e
        refine h.decimal hb b hb' (zs ++ x :: (P ++ c :: r)) (by rw [ht, hbp]; simp) ?_
        exact (startsIn_swap zs x _ _).mp hd
    · intro ds hds
      obtain ⟨h1, h2, h3, h4⟩ := h.frac ds hds
      refine ⟨h1, sw _ h2, ?_, ?_⟩
      · rw [← List.append_assoc] at h3 ⊢
        exact sw _ h3
      · rw [← List.append_assoc] at h4 ⊢
        exact sw _ h4
    · intro hf t e
      have hn := h.noFrac hf
      cases hr : p.expText ++ p.sufText with
      | nil =>
        rw [hr] at e hn
        simp at e
        obtain ⟨rfl, rfl⟩ := e
        cases P with
        | nil => exact .inr ⟨c', r', rfl, hc'⟩
        | cons y P =>
          rcases hn _ rfl with h | h
          · exact .inl ((startsIn_swap [] y _ _).mp h)
          · exact .inr ((startsIn_swap [] y _ _).mp h)
      | cons y ys =>
        rw [hr] at e hn
        simp at e
        obtain ⟨rfl, rfl⟩ := e
        rcases hn _ rfl with h | h
        · exact .inl ((startsIn_swap ys x _ _).mp h)
        · exact .inr ((startsIn_swap ys x _ _).mp h)
    · intro m ds he
      obtain ⟨h1, h2, h3, h4⟩ := h.exp m ds he
      exact ⟨h1, h2, h3, sw _ h4⟩
    · intro he m t e hm
      have hn := h.noExp he
      cases hs : p.sufText with
      | nil =>
        exfalso
        rw [hs] at e
        simp at e
        obtain ⟨w, hw⟩ := sufx (by
          left
          rw [e.1]
          rcases hm with rfl | rfl
          · rw [hX.start 'e' (by decide)]; decide
          · rw [hX.start 'E' (by decide)]; decide)
        exact suf_ne hw hs
      | cons y ys =>
        rw [hs] at e hn
        simp at e
        obtain ⟨rfl, rfl⟩ := e
        exact sw ys (hn _ _ rfl hm)
    · intro w hs
      refine ⟨(h.suf w hs).1, fun d t e => ?_⟩
      cases e
      exact (h.suf w hs).2 _ _ rfl
    · intro hs
      exact sw [] (h.noSuf hs)

/-- A token stays the same if a word that comes later is replaced by another one. -/
theorem spelling_swap {X : Xid} (hX : Sane X) (hS : ∀ c, X.start c = true → X.cont c = true) {o : Nat} {t : Token} {body P w w' b : Text}
    (hw : StartsIn (WordStart X) w) (hw' : Word X w')
    (hP : P = [] ∨ ∃ o2 t2 body2 P2, P = body2 ++ P2 ∧ Spelling X o2 t2 body2 (P2 ++ (w ++ b)))
    (h : Spelling X o t body (P ++ (w ++ b))) : Spelling X o t body (P ++ (w' ++ b)) := by
  have hw0 := hw'
  obtain ⟨c, cs, rfl, hc⟩ := hw
  obtain ⟨c', cs', rfl, hc', hcs'⟩ := hw'
  have cont : ∀ {c}, WordStart X c → X.cont c = true := by
    rintro c (hc | rfl)
    · exact hS c hc
    · rw [hX.cont '_' (by decide)]; decide
  have plain : ∀ d ∈ c' :: cs', d ∉ c!"'\"#" := by
    intro d hd hm
    have h1 := not_cont hX d hm
    rcases List.mem_cons.mp hd with rfl | hd
    · rw [cont hc'] at h1; cases h1
    · rw [hcs' d hd] at h1; cases h1
  have ne : ∀ {d}, WordStart X d → ∀ y ∈ symHeads ++ c!"'\"0123456789", d ≠ y := by
    rintro d hd y hy rfl
    exact not_start hX _ hy hd
  have nocont : NoCont X (P ++ (c :: cs ++ b)) → ∃ x P', P = x :: P' ∧ X.cont x = false := by
    intro h
    cases P with
    | nil => have := h c (cs ++ b) rfl; rw [cont hc] at this; cases this
    | cons x P' => exact ⟨x, P', rfl, h x _ rfl⟩
  have noc' : NoCont X (P ++ (c :: cs ++ b)) → NoCont X (P ++ (c' :: cs' ++ b)) := by
    intro h d t e
    obtain ⟨x, P', rfl, hx⟩ := nocont h
    cases e
    exact hx
  have comment : ∀ body : Text, commentKind (body ++ (P ++ (c :: cs ++ b))) = commentKind (body ++ (P ++ (c' :: cs' ++ b))) := by
    intro body
    have k : ∀ {d}, WordStart X d → d ∉ c!"/*!" := by
      intro d hd hm
      have : ∀ y ∈ c!"/*!", y ∈ symHeads ++ c!"'\"0123456789" := by decide
      exact ne hd d (this d hm) rfl
    rw [← List.append_assoc body, ← List.append_assoc body, List.cons_append, List.cons_append, commentKind_stop (k hc), commentKind_stop (k hc')]
  generalize hx : P ++ (c :: cs ++ b) = post at h
  cases h with
  | @ident w0 _ hw hk hp' hl hr' =>
    subst hx
    have hpn := nocont hp'
    refine .ident hw hk (noc' hp') ?_ ?_
    · obtain ⟨x, P', rfl, -⟩ := hpn
      obtain ⟨y0, ys0, rfl, hy0, hys0⟩ := hw
      have no : ∀ d ∈ ys0, d ∉ c!"'\"#" := fun d hd hm => by
        have := hys0 d hd
        rw [not_cont hX d hm] at this
        cases this
      obtain ⟨o2, t2, body2, P2, hP2, h2⟩ : ∃ o2 t2 body2 P2, x :: P' = body2 ++ P2 ∧ Spelling X o2 t2 body2 (P2 ++ (c :: cs ++ b)) := by
        rcases hP with hP | hP
        · cases hP
        · exact hP
      obtain ⟨ys, hb2, hP'⟩ : ∃ ys, body2 = x :: ys ∧ P' = ys ++ P2 := by
        cases hb : body2 with
        | nil => exact absurd hb (spelling_ext hX h2).1
        | cons y ys => rw [hb] at hP2; simp at hP2; exact ⟨ys, by rw [hP2.1], hP2.2⟩
      have str : x = '"' → StrLit body2 := fun e => spelling_quote hX h2 (r := ys) (by rw [hb2, e])
      intro hl'
      rcases literalAt_cases hl' with ⟨d, t, e, hd⟩ | ⟨d, t, e, hd⟩ | ⟨d, t, e, hd⟩
      · cases ys0 with
        | nil =>
          simp at e
          obtain ⟨rfl, rfl, -⟩ := e
          rcases hd with rfl | rfl
          · exact hr' ⟨_, rfl⟩
          · obtain ⟨a, p3, e3, h3⟩ := rawStr_of_str (str rfl) (P2 ++ (c :: cs ++ b))
            exact hl ⟨a, p3, by rw [← e3, hP2]; simp, .inl h3⟩
        | cons x xs => simp at e; exact no x (by simp) (by rw [e.2.1]; rcases hd with rfl | rfl <;> decide)
      · cases ys0 with
        | nil =>
          simp at e
          obtain ⟨rfl, rfl, -⟩ := e
          rcases hd with rfl | rfl
          · -- a character or a lifetime
            rcases spelling_tick hX h2 hb2 with h3 | ⟨h3, h4⟩
            · exact hl ⟨'b' :: body2, P2 ++ (c :: cs ++ b), by rw [hP2]; simp, .inr ⟨_, rfl, .inl h3⟩⟩
            · obtain ⟨z, zs, rfl, hz, hzs⟩ := h3
              obtain ⟨a, p3, e3, h5⟩ := hl'
              have h6 : ∃ q, CharLit q ∧ q <+: '\'' :: z :: zs ++ (P2 ++ (c' :: cs' ++ b)) := by
                rcases h5 with h5 | ⟨q, rfl, h5 | h5 | h5⟩
                · obtain ⟨n, cc, rfl, -⟩ := h5; simp at e3
                · refine ⟨q, h5, p3, ?_⟩
                  rw [hP2, hb2] at e3
                  simp at e3 ⊢
                  exact e3.symm
                · obtain ⟨bb, -, rfl⟩ := h5; simp at e3
                · obtain ⟨n, cc, rfl, -⟩ := h5; simp at e3
              obtain ⟨q, ⟨cb, hcb, rfl⟩, r, hr2⟩ := h6
              cases hcb with
              | single hne =>
                simp at hr2
                obtain ⟨rfl, hr2⟩ := hr2
                cases zs with
                | cons z2 zs2 =>
                  simp at hr2
                  have := hzs z2 (by simp)
                  rw [← hr2.1, not_cont hX '\'' (by decide)] at this
                  cases this
                | nil =>
                  simp at hr2
                  cases P2 with
                  | nil =>
                    simp at hr2
                    exact ne hc' '\'' (by decide) hr2.1.symm
                  | cons z2 zs2 =>
                    simp at hr2
                    exact h4 ⟨rfl, _, _, rfl, hr2.1.symm⟩
              | esc hne =>
                simp at hr2
                exact not_start hX '\\' (by decide) (by rw [hr2.1]; exact hz)
          · exact hl ⟨'b' :: body2, P2 ++ (c :: cs ++ b), by rw [hP2]; simp, .inr ⟨_, rfl, .inr (.inl (str rfl))⟩⟩
        | cons x xs => simp at e; exact no x (by simp) (by rw [e.2.1]; rcases hd with rfl | rfl <;> decide)
      · cases ys0 with
        | nil =>
          simp at e
          obtain ⟨-, rfl, -⟩ := e
          exact absurd (hp' _ _ rfl) (by rw [hX.cont 'r' (by decide)]; decide)
        | cons x1 xs =>
          cases xs with
          | nil =>
            simp at e
            obtain ⟨rfl, rfl, rfl, -⟩ := e
            rcases hd with rfl | rfl
            · obtain ⟨a, p3, e3, h5⟩ := hl'
              have h6 : ∃ n cc, '#' :: P' ++ (c' :: cs' ++ b) = (List.replicate n '#' ++ c!"\"") ++ (cc ++ rawClose n ++ p3) := by
                rcases h5 with h5 | ⟨q, rfl, h5 | h5 | h5⟩
                · obtain ⟨n, cc, rfl, -⟩ := h5; simp at e3
                · obtain ⟨bb, -, rfl⟩ := h5; simp at e3
                · obtain ⟨bb, -, rfl⟩ := h5; simp at e3
                · obtain ⟨n, cc, rfl, -⟩ := h5
                  exact ⟨n, cc, by simp at e3 ⊢; exact e3⟩
              obtain ⟨n, cc, hn⟩ := h6
              have hpre : List.replicate n '#' ++ c!"\"" <+: '#' :: P' := by
                refine (prefix_stop (c := c') (t := cs' ++ b) ?_).mp ⟨_, hn.symm⟩
                intro hm
                refine plain c' (by simp) ?_
                rcases List.mem_append.mp hm with h | h
                · rw [(List.mem_replicate.mp h).2]; decide
                · simp at h; rw [h]; decide
              obtain ⟨P3, hP3⟩ := hpre
              rw [← hP3, List.append_assoc] at hn
              have hn := List.append_cancel_left hn
              obtain ⟨u, v, huv⟩ := occurs_swap (w := c :: cs) (by simp [rawClose]) (by simp) (fun d hd hm => by
                refine plain d hd ?_
                rcases List.mem_cons.mp hm with h | h
                · rw [h]; decide
                · rw [(List.mem_replicate.mp h).2]; decide) hn
              obtain ⟨u, v, huv, hfo⟩ := firstOcc_exists _ u v (Nat.le_refl _) huv
              refine hl ⟨'b' :: (c!"r" ++ List.replicate n '#' ++ c!"\"" ++ u ++ rawClose n), v, ?_, .inr ⟨_, rfl, .inr (.inr ⟨n, u, rfl, ?_⟩)⟩⟩
              · rw [← hP3]
                simp at huv ⊢
                exact huv
              · rw [← huv]
                exact hfo
            · obtain ⟨a, p3, e3, h3⟩ := rawStr_of_str (str rfl) (P2 ++ (c :: cs ++ b))
              exact hl ⟨'b' :: a, p3, by rw [hP2]; simp at e3 ⊢; exact e3, .inr ⟨_, rfl, .inr (.inr h3)⟩⟩
          | cons y ys => simp at e; exact no y (by simp) (by rw [e.2.2.1]; rcases hd with rfl | rfl <;> decide)
    · obtain ⟨x, P', rfl, -⟩ := hpn
      obtain ⟨y0, ys0, rfl, -⟩ := hw
      rintro ⟨r, hr⟩
      refine hr' ?_
      cases ys0 with
      | nil => simp at hr; exact ⟨P' ++ (c :: cs ++ b), by simp [← hr.1, ← hr.2.1]⟩
      | cons y1 ys0 => simp at hr; exact ⟨ys0 ++ (x :: P' ++ (c :: cs ++ b)), by simp [← hr.1, ← hr.2.1]⟩
  | keyword hk hp' => subst hx; exact .keyword hk (noc' hp')
  | rawIdent hw hp' => subst hx; exact .rawIdent hw (noc' hp')
  | @symbol k w0 _ hk hlong hck =>
    subst hx
    refine .symbol hk (fun k' w1 hk' hp' => hlong k' w1 hk' ?_) (by rw [← comment]; exact hck)
    have key : ∀ r ∈ symbolTable, ∀ d ∈ r.1, d ∈ symHeads ++ c!"'\"0123456789" := by decide
    have k1 : ∀ {d}, WordStart X d → d ∉ w1 := fun hd hm => ne hd _ (key _ (symbolText_table k' w1 hk') _ hm) rfl
    rw [← List.append_assoc, List.cons_append] at hp' ⊢
    rw [prefix_stop (k1 hc)]
    rw [prefix_stop (k1 hc')] at hp'
    exact hp'
  | char hb => exact .char hb
  | str hb => exact .str hb
  | strRaw hb => exact .strRaw (rawStr_post hb)
  | byte hb => exact .byte hb
  | byteStr hb => exact .byteStr hb
  | byteStrRaw hb => exact .byteStrRaw (rawStr_post hb)
  | lifetime hw hp' hq =>
    subst hx
    obtain ⟨x, P', rfl, -⟩ := nocont hp'
    exact .lifetime hw (noc' hp') fun h => hq ⟨h.1, (startsIn_swap [] x _ _).mp h.2⟩
  | number hn hu => subst hx; exact .number (numText_swap hX hS hc hc' hn) hu
  | line hk hck hl =>
    subst hx
    refine .line hk (by rw [← comment]; exact hck) ⟨hl.1, fun d t e => ?_⟩
    cases P with
    | nil =>
      have := hl.2 c _ rfl
      rw [this] at hc
      exact absurd hc (ws_not_start hX (by decide))
    | cons x P => cases e; exact hl.2 _ _ rfl
  | @block k op _ _ hk hck hb =>
    subst hx
    refine .block hk (by rw [← comment]; exact hck) ?_
    rcases hb with ⟨inner, rfl, hf⟩ | ⟨inner, rfl, hn, h⟩
    · exact .inl ⟨inner, rfl, firstOcc_post hf⟩
    · simp at h
  | ws h1 h2 h3 =>
    subst hx
    refine .ws h1 h2 ?_
    cases P with
    | nil =>
      rintro ⟨d, t, e, hd⟩
      cases e
      exact ws_not_start hX hd hc'
    | cons x P => exact fun h => h3 ((startsIn_swap [] x _ _).mp h)

/-- The text of an identifier starts like a word. -/
theorem spelling_ident {X : Xid} (hX : Sane X) {o : Nat} {t : Token} {body post : Text} (h : Spelling X o t body post)
    (hk : t.kind? = some .Ident) : StartsIn (WordStart X) body ∧ NoCont X post := by
  cases h with
  | ident hw _ hp => obtain ⟨c, cs, rfl, hc, -⟩ := hw; exact ⟨⟨c, cs, rfl, hc⟩, hp⟩
  | keyword h1 => cases hk; cases h1
  | rawIdent hw hp => exact ⟨⟨'r', _, rfl, .inl (by rw [hX.start 'r' (by decide)]; decide)⟩, hp⟩
  | symbol h1 => cases hk; cases h1
  | line h1 => cases hk; rcases h1 with h | h | h <;> cases h
  | block h1 => cases hk; cases h1
  | number => cases hk
  | _ => cases hk

/-- Any other word can be written where an identifier is. -/
theorem spelled_swap {X : Xid} (hX : Sane X) (hS : ∀ c, X.start c = true → X.cont c = true) {t : Token} (hk : t.kind? = some .Ident) {B : List Token} :
    ∀ (A : List Token) {o : Nat} {s : Text}, Spelled X o (A ++ t :: B) s → ∃ P w b, s = P ++ (w ++ b) ∧ Spelling X (o + blen P) t w b ∧
      Spelled X (o + blen P + blen w) B b ∧
      (P = [] ∨ ∃ o2 t2 body2 P2, P = body2 ++ P2 ∧ Spelling X o2 t2 body2 (P2 ++ (w ++ b))) ∧
      ∀ {w' : Text} {t' : Token} {B' : List Token}, Word X w' → Spelling X (o + blen P) t' w' b → Spelled X (o + blen P + blen w') B' b →
        Spelled X o (A ++ t' :: B') (P ++ (w' ++ b)) := by
  intro A
  induction A with
  | nil =>
    intro o s h
    cases h with
    | done => cases hk
    | @token _ _ body post _ h1 h2 => exact ⟨[], body, post, rfl, h1, h2, .inl rfl, fun {w' t' B'} _ h3 h4 => Spelled.token (off := o) (body := w') h3 h4⟩
  | cons a A ih =>
    intro o s h
    rw [List.cons_append] at h
    generalize hx : A ++ t :: B = us at h
    cases h with
    | done => simp at hx
    | @token _ _ body post _ h1 h2 =>
      subst hx
      obtain ⟨P, w, b, rfl, h3, h4, h5, h6⟩ := ih h2
      have e : ∀ x : Text, o + blen body + blen P + blen x = o + blen (body ++ P) + blen x := fun x => by rw [blen_append]; omega
      have e0 : o + blen body + blen P = o + blen (body ++ P) := by rw [blen_append]; omega
      rw [e] at h4
      rw [e0] at h3 h6
      refine ⟨body ++ P, w, b, by simp, h3, h4, .inr ⟨o, a, body, P, rfl, h1⟩, fun {w' t' B'} hw' h7 h8 => ?_⟩
      rw [List.append_assoc]
      exact .token (spelling_swap hX hS (spelling_ident hX h3 hk).1 hw' h5 h1) (h6 hw' h7 h8)

/-- The tokens at any place are those at the beginning, moved. -/
theorem spelled_base {X : Xid} (hX : Sane X) {o : Nat} {ts : List Token} {s : Text} (h : Spelled X o ts s) :
    ∃ U, Spelled X 0 U s ∧ ts = U.map (·.moved o) := by
  obtain ⟨U, hU⟩ := spelled_somewhere h 0
  have := spelled_moved hU o
  rw [Nat.zero_add] at this
  exact ⟨U, hU, (spelled_unique hX h this).symm⟩

end Verif
