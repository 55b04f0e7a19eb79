import Verif.Proofs.Rename
/-!
# The tokens before a string or comment do not depend on what is in it
-/

namespace Verif
open Spec

attribute [local irreducible] singleToken

/-- A character that does not occur in `p` comes behind it. -/
theorem cut_stop {p y r t : Text} {c : Char} (hc : c ∉ p) (h : y ++ c :: r = p ++ t) : ∃ y', y = p ++ y' ∧ t = y' ++ c :: r := by
  rcases List.append_eq_append_iff.mp h with ⟨x, h1, h2⟩ | ⟨x, h1, h2⟩
  · cases x with
    | nil => simp at h1 h2; exact ⟨[], by simp [h1], by simp [h2]⟩
    | cons d x =>
      simp at h2
      exact absurd (by rw [h1, h2.1]; simp) hc
  · exact ⟨x, h1, h2⟩

/-- What occurs in a text with `w'` in it, and neither starts in `w'` nor goes on behind `x`, occurs in the text with anything else there. -/
theorem occurs_swap' {p0 : Char} {pt x w w' b u v : Text} (hd : p0 ∉ w') (hs : ∀ d t, w' ++ b = d :: t → d ∉ pt)
    (h : x ++ (w' ++ b) = u ++ p0 :: pt ++ v) : ∃ u v, x ++ (w ++ b) = u ++ p0 :: pt ++ v := by
  rw [List.append_assoc] at h
  rcases List.append_eq_append_iff.mp h with ⟨y, h1, h2⟩ | ⟨y, h1, h2⟩
  · rcases List.append_eq_append_iff.mp h2 with ⟨z, h3, h4⟩ | ⟨z, h3, h4⟩
    · exact ⟨x ++ w ++ z, v, by rw [h4]; simp⟩
    · cases z with
      | nil => exact ⟨x ++ w, v, by simp at h4; simp [h4]⟩
      | cons c z =>
        simp at h4
        exact absurd (by rw [h3, h4.1]; simp) hd
  · cases y with
    | nil =>
      simp at h1 h2
      cases w' with
      | nil => exact ⟨x ++ w, v, by simp at h2; simp [h2]⟩
      | cons d w' =>
        simp at h2
        exact absurd (by rw [h2.1]; simp) hd
    | cons d y =>
      simp at h2
      obtain ⟨rfl, h2⟩ := h2
      rcases List.append_eq_append_iff.mp h2 with ⟨z, h3, h4⟩ | ⟨z, h3, h4⟩
      · exact ⟨u, z ++ (w ++ b), by rw [h1, h3]; simp⟩
      · subst h3
        cases z with
        | nil => exact ⟨u, w ++ b, by rw [h1]; simp⟩
        | cons e z =>
          exact absurd (by simp) (hs e (z ++ v) (by rw [h4]; simp))

theorem numText_head {X : Xid} {p : NumParts} {c : Char} {P r r' : Text} (hc : c = '"' ∨ c = '/' ∨ c = '\'')
    (h : NumText X p (P ++ c :: r)) : NumText X p (P ++ c :: r') := by
  have sw : ∀ {Q : Char → Prop} (a : Text), ¬ StartsIn Q (a ++ (P ++ c :: r)) → ¬ StartsIn Q (a ++ (P ++ c :: r')) := by
    intro Q a h h'
    rw [← List.append_assoc] at h h'
    exact h ((startsIn_swap (a ++ P) c _ _).mp h')
  constructor
  · exact h.ne
  · exact h.digits
  · exact sw _ h.longest
  · intro hb b hb' t e
    rw [← List.append_assoc] at e
    obtain ⟨y, h1, rfl⟩ := cut_stop (by rcases hc with rfl | rfl | rfl <;> cases b <;> decide) e
    have h2 := h.decimal hb b hb' (y ++ c :: r) (by rw [← List.append_assoc, h1, List.append_assoc])
    exact fun h' => h2 ((startsIn_swap y c _ _).mp h')
  · intro ds hf
    have h1 := h.frac ds hf
    refine ⟨h1.digits, sw _ h1.longest, ?_, ?_⟩
    · have := h1.notRange
      rw [← List.append_assoc] at this ⊢
      exact sw _ this
    · have := h1.notAccess
      rw [← List.append_assoc] at this ⊢
      exact sw _ this
  · intro hf t e
    rw [← List.append_assoc] at e
    obtain ⟨y, h1, rfl⟩ := cut_stop (p := ['.']) (t := t) (by rcases hc with rfl | rfl | rfl <;> decide) e
    rcases h.noFrac hf (y ++ c :: r) (by rw [← List.append_assoc, h1]; rfl) with h2 | h2
    · exact .inl ((startsIn_swap y c _ _).mp h2)
    · exact .inr ((startsIn_swap y c _ _).mp h2)
  · intro m ds he
    obtain ⟨h1, h2, h3, h4⟩ := h.exp m ds he
    exact ⟨h1, h2, h3, sw _ h4⟩
  · intro he m t e hm
    rw [← List.append_assoc] at e
    obtain ⟨y, h1, rfl⟩ := cut_stop (p := [m]) (t := t) (by rcases hc with rfl | rfl | rfl <;> rcases hm with rfl | rfl <;> decide) e
    have h2 := h.noExp he m (y ++ c :: r) (by rw [← List.append_assoc, h1]; rfl) hm
    exact fun h' => h2 ((startsIn_swap y c _ _).mp h')
  · intro w hs
    refine ⟨(h.suf w hs).1, fun d t e => ?_⟩
    cases P with
    | nil => cases e; exact (h.suf w hs).2 _ _ rfl
    | cons x P => cases e; exact (h.suf w hs).2 _ _ rfl
  · intro hs
    exact sw [] (h.noSuf hs)

/-- Whether there is a comment shows in the first two. -/
theorem commentKind_no {d e : Char} {s t : Text} (h : commentKind (d :: e :: s) = none) : commentKind (d :: e :: t) = none := by
  unfold commentKind at h ⊢
  have one : ∀ t : Text, c!"//".isPrefixOf (d :: e :: t) = ('/' == d && '/' == e) := fun t => by simp [List.isPrefixOf]
  have two : ∀ t : Text, c!"/*".isPrefixOf (d :: e :: t) = ('/' == d && '*' == e) := fun t => by simp [List.isPrefixOf]
  rw [one, two] at h ⊢
  split at h
  · exfalso
    split at h
    · cases h
    · split at h <;> cases h
  · rename_i h1
    rw [if_neg h1]
    split at h
    · exfalso
      split at h
      · cases h
      · split at h <;> cases h
    · rename_i h2
      rw [if_neg h2]

/-- There was a character literal at the front, or there is none. -/
def Ticks (z z' : Text) : Prop := (∃ q r, z = q ++ r ∧ CharLit q) ∨ ∀ q, CharLit q → ¬ q <+: z'

/-- A token stays the same if a later string, character, lifetime or comment goes on in another way behind its first character. -/
theorem spelling_tail {X : Xid} (hX : Sane X) {o : Nat} {t : Token} {body P cs cs' b : Text} {c : Char}
    (hc : c = '"' ∨ c = '/' ∨ (c = '\'' ∧ Ticks (c :: cs ++ b) (c :: cs' ++ b)))
    (hq : '"' ∉ cs') (hh : c = '"' → ¬ StartsIn (· = '#') (cs' ++ b))
    (hP : (P = [] ∧ ∃ o2 t2 body2 post2, c :: cs ++ b = body2 ++ post2 ∧ Spelling X o2 t2 body2 post2) ∨
      ∃ o2 t2 body2 P2, P = body2 ++ P2 ∧ Spelling X o2 t2 body2 (P2 ++ (c :: cs ++ b)))
    (h : Spelling X o t body (P ++ (c :: cs ++ b))) : Spelling X o t body (P ++ (c :: cs' ++ b)) := by
  have noc' : NoCont X (P ++ (c :: cs ++ b)) → NoCont X (P ++ (c :: cs' ++ b)) := by
    intro h d t e
    cases P with
    | nil => cases e; exact h _ _ rfl
    | cons x P => cases e; exact h _ _ rfl
  have sw : ∀ {Q : Char → Prop}, StartsIn Q (P ++ (c :: cs' ++ b)) → StartsIn Q (P ++ (c :: cs ++ b)) := fun h =>
    (startsIn_swap P c _ _).mp h
  have nxt : ∃ o2 t2 body2 post2, P ++ (c :: cs ++ b) = body2 ++ post2 ∧ Spelling X o2 t2 body2 post2 := by
    rcases hP with ⟨rfl, hx⟩ | ⟨o2, t2, body2, P2, rfl, hx⟩
    · exact hx
    · exact ⟨o2, t2, body2, _, List.append_assoc _ _ _, hx⟩
  generalize hx : P ++ (c :: cs ++ b) = post at h
  cases h with
  | @ident w0 _ hw hk hp' hl hr' =>
    subst hx
    obtain ⟨o2, t2, body2, post2, hP2, h2⟩ := nxt
    have head : ∀ d t, P ++ (c :: cs' ++ b) = d :: t → ∃ ys, body2 = d :: ys := by
      intro d t e
      have : ∃ t', P ++ (c :: cs ++ b) = d :: t' := by
        cases P with
        | nil => cases e; exact ⟨_, rfl⟩
        | cons x P => cases e; exact ⟨_, rfl⟩
      obtain ⟨t', ht'⟩ := this
      cases hb : body2 with
      | nil => exact absurd hb (spelling_ext hX h2).1
      | cons y ys => rw [hP2, hb] at ht'; simp at ht'; exact ⟨ys, by rw [ht'.1]⟩
    obtain ⟨y0, ys0, rfl, hy0, hys0⟩ := hw
    have no : ∀ d ∈ ys0, d ∉ c!"'\"#" := fun d hd hm => by
      have := hys0 d hd
      rw [not_cont hX d hm] at this
      cases this
    refine .ident ⟨y0, ys0, rfl, hy0, hys0⟩ hk (noc' hp') ?_ ?_
    · intro hl'
      rcases literalAt_cases hl' with ⟨d, t, e, hd⟩ | ⟨d, t, e, hd⟩ | ⟨d, t, e, hd⟩
      · cases ys0 with
        | nil =>
          simp only [List.cons_append, List.nil_append, List.cons.injEq] at e
          obtain ⟨rfl, e⟩ := e
          obtain ⟨ys, hb2⟩ := head _ _ e
          rcases hd with rfl | rfl
          · exact hr' ⟨ys ++ post2, by rw [hP2, hb2]; simp⟩
          · obtain ⟨a, p3, e3, h3⟩ := rawStr_of_str (spelling_quote hX h2 hb2) post2
            exact hl ⟨a, p3, by rw [← e3, hP2]; simp, .inl h3⟩
        | cons x xs => simp at e; exact no x (by simp) (by rw [e.2.1]; rcases hd with rfl | rfl <;> decide)
      · cases ys0 with
        | nil =>
          simp only [List.cons_append, List.nil_append, List.cons.injEq] at e
          obtain ⟨rfl, e⟩ := e
          obtain ⟨ys, hb2⟩ := head _ _ e
          rcases hd with rfl | rfl
          · -- a character or a lifetime
            rcases hP with ⟨rfl, -⟩ | ⟨o3, t3, body3, P3, rfl, h3⟩
            · simp at e
              rcases hc with rfl | rfl | ⟨rfl, ⟨q, r, e1, hqc⟩ | hno⟩
              · cases e.1
              · cases e.1
              · exact hl ⟨'b' :: q, r, by rw [List.nil_append, e1]; simp, .inr ⟨_, rfl, .inl hqc⟩⟩
              · obtain ⟨a, p3, e3, h6⟩ := hl'
                rcases h6 with h6 | ⟨q, rfl, h6 | h6 | h6⟩
                · obtain ⟨n, cc, rfl, -⟩ := h6; simp at e3
                · exact hno q h6 ⟨p3, by simp at e3 ⊢; exact e3.symm⟩
                · obtain ⟨bb, -, rfl⟩ := h6; simp at e3
                · obtain ⟨n, cc, rfl, -⟩ := h6; simp at e3
            · have hb3 : ∃ ys, body3 = '\'' :: ys := by
                cases hb : body3 with
                | nil => exact absurd hb (spelling_ext hX h3).1
                | cons y ys => rw [hb] at e; simp at e; exact ⟨ys, by rw [e.1]⟩
              obtain ⟨zz, hb3⟩ := hb3
              rcases spelling_tick hX h3 hb3 with h4 | ⟨h4, h5⟩
              · exact hl ⟨'b' :: body3, P3 ++ (c :: cs ++ b), by simp, .inr ⟨_, rfl, .inl h4⟩⟩
              · obtain ⟨z, zs, rfl, hz, hzs⟩ := h4
                obtain ⟨a, p3, e3, h6⟩ := hl'
                have h7 : ∃ q, CharLit q ∧ q <+: '\'' :: z :: zs ++ (P3 ++ (c :: cs' ++ b)) := by
                  rcases h6 with h6 | ⟨q, rfl, h6 | h6 | h6⟩
                  · obtain ⟨n, cc, rfl, -⟩ := h6; simp at e3
                  · refine ⟨q, h6, p3, ?_⟩
                    rw [hb3] at e3
                    simp at e3 ⊢
                    exact e3.symm
                  · obtain ⟨bb, -, rfl⟩ := h6; rw [hb3] at e3; simp at e3
                  · obtain ⟨n, cc, rfl, -⟩ := h6; rw [hb3] at e3; simp at e3
                obtain ⟨q, ⟨cb, hcb, rfl⟩, r, hr2⟩ := h7
                cases hcb with
                | single hne =>
                  simp at hr2
                  obtain ⟨rfl, hr2⟩ := hr2
                  cases zs with
                  | cons z2 zs2 =>
                    simp at hr2
                    have := hzs z2 (by simp)
                    rw [← hr2.1, not_cont hX '\'' (by decide)] at this
                    cases this
                  | nil =>
                    simp at hr2
                    cases P3 with
                    | nil =>
                      simp at hr2
                      rcases hc with rfl | rfl | ⟨rfl, -⟩
                      · cases hr2.1
                      · cases hr2.1
                      · exact h5 ⟨rfl, _, _, rfl, rfl⟩
                    | cons z2 zs2 =>
                      simp at hr2
                      exact h5 ⟨rfl, _, _, rfl, hr2.1.symm⟩
                | esc hne =>
                  simp at hr2
                  exact not_start hX '\\' (by decide) (by rw [hr2.1]; exact hz)
          · exact hl ⟨'b' :: body2, post2, by rw [hP2]; simp, .inr ⟨_, rfl, .inr (.inl (spelling_quote hX h2 hb2))⟩⟩
        | cons x xs => simp at e; exact no x (by simp) (by rw [e.2.1]; rcases hd with rfl | rfl <;> decide)
      · cases ys0 with
        | nil =>
          simp only [List.cons_append, List.nil_append, List.cons.injEq] at e
          obtain ⟨ys, hb2⟩ := head _ _ e.2
          exact absurd (hp' 'r' (ys ++ post2) (by rw [hP2, hb2]; rfl)) (by rw [hX.cont 'r' (by decide)]; decide)
        | cons x1 xs =>
          cases xs with
          | nil =>
            simp only [List.cons_append, List.nil_append, List.cons.injEq] at e
            obtain ⟨rfl, rfl, e⟩ := e
            obtain ⟨ys, hb2⟩ := head _ _ e
            rcases hd with rfl | rfl
            · obtain ⟨a, p3, e3, h5⟩ := hl'
              have h6 : ∃ n cc, P ++ (c :: cs' ++ b) = (List.replicate n '#' ++ c!"\"") ++ (cc ++ rawClose n ++ p3) := by
                rcases h5 with h5 | ⟨q, rfl, h5 | h5 | h5⟩
                · obtain ⟨n, cc, rfl, -⟩ := h5; simp at e3
                · obtain ⟨bb, -, rfl⟩ := h5; simp at e3
                · obtain ⟨bb, -, rfl⟩ := h5; simp at e3
                · obtain ⟨n, cc, rfl, -⟩ := h5
                  exact ⟨n, cc, by simp at e3 ⊢; exact e3⟩
              obtain ⟨n, cc, hn⟩ := h6
              -- the opening quote comes before what is changed, and the closing one is not in it
              have hocc : ∃ z u v, P ++ (c :: cs ++ b) = (List.replicate n '#' ++ c!"\"") ++ z ∧ z = u ++ rawClose n ++ v := by
                by_cases hcq : c = '"'
                · subst hcq
                  have hpre : ∃ P3, P ++ ['"'] = (List.replicate n '#' ++ c!"\"") ++ P3 := by
                    rw [List.append_assoc, List.cons_append] at hn
                    obtain ⟨y, h1, h2⟩ := cut_stop (c := '"') (p := List.replicate n '#') (by
                      intro hm; have := (List.mem_replicate.mp hm).2; cases this) hn
                    cases y with
                    | nil => exact ⟨[], by rw [h1]; simp⟩
                    | cons y ys =>
                      simp at h2
                      exact ⟨ys ++ ['"'], by rw [h1, ← h2.1]; simp⟩
                  obtain ⟨P3, hP3⟩ := hpre
                  have e1 : ∀ s : Text, P ++ ('"' :: s ++ b) = (List.replicate n '#' ++ c!"\"") ++ (P3 ++ (s ++ b)) := by
                    intro s
                    rw [← List.append_assoc _ P3, ← hP3]; simp
                  rw [e1] at hn
                  have hn := List.append_cancel_left hn
                  obtain ⟨u, v, huv⟩ := occurs_swap' (w := cs) (p0 := '"') (pt := List.replicate n '#') hq (fun d t ed hm => by
                    exact hh rfl ⟨d, t, ed, (List.mem_replicate.mp hm).2⟩) hn
                  exact ⟨_, u, v, e1 cs, huv⟩
                · have hch : c ≠ '#' := by rcases hc with rfl | rfl | ⟨rfl, -⟩ <;> decide
                  have hn' := hn
                  rw [List.cons_append] at hn'
                  obtain ⟨y, h1, -⟩ := cut_stop (c := c) (by
                    intro hm
                    rcases List.mem_append.mp hm with hm | hm
                    · exact hch (List.mem_replicate.mp hm).2
                    · simp at hm; exact hcq hm) hn'
                  rw [h1, List.append_assoc] at hn
                  have hn := List.append_cancel_left hn
                  obtain ⟨u, v, huv⟩ := occurs_swap' (w := c :: cs) (w' := c :: cs') (p0 := '"') (pt := List.replicate n '#')
                    (by simp; exact ⟨Ne.symm hcq, hq⟩) (fun d t ed hm => by
                      cases ed
                      exact hch (List.mem_replicate.mp hm).2) hn
                  exact ⟨_, u, v, by rw [h1, List.append_assoc], huv⟩
              obtain ⟨z, u, v, hz, huv⟩ := hocc
              obtain ⟨u, v, huv, hfo⟩ := firstOcc_exists _ u v (Nat.le_refl _) huv
              refine hl ⟨'b' :: (c!"r" ++ List.replicate n '#' ++ c!"\"" ++ u ++ rawClose n), v, ?_, .inr ⟨_, rfl, .inr (.inr ⟨n, u, rfl, ?_⟩)⟩⟩
              · rw [hz, huv]
                simp [rawClose]
              · rw [huv] at hfo
                exact hfo
            · obtain ⟨a, p3, e3, h3⟩ := rawStr_of_str (spelling_quote hX h2 hb2) post2
              exact hl ⟨'b' :: a, p3, by rw [hP2]; simp at e3 ⊢; exact e3, .inr ⟨_, rfl, .inr (.inr h3)⟩⟩
          | cons y ys => simp at e; exact no y (by simp) (by rw [e.2.2.1]; rcases hd with rfl | rfl <;> decide)
    · rintro ⟨r, hr⟩
      refine hr' ?_
      cases ys0 with
      | nil =>
        simp only [List.cons_append, List.nil_append, List.cons.injEq] at hr
        obtain ⟨ys, hb2⟩ := head _ _ hr.2.symm
        exact ⟨ys ++ post2, by rw [hP2, hb2, ← hr.1]; rfl⟩
      | cons y1 ys0 => simp at hr; exact ⟨ys0 ++ (P ++ (c :: cs ++ b)), by simp [← hr.1, ← hr.2.1]⟩
  | keyword hk hp' => subst hx; exact .keyword hk (noc' hp')
  | rawIdent hw hp' => subst hx; exact .rawIdent hw (noc' hp')
  | @symbol k w0 _ hk hlong hck =>
    subst hx
    have hne : body ≠ [] := by
      have key : ∀ r ∈ symbolTable, r.1 ≠ [] := by decide
      exact key _ (symbolText_table k _ hk)
    obtain ⟨d, ds, rfl⟩ := List.exists_cons_of_ne_nil hne
    refine .symbol hk (fun k' w1 hk' hp' => hlong k' w1 hk' ?_) ?_
    · have key : ∀ r ∈ symbolTable, ∀ d ∈ r.1.tail, d ≠ '"' ∧ d ≠ '/' ∧ d ≠ '\'' := by decide
      have hne1 : w1 ≠ [] := by
        have key : ∀ r ∈ symbolTable, r.1 ≠ [] := by decide
        exact key _ (symbolText_table k' w1 hk')
      obtain ⟨d1, ds1, rfl⟩ := List.exists_cons_of_ne_nil hne1
      have k1 : c ∉ ds1 := fun hm => by
        have := key _ (symbolText_table k' _ hk') c hm
        rcases hc with rfl | rfl | ⟨rfl, -⟩
        · exact this.1 rfl
        · exact this.2.1 rfl
        · exact this.2.2 rfl
      rw [List.cons_append, List.cons_prefix_cons] at hp' ⊢
      refine ⟨hp'.1, ?_⟩
      have := hp'.2
      rw [← List.append_assoc, List.cons_append] at this ⊢
      rw [prefix_stop k1] at this ⊢
      exact this
    · cases hdp : ds ++ P with
      | nil =>
        simp at hdp
        obtain ⟨rfl, rfl⟩ := hdp
        exact commentKind_no (s := cs ++ b) hck
      | cons e r =>
        have : ∀ s : Text, d :: ds ++ (P ++ s) = d :: e :: (r ++ s) := fun s => by
          rw [List.cons_append, ← List.append_assoc, hdp]; rfl
        rw [this] at hck ⊢
        exact commentKind_no hck
  | char hb => exact .char hb
  | str hb => exact .str hb
  | strRaw hb => exact .strRaw (rawStr_post hb)
  | byte hb => exact .byte hb
  | byteStr hb => exact .byteStr hb
  | byteStrRaw hb => exact .byteStrRaw (rawStr_post hb)
  | lifetime hw hp' hq => subst hx; exact .lifetime hw (noc' hp') fun h => hq ⟨h.1, sw h.2⟩
  | number hn hu => subst hx; exact .number (numText_head (hc.imp_right fun h => h.imp_right And.left) hn) hu
  | line hk hck hl =>
    subst hx
    have hn : ∃ P', P = '\n' :: P' := by
      cases P with
      | nil => have := hl.2 c _ rfl; rcases hc with rfl | rfl | ⟨rfl, -⟩ <;> cases this
      | cons x P => exact ⟨P, by rw [hl.2 x _ rfl]⟩
    obtain ⟨P', rfl⟩ := hn
    refine .line hk ?_ ⟨hl.1, fun d t e => by cases e; rfl⟩
    rw [List.cons_append, commentKind_stop (by decide)] at hck ⊢
    exact hck
  | @block k op _ _ hk hck hb =>
    subst hx
    rcases hb with ⟨inner, rfl, hf⟩ | ⟨inner, rfl, hn, h⟩
    · refine .block hk ?_ (.inl ⟨inner, rfl, firstOcc_post hf⟩)
      rw [← hck]
      refine commentKind_long ?_ _ _
      have : 2 ≤ op.length := by cases k <;> simp [blockOpener] at hk <;> subst hk <;> decide
      simp
      omega
    · simp at h
  | ws h1 h2 h3 => subst hx; exact .ws h1 h2 fun h => h3 (sw h)

/-- Something else can be written where a string or comment is. -/
theorem spelled_tail {X : Xid} (hX : Sane X) {t : Token} (hk : t.kind? ≠ some .EndOfFile) {B : List Token} :
    ∀ (A : List Token) {o : Nat} {s : Text}, Spelled X o (A ++ t :: B) s → ∃ P w b, s = P ++ (w ++ b) ∧ Spelling X (o + blen P) t w b ∧
      Spelled X (o + blen P + blen w) B b ∧
      ((P = [] ∧ ∃ o2 t2 body2 post2, w ++ b = body2 ++ post2 ∧ Spelling X o2 t2 body2 post2) ∨
        ∃ o2 t2 body2 P2, P = body2 ++ P2 ∧ Spelling X o2 t2 body2 (P2 ++ (w ++ b))) ∧
      ∀ {c : Char} {cs cs' w' r : Text} {t' : Token} {B' : List Token},
        c = '"' ∨ c = '/' ∨ (c = '\'' ∧ Ticks (c :: cs ++ r) (c :: cs' ++ r)) → w ++ b = c :: cs ++ r → w' ++ b = c :: cs' ++ r →
        '"' ∉ cs' → (c = '"' → ¬ StartsIn (· = '#') (cs' ++ r)) → Spelling X (o + blen P) t' w' b → Spelled X (o + blen P + blen w') B' b →
        Spelled X o (A ++ t' :: B') (P ++ (w' ++ b)) := by
  intro A
  induction A with
  | nil =>
    intro o s h
    cases h with
    | done => exact absurd rfl hk
    | @token _ _ body post _ h1 h2 =>
      exact ⟨[], body, post, rfl, h1, h2, .inl ⟨rfl, _, _, _, _, rfl, h1⟩, fun {c cs cs' w' r t' B'} _ _ _ _ _ h3 h4 =>
        Spelled.token (off := o) (body := w') h3 h4⟩
  | cons a A ih =>
    intro o s h
    rw [List.cons_append] at h
    generalize hx : A ++ t :: B = us at h
    cases h with
    | done => simp at hx
    | @token _ _ body post _ h1 h2 =>
      subst hx
      obtain ⟨P, w, b, rfl, h3, h4, h5, h6⟩ := ih h2
      have e : ∀ x : Text, o + blen body + blen P + blen x = o + blen (body ++ P) + blen x := fun x => by rw [blen_append]; omega
      have e0 : o + blen body + blen P = o + blen (body ++ P) := by rw [blen_append]; omega
      rw [e] at h4
      rw [e0] at h3 h6
      refine ⟨body ++ P, w, b, by simp, h3, h4, .inr ⟨o, a, body, P, rfl, h1⟩, fun {c cs cs' w' r t' B'} hc e1 e2 hq hh h7 h8 => ?_⟩
      rw [List.append_assoc]
      refine .token ?_ (h6 hc e1 e2 hq hh h7 h8)
      rw [e2]
      rw [e1] at h1 h5
      exact spelling_tail hX hc hq hh h5 h1

end Verif
