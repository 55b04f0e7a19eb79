import Verif.Proofs.SpaceSwap
/-!
# No literal comes to be where there was none, when what comes later is replaced
-/

namespace Verif
open Spec

/-- What would close a raw string in `z'` does so already in `z`. -/
def ClosesIn (z z' : Text) : Prop := ∀ n u v, z' = u ++ rawClose n ++ v → ∃ u v, z = u ++ rawClose n ++ v

theorem closes_plain {w w' b : Text} (hq : '"' ∉ w') : ClosesIn (w ++ b) (w' ++ b) := by
  intro n u v e
  rw [List.append_assoc] at e
  rcases List.append_eq_append_iff.mp e with ⟨y, h1, h2⟩ | ⟨y, h1, h2⟩
  · exact ⟨w ++ y, v, by rw [h2]; simp⟩
  · cases y with
    | nil => exact ⟨w, v, by simp at h2; simp [← h2]⟩
    | cons d y =>
      simp [rawClose] at h2
      exact absurd (by rw [h1, ← h2.1]; simp) hq

theorem closes_rest {x z t' : Text} {c' : Char} {n : Nat} {u v : Text} (hcl : ClosesIn z (c' :: t')) (hc : c' ≠ '#')
    (h : x ++ c' :: t' = u ++ rawClose n ++ v) : ∃ u v, x ++ z = u ++ rawClose n ++ v := by
  rw [List.append_assoc] at h
  rcases List.append_eq_append_iff.mp h with ⟨y, h1, h2⟩ | ⟨y, h1, h2⟩
  · obtain ⟨u, v, e⟩ := hcl n y v (by rw [h2]; simp)
    exact ⟨x ++ u, v, by rw [e]; simp⟩
  · cases y with
    | nil =>
      obtain ⟨u', v', e⟩ := hcl n [] v (by simpa using h2.symm)
      exact ⟨x ++ u', v', by rw [e]; simp⟩
    | cons d y =>
      rcases List.append_eq_append_iff.mp h2 with ⟨y2, h3, h4⟩ | ⟨y2, h3, h4⟩
      · exact ⟨u, y2 ++ z, by rw [h1, h3]; simp⟩
      · cases y2 with
        | nil => exact ⟨u, z, by rw [h1, h3]; simp⟩
        | cons e y2 =>
          simp [rawClose] at h3 h4
          have : e ∈ List.replicate n '#' := by rw [h3.2]; simp
          exact absurd (h4.1.trans (List.mem_replicate.mp this).2) hc

theorem literal_layout {X : Xid} (hX : Sane X) {P z t' : Text} {c' : Char} (plain : c' ∉ c!"'\"#") (hr0 : P = [] → c' ≠ 'r')
    (hcl : ClosesIn z (c' :: t')) (hP : P = [] ∨ ∃ o2 t2 body2 P2, P = body2 ++ P2 ∧ Spelling X o2 t2 body2 (P2 ++ z))
    {w0 : Text} (hw : Word X w0) (hp' : NoCont X (P ++ z)) (hl : ¬ LiteralAt (w0 ++ (P ++ z))) (hr' : ¬ c!"r#" <+: w0 ++ (P ++ z)) :
    ¬ LiteralAt (w0 ++ (P ++ c' :: t')) ∧ ¬ c!"r#" <+: w0 ++ (P ++ c' :: t') := by
  obtain ⟨y0, ys0, rfl, hy0, hys0⟩ := hw
  have no : ∀ d ∈ ys0, d ∉ c!"'\"#" := fun d hd hm => by
    have := hys0 d hd
    rw [not_cont hX d hm] at this
    cases this
  constructor
  · intro hl'
    -- there is something before the white space
    have hsome : ∃ x P', P = x :: P' := by
      cases P with
      | cons x P => exact ⟨x, P, rfl⟩
      | nil =>
        exfalso
        rcases literalAt_cases hl' with ⟨d, t, e, hd⟩ | ⟨d, t, e, hd⟩ | ⟨d, t, e, hd⟩
        · cases ys0 with
          | nil => simp at e; exact plain (by rw [e.2.1]; rcases hd with rfl | rfl <;> decide)
          | cons x xs => simp at e; exact no x (by simp) (by rw [e.2.1]; rcases hd with rfl | rfl <;> decide)
        · cases ys0 with
          | nil => simp at e; exact plain (by rw [e.2.1]; rcases hd with rfl | rfl <;> decide)
          | cons x xs => simp at e; exact no x (by simp) (by rw [e.2.1]; rcases hd with rfl | rfl <;> decide)
        · match ys0 with
          | [] => simp at e; exact absurd e.2.1 (hr0 rfl)
          | [x] => simp at e; exact plain (by rw [e.2.2.1]; rcases hd with rfl | rfl <;> decide)
          | x :: y :: ys => simp at e; exact no y (by simp) (by rw [e.2.2.1]; rcases hd with rfl | rfl <;> decide)
    obtain ⟨x, P', rfl⟩ := hsome
    obtain ⟨o2, t2, body2, P2, hP2, h2⟩ : ∃ o2 t2 body2 P2, x :: P' = body2 ++ P2 ∧ Spelling X o2 t2 body2 (P2 ++ (z)) := by
      rcases hP with hP | hP
      · cases hP
      · exact hP
    obtain ⟨ys, hb2, hP'⟩ : ∃ ys, body2 = x :: ys ∧ P' = ys ++ P2 := by
      cases hb : body2 with
      | nil => exact absurd hb (spelling_ext hX h2).1
      | cons y ys => rw [hb] at hP2; simp at hP2; exact ⟨ys, by rw [hP2.1], hP2.2⟩
    have str : x = '"' → StrLit body2 := fun e => spelling_quote hX h2 (r := ys) (by rw [hb2, e])
    rcases literalAt_cases hl' with ⟨d, t, e, hd⟩ | ⟨d, t, e, hd⟩ | ⟨d, t, e, hd⟩
    · cases ys0 with
      | nil =>
        simp at e
        obtain ⟨rfl, rfl, -⟩ := e
        rcases hd with rfl | rfl
        · exact hr' ⟨_, rfl⟩
        · obtain ⟨a, p3, e3, h3⟩ := rawStr_of_str (str rfl) (P2 ++ (z))
          exact hl ⟨a, p3, by rw [← e3, hP2]; simp, .inl h3⟩
      | cons x xs => simp at e; exact no x (by simp) (by rw [e.2.1]; rcases hd with rfl | rfl <;> decide)
    · cases ys0 with
      | nil =>
        simp at e
        obtain ⟨rfl, rfl, -⟩ := e
        rcases hd with rfl | rfl
        · -- a character or a lifetime
          rcases spelling_tick hX h2 hb2 with h3 | ⟨h3, h4⟩
          · exact hl ⟨'b' :: body2, P2 ++ (z), by rw [hP2]; simp, .inr ⟨_, rfl, .inl h3⟩⟩
          · obtain ⟨z, zs, rfl, hz, hzs⟩ := h3
            obtain ⟨a, p3, e3, h5⟩ := hl'
            have h6 : ∃ q, CharLit q ∧ q <+: '\'' :: z :: zs ++ (P2 ++ (c' :: t')) := by
              rcases h5 with h5 | ⟨q, rfl, h5 | h5 | h5⟩
              · obtain ⟨n, cc, rfl, -⟩ := h5; simp at e3
              · refine ⟨q, h5, p3, ?_⟩
                rw [hP2, hb2] at e3
                simp at e3 ⊢
                exact e3.symm
              · obtain ⟨bb, -, rfl⟩ := h5; simp at e3
              · obtain ⟨n, cc, rfl, -⟩ := h5; simp at e3
            obtain ⟨q, ⟨cb, hcb, rfl⟩, r, hr2⟩ := h6
            cases hcb with
            | single hne =>
              simp at hr2
              obtain ⟨rfl, hr2⟩ := hr2
              cases zs with
              | cons z2 zs2 =>
                simp at hr2
                have := hzs z2 (by simp)
                rw [← hr2.1, not_cont hX '\'' (by decide)] at this
                cases this
              | nil =>
                simp at hr2
                cases P2 with
                | nil =>
                  simp at hr2
                  exact plain (by rw [← hr2.1]; decide)
                | cons z2 zs2 =>
                  simp at hr2
                  exact h4 ⟨rfl, _, _, rfl, hr2.1.symm⟩
            | esc hne =>
              simp at hr2
              exact not_start hX '\\' (by decide) (by rw [hr2.1]; exact hz)
        · exact hl ⟨'b' :: body2, P2 ++ (z), by rw [hP2]; simp, .inr ⟨_, rfl, .inr (.inl (str rfl))⟩⟩
      | cons x xs => simp at e; exact no x (by simp) (by rw [e.2.1]; rcases hd with rfl | rfl <;> decide)
    · cases ys0 with
      | nil =>
        simp at e
        obtain ⟨-, rfl, -⟩ := e
        exact absurd (hp' _ _ rfl) (by rw [hX.cont 'r' (by decide)]; decide)
      | cons x1 xs =>
        cases xs with
        | nil =>
          simp at e
          obtain ⟨rfl, rfl, rfl, -⟩ := e
          rcases hd with rfl | rfl
          · obtain ⟨a, p3, e3, h5⟩ := hl'
            have h6 : ∃ n cc, '#' :: P' ++ (c' :: t') = (List.replicate n '#' ++ c!"\"") ++ (cc ++ rawClose n ++ p3) := by
              rcases h5 with h5 | ⟨q, rfl, h5 | h5 | h5⟩
              · obtain ⟨n, cc, rfl, -⟩ := h5; simp at e3
              · obtain ⟨bb, -, rfl⟩ := h5; simp at e3
              · obtain ⟨bb, -, rfl⟩ := h5; simp at e3
              · obtain ⟨n, cc, rfl, -⟩ := h5
                exact ⟨n, cc, by simp at e3 ⊢; exact e3⟩
            obtain ⟨n, cc, hn⟩ := h6
            have hpre : List.replicate n '#' ++ c!"\"" <+: '#' :: P' := by
              refine (prefix_stop (c := c') (t := t') ?_).mp ⟨_, hn.symm⟩
              intro hm
              refine plain ?_
              rcases List.mem_append.mp hm with h | h
              · rw [(List.mem_replicate.mp h).2]; decide
              · simp at h; rw [h]; decide
            obtain ⟨P3, hP3⟩ := hpre
            rw [← hP3, List.append_assoc] at hn
            have hn := List.append_cancel_left hn
            obtain ⟨u, v, huv⟩ := closes_rest (n := n) hcl (fun h => plain (by rw [h]; decide)) (by simpa using hn)
            replace huv : _ = u ++ rawClose n ++ v := huv
            obtain ⟨u, v, huv, hfo⟩ := firstOcc_exists _ u v (Nat.le_refl _) huv
            refine hl ⟨'b' :: (c!"r" ++ List.replicate n '#' ++ c!"\"" ++ u ++ rawClose n), v, ?_, .inr ⟨_, rfl, .inr (.inr ⟨n, u, rfl, ?_⟩)⟩⟩
            · rw [← hP3]
              simp at huv ⊢
              exact huv
            · rw [← huv]
              exact hfo
          · obtain ⟨a, p3, e3, h3⟩ := rawStr_of_str (str rfl) (P2 ++ (z))
            exact hl ⟨'b' :: a, p3, by rw [hP2]; simp at e3 ⊢; exact e3, .inr ⟨_, rfl, .inr (.inr h3)⟩⟩
        | cons y ys => simp at e; exact no y (by simp) (by rw [e.2.2.1]; rcases hd with rfl | rfl <;> decide)
  · rintro ⟨r, hr⟩
    refine hr' ?_
    cases ys0 with
    | nil =>
      cases P with
      | nil => simp at hr; exact absurd (by rw [← hr.2.1]; decide) plain
      | cons x P' => simp at hr; exact ⟨P' ++ (z), by simp [← hr.1, ← hr.2.1]⟩
    | cons y1 ys0 => simp at hr; exact ⟨ys0 ++ (P ++ (z)), by simp [← hr.1, ← hr.2.1]⟩

end Verif
