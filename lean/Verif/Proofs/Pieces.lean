import Verif.Proofs.SyntaxEngine
/-!
# The tokens between two points
-/

namespace Verif
open Verif.Spec

/-- The tokens, whole or cut, that are read on the way from one point to another. -/
inductive Path (toks : List Token) : Pt → Pt → List Token → Prop
  | nil {p} : Path toks p p []
  | whole {p q t ts} : current toks p = some t → Path toks (p.advanceBy 1) q ts → Path toks p q (t :: ts)
  | part {p q o h r ts} : toks[p.off]? = some o → split o p.subw = some (h, r) → Path toks ⟨p.off, some p.subw⟩ q ts →
      Path toks p q (h :: ts)

section
variable {toks : List Token}

theorem Path.append {p m q : Pt} {a b : List Token} (h : Path toks p m a) (h' : Path toks m q b) : Path toks p q (a ++ b) := by
  induction h with
  | nil => exact h'
  | whole hc _ ih => exact .whole hc (ih h')
  | part ho hs _ ih => exact .part ho hs (ih h')

/-- A token that is read. -/
theorem TokStep.path {α : Type} {conv : Token → Option α} {p q : Pt} {v : α} (h : TokStep toks conv p q v) :
    ∃ t, conv t = some v ∧ Path toks p q [t] := by
  cases h with
  | whole hc hv => exact ⟨_, hv, .whole hc .nil⟩
  | part ho _ _ hs hv => exact ⟨_, hv, .part ho hs .nil⟩

theorem convTK_some {k : TK} {t : Token} {e : Extent} (h : convTK k t = some e) : t = .plain k e := by
  unfold convTK at h
  split at h
  · split at h
    · next hk => cases h; rw [hk]
    · cases h
  · cases h

theorem convNumber_some {t : Token} {n : Number} (h : convNumber t = some n) : t = .number n := by
  unfold convNumber at h
  split at h
  · cases h
  · cases h; rfl

theorem TokStep.pathTK {k : TK} {p q : Pt} {e : Extent} (h : TokStep toks (convTK k) p q e) : Path toks p q [.plain k e] := by
  obtain ⟨t, ht, hp⟩ := h.path
  rw [convTK_some ht] at hp
  exact hp

theorem TokStep.pathNumber {p q : Pt} {n : Number} (h : TokStep toks convNumber p q n) : Path toks p q [.number n] := by
  obtain ⟨t, ht, hp⟩ := h.path
  rw [convNumber_some ht] at hp
  exact hp

theorem Pt.subw_inj {p q : Pt} (h : p.off = q.off) (h' : p.subw = q.subw) : p = q := by
  obtain ⟨o, s⟩ := p; obtain ⟨o', s'⟩ := q
  cases h
  cases s <;> cases s' <;> simp_all [Pt.subw]

theorem split_down {t : Token} {n m : Nat} (h : (split t n).isSome) (hm : m ≤ n) : (split t m).isSome := by
  unfold split at h
  split at h
  all_goals try (have : m = 0 := by omega); subst this; rfl
  · next s e =>
    have : m = 0 ∨ m = 1 := by omega
    rcases this with rfl | rfl <;> rfl
  · simp at h

theorem ValidPt.current {p : Pt} (h : ValidPt toks p) : ∃ t, current toks p = some t := by
  obtain ⟨t, ht, hs⟩ := h
  unfold Verif.current
  rw [ht]
  cases hp : p.sub with
  | none => exact ⟨t, rfl⟩
  | some n =>
    have := hs n hp
    obtain ⟨x, hx⟩ := Option.isSome_iff_exists.mp this
    exact ⟨x.2, by simp [hx]⟩

/-- There is a way from any point to any later one. -/
theorem Btw.path {p q : Pt} (h : Btw toks p q) : ∃ ts, Path toks p q ts := by
  obtain ⟨hp, hq, hk⟩ := h
  generalize hn : q.key - p.key = n
  induction n using Nat.strongRecOn generalizing p with
  | _ n ih =>
    have hpw := hp.subw_le
    have hqw := hq.subw_le
    unfold Pt.key at hk hn
    by_cases ho : p.off = q.off
    · by_cases hw : p.subw = q.subw
      · rw [Pt.subw_inj ho hw]; exact ⟨[], .nil⟩
      · obtain ⟨t, ht, hs⟩ := hq
        have hlt : p.subw < q.subw := by omega
        cases hqs : q.sub with
        | none => simp [Pt.subw, hqs] at hlt
        | some m =>
          have hm : p.subw ≤ m := by simp [Pt.subw, hqs] at hlt ⊢; omega
          have h1 := split_down (hs m hqs) hm
          obtain ⟨⟨a, b⟩, hx⟩ := Option.isSome_iff_exists.mp h1
          have ht' : toks[p.off]? = some t := by rw [ho]; exact ht
          have hv : ValidPt toks ⟨p.off, some p.subw⟩ := ⟨t, ht', fun n hn => by cases hn; exact h1⟩
          have hw' : (⟨p.off, some p.subw⟩ : Pt).subw = p.subw + 1 := rfl
          obtain ⟨ts, hts⟩ := ih (q.key - (⟨p.off, some p.subw⟩ : Pt).key) (by unfold Pt.key; rw [hw']; dsimp only; omega) hv
            (by unfold Pt.key; rw [hw']; dsimp only; omega) rfl
          exact ⟨_, .part ht' hx hts⟩
    · obtain ⟨t, ht⟩ := hp.current
      have hlt : p.off + 1 ≤ q.off := by omega
      have hv : ValidPt toks (p.advanceBy 1) := by
        obtain ⟨u, hu, -⟩ := hq
        have hl : q.off < toks.length := by
          rcases Nat.lt_or_ge q.off toks.length with h | h
          · exact h
          · rw [List.getElem?_eq_none h] at hu; cases hu
        refine ⟨toks[p.off + 1]'(by omega), ?_, fun n hn => by cases hn⟩
        exact List.getElem?_eq_getElem (by show p.off + 1 < _; omega)
      have hw' : (p.advanceBy 1).subw = 0 := rfl
      have ho' : (p.advanceBy 1).off = p.off + 1 := rfl
      obtain ⟨ts, hts⟩ := ih (q.key - (p.advanceBy 1).key) (by unfold Pt.key; rw [hw', ho']; omega) hv
        (by unfold Pt.key; rw [hw', ho']; omega) rfl
      exact ⟨_, .whole ht hts⟩

/-- The extents of the pieces of a token. -/
theorem split_extents {t h r : Token} {n : Nat} (hs : split t n = some (h, r)) :
    h.extent = ⟨t.extent.s + n, t.extent.s + n + 1⟩ ∧ r.extent = ⟨t.extent.s + n + 1, t.extent.e⟩ := by
  unfold split at hs
  split at hs <;> simp at hs <;> obtain ⟨rfl, rfl⟩ := hs <;> exact ⟨rfl, rfl⟩

theorem current_extent {p : Pt} {t : Token} (h : current toks p = some t) :
    ∃ o, toks[p.off]? = some o ∧ t.extent = ⟨o.extent.s + p.subw, o.extent.e⟩ := by
  unfold current at h
  split at h
  · cases h
  · next o ho =>
    refine ⟨o, ho, ?_⟩
    split at h
    · next n hn =>
      cases hs : split o n with
      | none => rw [hs] at h; cases h
      | some x =>
        rw [hs] at h; cases h
        rw [(split_extents (h := x.1) (r := x.2) hs).2]
        simp [Pt.subw, hn, Nat.add_assoc]
    · next hn => cases h; simp [Pt.subw, hn]

/-- The extent of a token that is read. -/
theorem TokStep.ex {k : TK} {p q : Pt} {e e' : Extent} (h : TokStep toks (convTK k) p q e) (he : ex toks p q = some e') : e' = e := by
  unfold Verif.ex at he
  cases h with
  | whole hc hv =>
    obtain ⟨o, ho, hx⟩ := current_extent hc
    rw [ho] at he
    have := congrArg Token.extent (convTK_some hv)
    rw [hx] at this
    simp [Pt.advanceBy, ho, Pt.subw] at he
    rw [← he]
    exact this
  | part ho _ _ hs hv =>
    rw [ho] at he
    have := congrArg Token.extent (convTK_some hv)
    rw [(split_extents hs).1] at this
    simp [show ∀ n m : Nat, (⟨n, some m⟩ : Pt).subw = m + 1 from fun _ _ => rfl] at he
    rw [← he]
    exact this

theorem Path.starts {p q : Pt} {t : Token} {ts : List Token} (h : Path toks p q (t :: ts)) :
    ∃ o, toks[p.off]? = some o ∧ t.extent.s = o.extent.s + p.subw := by
  cases h with
  | whole hc _ =>
    obtain ⟨o, ho, hx⟩ := current_extent hc
    exact ⟨o, ho, by rw [hx]⟩
  | part ho hs _ => exact ⟨_, ho, by rw [(split_extents hs).1]⟩

theorem Path.ends {p q : Pt} {ts : List Token} (h : Path toks p q ts) (hq : q.sub = none) (hn : ts ≠ []) :
    ∃ b u, ts.getLast? = some b ∧ toks[q.off - 1]? = some u ∧ b.extent.e = u.extent.e ∧ p.off < q.off := by
  induction h with
  | nil => cases hn rfl
  | @whole p q t ts hc hp ih =>
    cases ts with
    | nil =>
      cases hp
      obtain ⟨o, ho, hx⟩ := current_extent hc
      exact ⟨t, o, rfl, ho, by rw [hx], by simp [Pt.advanceBy]⟩
    | cons u ts =>
      obtain ⟨b, u, h1, h2, h3, h4⟩ := ih hq (by simp)
      simp only [Pt.advanceBy] at h4
      exact ⟨b, u, by rw [List.getLast?_cons_cons]; exact h1, h2, h3, by omega⟩
  | @part p q o h r ts ho hs hp ih =>
    cases ts with
    | nil => cases hp; cases hq
    | cons u ts =>
      obtain ⟨b, u, h1, h2, h3, h4⟩ := ih hq (by simp)
      exact ⟨b, u, by rw [List.getLast?_cons_cons]; exact h1, h2, h3, h4⟩

theorem Path.off_le {p q : Pt} {ts : List Token} (h : Path toks p q ts) : p.off ≤ q.off := by
  induction h with
  | nil => exact Nat.le_refl _
  | whole _ _ ih => exact Nat.le_of_succ_le ih
  | part _ _ _ ih => exact ih

/-- The extent of what is between two points. -/
theorem Path.covers {p q : Pt} {ts : List Token} {e : Extent} (h : Path toks p q ts) (hq : q.sub = none)
    (he : ex toks p q = some e) : Covers e ts := by
  cases ts with
  | nil =>
    cases h
    unfold Verif.ex at he
    split at he
    · cases he
    · simp at he; rw [← he]; rfl
  | cons t ts =>
    obtain ⟨o, ho, hs⟩ := h.starts
    obtain ⟨b, u, h1, h2, h3, h4⟩ := h.ends hq (by simp)
    unfold Covers
    rw [h1]
    unfold Verif.ex at he
    rw [ho] at he
    simp only [h4, if_true, h2, Option.some.injEq] at he
    simp [← he, hs, h3, Pt.subw, hq]

theorem split_symbol {o h r : Token} {n : Nat} (hs : split o n = some (h, r)) :
    ∃ k e w c k1 k2, o = .plain k e ∧ symbolText k = some w ∧ h = .plain k1 ⟨e.s + n, e.s + n + 1⟩ ∧ symbolText k1 = some [c] ∧
      w.drop n = c :: w.drop (n + 1) ∧ r = .plain k2 ⟨e.s + n + 1, e.e⟩ ∧ symbolText k2 = some (w.drop (n + 1)) ∧
      w.drop (n + 1) ≠ [] := by
  unfold split at hs
  split at hs <;> cases hs <;>
    exact ⟨_, _, _, _, _, _, rfl, rfl, rfl, rfl, rfl, rfl, rfl, by simp⟩

/-- The last piece before a point inside of a token. -/
theorem Path.ends_cut {p q : Pt} {ts : List Token} {n : Nat} (h : Path toks p q ts) (hq : q.sub = some n) (hn : ts ≠ []) :
    ∃ b o r, ts.getLast? = some b ∧ toks[q.off]? = some o ∧ split o n = some (b, r) ∧ (p.off = q.off → p.subw < q.subw) ∧
      (p.off < q.off → 1 < ts.length) := by
  induction h with
  | nil => cases hn rfl
  | @whole p q t ts hc hp ih =>
    have hle := hp.off_le
    simp only [Pt.advanceBy] at hle
    cases ts with
    | nil => cases hp; cases hq
    | cons u ts =>
      obtain ⟨b, o, r, h1, h2, h3, -⟩ := ih hq (by simp)
      exact ⟨b, o, r, by rw [List.getLast?_cons_cons]; exact h1, h2, h3, fun h => by omega, fun _ => by simp⟩
  | @part p q o h r ts ho hs hp ih =>
    cases ts with
    | nil =>
      cases hp
      cases hq
      exact ⟨h, o, r, rfl, ho, hs, fun _ => Nat.lt_succ_self _, fun h => absurd h (Nat.lt_irrefl _)⟩
    | cons u ts =>
      obtain ⟨b, o, r, h1, h2, h3, h4, -⟩ := ih hq (by simp)
      exact ⟨b, o, r, by rw [List.getLast?_cons_cons]; exact h1, h2, h3, fun h => Nat.lt_of_succ_lt (h4 h), fun _ => by simp⟩

/-- The extent of what is between two points, one of which may be inside of a token. -/
theorem Path.spans {p q : Pt} {ts : List Token} {e : Extent} (h : Path toks p q ts) (he : ex toks p q = some e) :
    Spans toks e ts := by
  cases hq : q.sub with
  | none =>
    have := h.covers hq he
    unfold Covers at this
    unfold Spans
    split
    · next h1 h2 =>
      rw [h1, h2] at this
      simp only at this
      rw [this]
      exact ⟨rfl, .inl rfl⟩
    · next h1 =>
      split at this
      · next h2 h3 => exact (h1 _ _ h2 h3).elim
      · exact this
  | some n =>
    cases ts with
    | nil =>
      cases h
      unfold Verif.ex at he
      split at he
      · cases he
      · simp at he; rw [← he]; rfl
    | cons t ts =>
      obtain ⟨o, ho, hs⟩ := h.starts
      obtain ⟨b, c, r, h1, h2, h3, h4, h5⟩ := h.ends_cut hq (by simp)
      have hb := (split_extents h3).1
      have hw : q.subw = n + 1 := by simp [Pt.subw, hq]
      unfold Spans
      rw [h1]
      simp only [List.head?_cons]
      unfold Verif.ex at he
      rw [ho] at he
      dsimp only at he
      split at he
      · next hlt =>
        split at he
        · cases he
        · next u hu =>
          cases he
          refine ⟨hs.symm, .inr ⟨h5 hlt, q.off - 1, u, ?_⟩⟩
          obtain ⟨k, e, w, c', k1, k2, rfl, hw', -, -, hd, -, -, hne⟩ := split_symbol h3
          refine ⟨k, e, w, n + 1, hu, by rw [Nat.sub_add_cancel (by omega)]; exact h2, hw', by omega, ?_, by rw [hb]; rfl, by rw [hw]⟩
          have := List.length_pos_iff.mpr hne
          simp at this
          omega
      · split at he
        · next hpq =>
          rw [if_pos (h4 hpq)] at he
          cases he
          rw [hpq] at ho
          rw [ho] at h2; cases h2
          exact ⟨hs.symm, .inl (by rw [hb, hw]; rfl)⟩
        · cases he

/-- The extent of a place without tokens. -/
theorem Path.empty {p q : Pt} {ts : List Token} {e : Extent} (h : Path toks p q ts) (he : ex toks p p = some e) :
    e.s = e.e ∧ ∀ a, ts.head? = some a → e.s = a.extent.s := by
  unfold Verif.ex at he
  split at he
  · cases he
  · next t ht =>
    simp at he
    rw [← he]
    refine ⟨rfl, fun a ha => ?_⟩
    cases ts with
    | nil => cases ha
    | cons b ts =>
      cases ha
      obtain ⟨o, ho, hs⟩ := h.starts
      rw [ho] at ht; cases ht
      exact hs.symm

theorem _root_.Verif.Spec.Spans.extends {k : K} {e : Extent} {ts : List Token} (h : Spans toks e ts) (hk : emptyExtent k = false) :
    Extends toks k e ts := by
  unfold Extends
  rw [if_neg (by simp [hk])]
  split
  · exact ⟨[], by simpa using h⟩
  · split
    · exact ⟨[], h⟩
    · exact h

theorem _root_.Verif.Spec.Extends.of_empty {k : K} {e : Extent} {ts : List Token} (hk : emptyExtent k = true)
    (h : e.s = e.e ∧ ∀ a, ts.head? = some a → e.s = a.extent.s) : Extends toks k e ts := by
  unfold Extends
  rw [if_pos hk]
  exact h

theorem _root_.Verif.Spec.Extends.of_prefix {k : K} {e : Extent} {ts : List Token} (hk : withAttributes k = true)
    (h : ∃ attributes, Spans toks e (attributes ++ ts)) : Extends toks k e ts := by
  unfold Extends
  rw [if_neg (by intro h; revert hk h; cases k <;> decide), if_neg (by rintro rfl; cases hk), if_pos hk]
  exact h

/-- The extent of a single token. -/
theorem _root_.Verif.Spec.Spans.one {e : Extent} {t : Token} (h : Spans toks e [t]) : e = t.extent := by
  obtain ⟨h1, h2 | h2⟩ := h
  · obtain ⟨s, e⟩ := e; simp at h1 h2; rw [h1, h2]
  · simp at h2

theorem spans_one {t : Token} {e : Extent} (h : t.extent = e) : Spans toks e [t] := by
  subst h; exact ⟨rfl, .inl rfl⟩

end

end Verif
