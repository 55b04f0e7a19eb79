import Verif.Proofs.Join
import Verif.Proofs.LexStop
/-!
# Texts that cannot be read, moved and joined

The beginnings of texts (`Begins`) behave like whole texts: see `Proofs/Join`.
-/

namespace Verif
open Verif.Spec

theorem begins_moved {X : Xid} {o : Nat} {ts : List Token} {s rest : Text} (h : Begins X o ts s rest) (d : Nat) :
    Begins X (o + d) (ts.map (·.moved d)) s rest := by
  induction h with
  | none => exact .none
  | @token o t body post ts rest hs _ ih =>
    rw [show o + blen body + d = o + d + blen body by omega] at ih
    exact .token (spelling_moved hs d) ih

/-- Where no token can be read there is no white space. -/
theorem Spec.NoToken.noWs {X : Xid} {s : Text} {n : Nat} {E : LErr → Prop} (h : NoToken X s n E) : s.takeWhile isWs = [] ∧ s.dropWhile isWs = s := by
  have key : ∀ {c : Char} {t : Text}, isWs c = false → (c :: t).takeWhile isWs = [] ∧ (c :: t).dropWhile isWs = c :: t := by
    intro c t hc
    simp [hc]
  cases h with
  | @stray c _ _ _ hw =>
    refine key ?_
    cases hc : isWs c with
    | false => rfl
    | true => exact absurd ((isWs_mem c).mp hc) hw
  | _ => exact key (by decide)

/-- What is left of the beginning of a text, behind the white space at its front. -/
theorem begins_behind {X : Xid} (hX : Sane X) {o : Nat} {ts : List Token} {s rest : Text} {n : Nat} {E : LErr → Prop} (h : Begins X o ts s rest)
    (hn : NoToken X rest n E) : ∃ us, Begins X (o + blen (s.takeWhile isWs)) us (s.dropWhile isWs) rest := by
  cases h with
  | none =>
    rw [hn.noWs.1, hn.noWs.2]
    exact ⟨[], .none⟩
  | @token _ t body post ts _ hs hb =>
    cases hw : (body ++ post).takeWhile isWs with
    | nil =>
      have e := takeWhile_split isWs (body ++ post)
      rw [hw, List.nil_append] at e
      exact ⟨_, by rw [← e]; simpa using Begins.token hs hb⟩
    | cons c w =>
      have h1 := ws_spelling X o (w := c :: w) ((body ++ post).dropWhile isWs) (by simp) fun d hd => (isWs_mem d).mp (takeWhile_all d (hw ▸ hd))
      have h2 : ((body ++ post).dropWhile isWs).takeWhile isWs = [] := by
        cases hd : (body ++ post).dropWhile isWs with
        | nil => rfl
        | cons d r => simp [dropWhile_head hd]
      have h3 : ((body ++ post).dropWhile isWs).dropWhile isWs = (body ++ post).dropWhile isWs := by
        cases hd : (body ++ post).dropWhile isWs with
        | nil => rfl
        | cons d r => simp [dropWhile_head hd]
      rw [h2, h3, List.append_nil] at h1
      have e := takeWhile_split isWs (body ++ post)
      rw [hw] at e
      obtain ⟨l1, e1⟩ := spelling_read hX hs
      obtain ⟨l2, e2⟩ := spelling_read hX h1
      rw [e, e2] at e1
      simp only [Prod.mk.injEq, LRes.ok.injEq, LPoint.mk.injEq] at e1
      obtain ⟨⟨⟨e3, e4⟩, -⟩, -⟩ := e1
      rw [e3, e4]
      exact ⟨_, hb⟩

/-- White space put in front. -/
theorem begins_indent {X : Xid} (hX : Sane X) {o : Nat} {ts : List Token} {s rest : Text} {n : Nat} {E : LErr → Prop} (h : Begins X o ts s rest)
    (hn : NoToken X rest n E) {w : Text} (hws : ∀ c ∈ w, c ∈ wsChars) : ∃ us, Begins X o us (w ++ s) rest := by
  by_cases hw : w = []
  · subst hw
    exact ⟨_, h⟩
  obtain ⟨us, h1⟩ := begins_behind hX h hn
  have h3 := begins_moved h1 (blen w)
  have h4 := ws_spelling X o s hw hws
  have := Begins.token h4 (ts := us.map (·.moved (blen w))) (by
    rw [blen_append, show o + (blen w + blen (s.takeWhile isWs)) = o + blen (s.takeWhile isWs) + blen w by omega]; exact h3)
  rw [List.append_assoc, ← takeWhile_split] at this
  exact ⟨_, this⟩

/-- A text that can be read, and the beginning of another one on the next line. -/
theorem begins_join {X : Xid} (hX : Sane X) {code : Text} {all : List Token} (hf : Finished code all) {o : Nat} {ts : List Token} {s : Text}
    (h : Spelled X o ts s) : ∀ (pre : Text), code = pre ++ s → o = blen pre → (∀ t ∈ ts, t ∈ all) →
    ∀ {next rest : Text} {us : List Token} {n : Nat} {E : LErr → Prop}, NoToken X rest n E →
    Begins X (o + blen s) us ('\n' :: next) rest → ∃ vs, Begins X o vs (s ++ '\n' :: next) rest := by
  induction h with
  | @done o =>
    intro pre _ _ _ next rest us n E hn h
    exact ⟨us, h⟩
  | @token o t body post ts hs hts ih =>
    intro pre hcode ho hall next rest us n E hn h
    subst ho
    obtain ⟨h1, h2⟩ := hf.token hX hcode hs (hall t (by simp))
    by_cases hw : t.kind? = some .Whitespace ∧ post = []
    · obtain ⟨hk, rfl⟩ := hw
      rw [List.append_nil]
      obtain ⟨vs, h3⟩ := begins_behind hX h hn
      have hb := spelling_ws hs hk
      have h5 := ws_spelling X (blen pre) ('\n' :: next) hb.1 hb.2
      have h6 := Begins.token h5 (ts := vs) (rest := rest) (by
        rw [List.append_nil, Nat.add_assoc] at h3
        rw [blen_append]
        exact h3)
      rw [List.append_assoc, ← takeWhile_split] at h6
      exact ⟨_, h6⟩
    · have h3 := spelling_more hX hs hts next (fun hk hp => hw ⟨hk, hp⟩) h1 h2
      obtain ⟨vs, h4⟩ := ih (pre ++ body) (by rw [hcode]; simp) (by simp) (fun t ht => hall t (by simp [ht])) hn
        (by rw [blen_append, ← Nat.add_assoc] at h; exact h)
      refine ⟨t :: vs, ?_⟩
      have := Begins.token h3 h4
      simpa using this

end Verif
