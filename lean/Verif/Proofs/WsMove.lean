import Verif.Proofs.Apportion
import Verif.Proofs.Move
/-!
# Whitespace moves along with the nodes

The apportioner on trees and whitespace that are moved, and with more whitespace around.
-/

namespace Verif
open Verif.Spec

/-- No struct of these values has any of `m` in its extent. -/
def Misses (vs : List V) (m : List Ws) : Prop := ∀ k e ws fs, V.node k e ws fs ∈ subsL vs → ∀ w ∈ m, ¬ e.holds w

theorem Misses.append {vs : List V} {m m' : List Ws} (h : Misses vs m) (h' : Misses vs m') : Misses vs (m ++ m') := by
  intro k e ws fs hx w hw
  rcases List.mem_append.mp hw with hw | hw
  · exact h k e ws fs hx w hw
  · exact h' k e ws fs hx w hw

theorem Misses.mono {vs : List V} {m m' : List Ws} (h : Misses vs m) (hs : ∀ w ∈ m', w ∈ m) : Misses vs m' :=
  fun k e ws fs hx w hw => h k e ws fs hx w (hs w hw)

theorem divvyUp_frame {a m c taken m' : List Ws} {e : Extent} (h : Apportioner.divvyUp m e = some (taken, m')) (ha : ∀ w ∈ a, ¬ e.holds w)
    (hc : ∀ w ∈ c, ¬ e.holds w) : Apportioner.divvyUp (a ++ m ++ c) e = some (taken, a ++ m' ++ c) := by
  unfold Apportioner.divvyUp at h ⊢
  split at h
  · cases h
  · rename_i hlt
    rw [if_neg hlt]
    cases h
    have none : ∀ {x : List Ws}, (∀ w ∈ x, ¬ e.holds w) → x.filter (Ws.keyIn e) = [] ∧ x.filter (fun w => !Ws.keyIn e w) = x := by
      intro x hx
      refine ⟨List.filter_eq_nil_iff.mpr fun w hw hk => hx w hw (keyIn_iff.mp hk), List.filter_eq_self.mpr fun w hw => ?_⟩
      cases hk : Ws.keyIn e w with
      | false => rfl
      | true => exact absurd (keyIn_iff.mp hk) (hx w hw)
    simp only [List.filter_append, none ha, none hc, List.nil_append, List.append_nil]

mutual
theorem apportion_frame {a c : List Ws} : ∀ (v : V) (m : Apportioner) (v' : V) (m' : Apportioner), apportion v m = some (v', m') →
    Misses [v] a → Misses [v] c → apportion v (a ++ m ++ c) = some (v', a ++ m' ++ c)
  | .ext e, m, v', m', h, _, _ => by simp [apportion] at h ⊢; obtain ⟨rfl, rfl⟩ := h; simp
  | .bool b, m, v', m', h, _, _ => by simp [apportion] at h ⊢; obtain ⟨rfl, rfl⟩ := h; simp
  | .list vs, m, v', m', h, ha, hc => by
    unfold apportion at h ⊢
    split at h
    · cases h
    · rename_i vs' m1 h1
      cases h
      rw [apportionL_frame vs m _ _ h1 (fun k e ws fs hx => ha k e ws fs (by simpa using hx)) (fun k e ws fs hx => hc k e ws fs (by simpa using hx))]
  | .enm t vs, m, v', m', h, ha, hc => by
    unfold apportion at h ⊢
    split at h
    · cases h
    · rename_i vs' m1 h1
      cases h
      rw [apportionL_frame vs m _ _ h1 (fun k e ws fs hx => ha k e ws fs (by simpa using hx)) (fun k e ws fs hx => hc k e ws fs (by simpa using hx))]
  | .node k e ws vs, m, v', m', h, ha, hc => by
    unfold apportion at h ⊢
    split at h
    · cases h
    · rename_i vs' m1 h1
      rw [apportionF_frame k.fields vs m _ _ h1 (fun k e ws fs hx => ha k e ws fs (by simp [hx])) (fun k e ws fs hx => hc k e ws fs (by simp [hx]))]
      dsimp only
      split at h
      · rename_i hk
        rw [if_pos hk]
        split at h
        · cases h
        · rename_i taken m2 h2
          cases h
          rw [divvyUp_frame h2 (ha k e ws vs (by simp)) (hc k e ws vs (by simp))]
      · rename_i hk
        rw [if_neg hk]
        cases h
        rfl
theorem apportionL_frame {a c : List Ws} : ∀ (vs : List V) (m : Apportioner) (vs' : List V) (m' : Apportioner), apportionL vs m = some (vs', m') →
    Misses vs a → Misses vs c → apportionL vs (a ++ m ++ c) = some (vs', a ++ m' ++ c)
  | [], m, vs', m', h, _, _ => by simp [apportionL] at h ⊢; obtain ⟨rfl, rfl⟩ := h; simp
  | v :: vs, m, vs', m', h, ha, hc => by
    unfold apportionL at h ⊢
    split at h
    · cases h
    · rename_i v1 m1 h1
      rw [apportion_frame v m _ _ h1 (fun k e ws fs hx => ha k e ws fs (by simp at hx ⊢; exact .inl hx))
        (fun k e ws fs hx => hc k e ws fs (by simp at hx ⊢; exact .inl hx))]
      dsimp only
      split at h
      · cases h
      · rename_i vs2 m2 h2
        cases h
        rw [apportionL_frame vs m1 _ _ h2 (fun k e ws fs hx => ha k e ws fs (by simp [hx])) (fun k e ws fs hx => hc k e ws fs (by simp [hx]))]
theorem apportionF_frame {a c : List Ws} : ∀ (fs : List Fld) (vs : List V) (m : Apportioner) (vs' : List V) (m' : Apportioner),
    apportionF fs vs m = some (vs', m') → Misses vs a → Misses vs c → apportionF fs vs (a ++ m ++ c) = some (vs', a ++ m' ++ c)
  | [], vs, m, vs', m', h, _, _ => by simp [apportionF] at h ⊢; obtain ⟨rfl, rfl⟩ := h; simp
  | f :: fs, [], m, vs', m', h, _, _ => by simp [apportionF] at h ⊢; obtain ⟨rfl, rfl⟩ := h; simp
  | f :: fs, v :: vs, m, vs', m', h, ha, hc => by
    unfold apportionF at h ⊢
    split at h
    · cases h
    · rename_i v1 m1 h1
      have h3 : (if f.visited then apportion v (a ++ m ++ c) else some (v, a ++ m ++ c)) = some (v1, a ++ m1 ++ c) := by
        split at h1
        · rename_i hf
          rw [if_pos hf]
          exact apportion_frame v m _ _ h1 (fun k e ws fs hx => ha k e ws fs (by simp at hx ⊢; exact .inl hx))
            (fun k e ws fs hx => hc k e ws fs (by simp at hx ⊢; exact .inl hx))
        · rename_i hf
          rw [if_neg hf]
          cases h1
          rfl
      rw [h3]
      dsimp only
      split at h
      · cases h
      · rename_i vs2 m2 h2
        cases h
        rw [apportionF_frame fs vs m1 _ _ h2 (fun k e ws fs hx => ha k e ws fs (by simp [hx])) (fun k e ws fs hx => hc k e ws fs (by simp [hx]))]
end

@[simp] theorem Ws.moved_extent (d : Nat) (w : Ws) : (w.moved d).extent = w.extent.moved d := by cases w <;> rfl

theorem keyIn_moved (d : Nat) (e : Extent) (w : Ws) : Ws.keyIn (e.moved d) (w.moved d) = Ws.keyIn e w := by
  simp [Ws.keyIn, Extent.moved]

theorem divvyUp_moved {m taken m' : List Ws} {e : Extent} (d : Nat) (h : Apportioner.divvyUp m e = some (taken, m')) :
    Apportioner.divvyUp (m.map (·.moved d)) (e.moved d) = some (taken.map (·.moved d), m'.map (·.moved d)) := by
  unfold Apportioner.divvyUp at h ⊢
  split at h
  · cases h
  · rename_i hlt
    rw [if_neg (by simpa [Extent.moved] using hlt)]
    cases h
    rw [List.filter_map, List.filter_map]
    have e1 : (Ws.keyIn (e.moved d) ∘ fun x => Ws.moved d x) = Ws.keyIn e := by funext w; exact keyIn_moved d e w
    have e2 : ((fun w => !Ws.keyIn (e.moved d) w) ∘ fun x => Ws.moved d x) = fun w => !Ws.keyIn e w := by
      funext w; exact congrArg _ (keyIn_moved d e w)
    rw [e1, e2]

mutual
theorem apportion_moved (d : Nat) : ∀ (v : V) (m : Apportioner) (v' : V) (m' : Apportioner), apportion v m = some (v', m') →
    apportion (moved d v) (m.map (·.moved d)) = some (moved d v', m'.map (·.moved d))
  | .ext e, m, v', m', h => by simp [apportion] at h ⊢; obtain ⟨rfl, rfl⟩ := h; simp
  | .bool b, m, v', m', h => by simp [apportion] at h ⊢; obtain ⟨rfl, rfl⟩ := h; simp
  | .list vs, m, v', m', h => by
    unfold apportion at h
    split at h
    · cases h
    · rename_i vs' m1 h1
      cases h
      simp only [Move.moved_list, apportion, apportionL_moved d vs m _ _ h1]
  | .enm t vs, m, v', m', h => by
    unfold apportion at h
    split at h
    · cases h
    · rename_i vs' m1 h1
      cases h
      simp only [Move.moved_enm, apportion, apportionL_moved d vs m _ _ h1]
  | .node k e ws vs, m, v', m', h => by
    unfold apportion at h
    split at h
    · cases h
    · rename_i vs' m1 h1
      simp only [Move.moved_node, apportion, apportionF_moved d k.fields vs m _ _ h1]
      split at h
      · rename_i hk
        rw [if_pos hk]
        split at h
        · cases h
        · rename_i taken m2 h2
          cases h
          rw [divvyUp_moved d h2]
          simp
      · rename_i hk
        rw [if_neg hk]
        cases h
        rfl
theorem apportionL_moved (d : Nat) : ∀ (vs : List V) (m : Apportioner) (vs' : List V) (m' : Apportioner), apportionL vs m = some (vs', m') →
    apportionL (moveds d vs) (m.map (·.moved d)) = some (moveds d vs', m'.map (·.moved d))
  | [], m, vs', m', h => by simp [apportionL] at h ⊢; obtain ⟨rfl, rfl⟩ := h; simp
  | v :: vs, m, vs', m', h => by
    unfold apportionL at h
    split at h
    · cases h
    · rename_i v1 m1 h1
      split at h
      · cases h
      · rename_i vs2 m2 h2
        cases h
        simp only [Move.moveds_cons, apportionL, apportion_moved d v m _ _ h1, apportionL_moved d vs m1 _ _ h2]
theorem apportionF_moved (d : Nat) : ∀ (fs : List Fld) (vs : List V) (m : Apportioner) (vs' : List V) (m' : Apportioner),
    apportionF fs vs m = some (vs', m') → apportionF fs (moveds d vs) (m.map (·.moved d)) = some (moveds d vs', m'.map (·.moved d))
  | [], vs, m, vs', m', h => by simp [apportionF] at h ⊢; obtain ⟨rfl, rfl⟩ := h; simp
  | f :: fs, [], m, vs', m', h => by simp [apportionF] at h ⊢; obtain ⟨rfl, rfl⟩ := h; simp
  | f :: fs, v :: vs, m, vs', m', h => by
    unfold apportionF at h
    split at h
    · cases h
    · rename_i v1 m1 h1
      have h3 : (if f.visited then apportion (moved d v) (m.map (·.moved d)) else some (moved d v, m.map (·.moved d))) =
          some (moved d v1, m1.map (·.moved d)) := by
        split at h1
        · rename_i hf
          rw [if_pos hf]
          exact apportion_moved d v m _ _ h1
        · rename_i hf
          rw [if_neg hf]
          cases h1
          rfl
      split at h
      · cases h
      · rename_i vs2 m2 h2
        cases h
        simp only [Move.moveds_cons, apportionF, h3, apportionF_moved d fs vs m1 _ _ h2]
end

theorem apportionL_seq {vs ws vs' ws' : List V} {m m' m'' : Apportioner} (h : apportionL vs m = some (vs', m'))
    (h' : apportionL ws m' = some (ws', m'')) : apportionL (vs ++ ws) m = some (vs' ++ ws', m'') := by
  induction vs generalizing m vs' with
  | nil =>
    simp [apportionL] at h
    obtain ⟨rfl, rfl⟩ := h
    exact h'
  | cons v vs ih =>
    unfold apportionL at h
    split at h
    · cases h
    · rename_i v1 m1 h1
      split at h
      · cases h
      · rename_i vs2 m2 h2
        cases h
        simp only [List.cons_append, apportionL, h1, ih h2]

end Verif
