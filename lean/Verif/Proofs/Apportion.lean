import Verif.Apportion
import Verif.Proofs.Origin
/-!
# What the apportioner does
-/

namespace Verif

theorem keyIn_iff {e : Extent} {w : Ws} : Ws.keyIn e w = true ↔ e.holds w := by
  simp [Ws.keyIn, Extent.holds]

/-- No node of these values that gets whitespace has any of `m` in its extent. -/
def Clear (ns : List V) (m : List Ws) : Prop :=
  ∀ k e ws vs, V.node k e ws vs ∈ ns → k.handled = true → ∀ w ∈ m, ¬ e.holds w

/-- The whitespace of each node is in its extent, in order (taken from `m`), and not in the extent of a node below it. -/
def Placed (vs : List V) (m : List Ws) : Prop :=
  ∀ k e ws fs, V.node k e ws fs ∈ subsL vs → ws.Sublist m ∧ (∀ w ∈ ws, e.holds w) ∧ Clear (reachedF k.fields fs) ws ∧
    (k.handled = false → ws = [])

/-- What becomes of values `vs` and the whitespace `m`; `ns'` are the nodes visited. -/
structure Took (vs : List V) (m : List Ws) (vs' ns' : List V) (m' : List Ws) : Prop where
  perm : (wsL vs' ++ m').Perm (wsL vs ++ m)
  sub : m'.Sublist m
  clear : Clear ns' m'
  placed : Placed vs' m
  bare : bareL vs' = bareL vs

/-- No node has whitespace. -/
def NoWs (vs : List V) : Prop := ∀ k e ws fs, V.node k e ws fs ∈ subsL vs → ws = []

theorem Clear.nil {m} : Clear [] m := by intro k e ws vs h; simp at h
theorem Clear.append {a b m} (h : Clear a m) (h' : Clear b m) : Clear (a ++ b) m := by
  intro k e ws vs hx; simp at hx; exact hx.elim (h k e ws vs) (h' k e ws vs)
theorem Clear.sub {a m m'} (h : Clear a m) (hs : m'.Sublist m) : Clear a m' :=
  fun k e ws vs hx hk w hw => h k e ws vs hx hk w (hs.subset hw)

theorem Placed.nil {m} : Placed [] m := by intro k e ws fs h; simp at h
theorem Placed.append {a b m} (h : Placed a m) (h' : Placed b m) : Placed (a ++ b) m := by
  intro k e ws fs hx; rw [subsL_append] at hx; simp at hx; exact hx.elim (h k e ws fs) (h' k e ws fs)
theorem Placed.mono {a m m'} (h : Placed a m') (hs : m'.Sublist m) : Placed a m :=
  fun k e ws fs hx => let ⟨h1, h2⟩ := h k e ws fs hx; ⟨h1.trans hs, h2⟩

theorem NoWs.placed {vs m} (h : NoWs vs) : Placed vs m := by
  intro k e ws fs hx
  cases h k e ws fs hx
  exact ⟨List.nil_sublist _, by simp, by intro k e ws vs _ _ w hw; simp at hw, fun _ => rfl⟩

@[simp] theorem wsL_nil : wsL [] = [] := rfl
@[simp] theorem wsL_append (a b : List V) : wsL (a ++ b) = wsL a ++ wsL b := by simp [wsL, subsL_append]
@[simp] theorem wsL_ext (e : Extent) (vs : List V) : wsL (.ext e :: vs) = wsL vs := by simp [wsL, V.ws]
@[simp] theorem wsL_bool (b : Bool) (vs : List V) : wsL (.bool b :: vs) = wsL vs := by simp [wsL, V.ws]
@[simp] theorem wsL_list (a vs : List V) : wsL (.list a :: vs) = wsL a ++ wsL vs := by simp [wsL, V.ws]
@[simp] theorem wsL_enm (t : Tag) (a vs : List V) : wsL (.enm t a :: vs) = wsL a ++ wsL vs := by simp [wsL, V.ws]
@[simp] theorem wsL_node (k : K) (e : Extent) (ws : List Ws) (a vs : List V) :
    wsL (.node k e ws a :: vs) = ws ++ (wsL a ++ wsL vs) := by simp [wsL, V.ws]
theorem wsL_cons (v : V) (vs : List V) : wsL (v :: vs) = wsL [v] ++ wsL vs := by simp [wsL]

theorem NoWs.left {v vs} (h : NoWs (v :: vs)) : NoWs [v] := fun k e ws fs hx => h k e ws fs (by
  simp at hx ⊢; exact .inl hx)
theorem NoWs.right {v vs} (h : NoWs (v :: vs)) : NoWs vs := fun k e ws fs hx => h k e ws fs (by simp [hx])

theorem Took.refl {vs m} (h : NoWs vs) : Took vs m vs [] m :=
  ⟨.refl _, .refl _, .nil, h.placed, rfl⟩

theorem bareL_append (a b : List V) : bareL (a ++ b) = bareL a ++ bareL b := by
  induction a with
  | nil => rfl
  | cons v a ih => simp [bareL, ih]

theorem Took.seq {a b m a' b' na nb m1 m2} (h : Took a m a' na m1) (h' : Took b m1 b' nb m2) :
    Took (a ++ b) m (a' ++ b') (na ++ nb) m2 where
  perm := by
    have h1 : ((wsL a' ++ wsL b') ++ m2).Perm (wsL a' ++ (wsL b ++ m1)) := by
      rw [List.append_assoc]; exact h'.perm.append_left _
    have h2 : (wsL a' ++ (wsL b ++ m1)).Perm (wsL b ++ (wsL a' ++ m1)) := by
      rw [← List.append_assoc, ← List.append_assoc]
      exact (List.perm_append_comm).append_right _
    have h3 : (wsL b ++ (wsL a' ++ m1)).Perm (wsL b ++ (wsL a ++ m)) := h.perm.append_left _
    have h4 : (wsL b ++ (wsL a ++ m)).Perm (wsL a ++ wsL b ++ m) := by
      rw [← List.append_assoc]
      exact (List.perm_append_comm).append_right _
    simpa using h1.trans (h2.trans (h3.trans h4))
  sub := h'.sub.trans h.sub
  clear := (h.clear.sub h'.sub).append h'.clear
  placed := h.placed.append (h'.placed.mono h.sub)
  bare := by rw [bareL_append, bareL_append, h.bare, h'.bare]

theorem reachedF_single {vs : List V} : reachedL vs = [] ++ reachedL vs := rfl

mutual
theorem apportion_took : ∀ (v : V) (m : Apportioner) (v' : V) (m' : Apportioner), apportion v m = some (v', m') →
    NoWs [v] → Took [v] m [v'] v'.reached m'
  | .ext e, m, v', m', h, hn => by cases h; exact .refl hn
  | .bool b, m, v', m', h, hn => by cases h; exact .refl hn
  | .list vs, m, v', m', h, hn => by
    unfold apportion at h
    split at h
    · cases h
    · rename_i vs' m1 h1
      cases h
      have := apportionL_took vs m vs' _ h1 (fun k e ws fs hx => hn k e ws fs (by simpa using hx))
      exact ⟨by simpa using this.perm, this.sub, this.clear, by
        intro k e ws fs hx; exact this.placed k e ws fs (by simpa using hx), by simp [bareL, V.bare, this.bare]⟩
  | .enm t vs, m, v', m', h, hn => by
    unfold apportion at h
    split at h
    · cases h
    · rename_i vs' m1 h1
      cases h
      have := apportionL_took vs m vs' _ h1 (fun k e ws fs hx => hn k e ws fs (by simpa using hx))
      exact ⟨by simpa using this.perm, this.sub, by
        intro k e ws fs hx
        simp [V.reached] at hx
        exact this.clear k e ws fs hx, by
        intro k e ws fs hx; exact this.placed k e ws fs (by simpa using hx), by simp [bareL, V.bare, this.bare]⟩
  | .node k e ws vs, m, v', m', h, hn => by
    have hw : ws = [] := hn k e ws vs (by simp)
    subst hw
    unfold apportion at h
    split at h
    · cases h
    · rename_i vs' m1 h1
      have ih := apportionF_took k.fields vs m vs' m1 h1 (fun k e ws fs hx => hn k e ws fs (by simp [hx]))
      split at h
      · rename_i hk
        unfold Apportioner.divvyUp at h
        split at h
        · cases h
        · rename_i taken m2 hd
          split at hd
          · cases hd
          · cases hd
            cases h
            have hmem : ∀ w ∈ m1.filter (Ws.keyIn e), e.holds w := fun w hw => keyIn_iff.mp (List.mem_filter.mp hw).2
            have hs1 : (m1.filter (Ws.keyIn e)).Sublist m1 := List.filter_sublist
            have hs2 : (m1.filter (fun w => !Ws.keyIn e w)).Sublist m1 := List.filter_sublist
            refine ⟨?_, hs2.trans ih.sub, ?_, ?_, ?_⟩
            · have hp : (m1.filter (Ws.keyIn e) ++ m1.filter (fun w => !Ws.keyIn e w)).Perm m1 :=
                List.filter_append_perm _ _
              have h2 : (m1.filter (Ws.keyIn e) ++ wsL vs' ++ m1.filter (fun w => !Ws.keyIn e w)).Perm
                  (wsL vs' ++ m1) := by
                refine (List.perm_append_comm.append_right _).trans ?_
                rw [List.append_assoc]
                exact hp.append_left _
              simpa using h2.trans ih.perm
            · intro k' e' ws' fs hx hk' w hw
              simp only [V.reached, List.mem_cons, V.node.injEq] at hx
              rcases hx with ⟨rfl, rfl, rfl, rfl⟩ | hx
              · have := (List.mem_filter.mp hw).2
                intro hh
                rw [keyIn_iff.mpr hh] at this
                cases this
              · exact ih.clear k' e' ws' fs hx hk' w (hs2.subset hw)
            · intro k' e' ws' fs hx
              simp only [subsL_cons, subs_node, subsL_nil, List.append_nil, List.mem_cons, V.node.injEq] at hx
              rcases hx with ⟨rfl, rfl, rfl, rfl⟩ | hx
              · exact ⟨by simpa using hs1.trans ih.sub, by simpa using hmem, by simpa using ih.clear.sub hs1,
                  by simp [hk]⟩
              · exact ih.placed k' e' ws' fs hx
            · simp [bareL, V.bare, ih.bare]
      · rename_i hk
        cases h
        refine ⟨by simpa using ih.perm, ih.sub, ?_, ?_, by simp [bareL, V.bare, ih.bare]⟩
        · intro k' e' ws' fs hx hk' w hw
          simp only [V.reached, List.mem_cons, V.node.injEq] at hx
          rcases hx with ⟨rfl, rfl, rfl, rfl⟩ | hx
          · exact absurd hk' hk
          · exact ih.clear k' e' ws' fs hx hk' w hw
        · intro k' e' ws' fs hx
          simp only [subsL_cons, subs_node, subsL_nil, List.append_nil, List.mem_cons, V.node.injEq] at hx
          rcases hx with ⟨rfl, rfl, rfl, rfl⟩ | hx
          · exact ⟨by simp, by simp, by intro k e ws vs _ _ w hw; simp at hw, fun _ => rfl⟩
          · exact ih.placed k' e' ws' fs hx
theorem apportionL_took : ∀ (vs : List V) (m : Apportioner) (vs' : List V) (m' : Apportioner),
    apportionL vs m = some (vs', m') → NoWs vs → Took vs m vs' (reachedL vs') m'
  | [], m, vs', m', h, hn => by cases h; exact .refl hn
  | v :: vs, m, vs', m', h, hn => by
    unfold apportionL at h
    split at h
    · cases h
    · rename_i v1 m1 h1
      split at h
      · cases h
      · rename_i vs1 m2 h2
        cases h
        exact (apportion_took v m v1 m1 h1 hn.left).seq (apportionL_took vs _ vs1 _ h2 hn.right)
theorem apportionF_took : ∀ (fs : List Fld) (vs : List V) (m : Apportioner) (vs' : List V) (m' : Apportioner),
    apportionF fs vs m = some (vs', m') → NoWs vs → Took vs m vs' (reachedF fs vs') m'
  | [], vs, m, vs', m', h, hn => by
    unfold apportionF at h; cases h; simpa [reachedF] using Took.refl hn
  | f :: fs, [], m, vs', m', h, hn => by
    unfold apportionF at h; cases h; exact .refl hn
  | f :: fs, v :: vs, m, vs', m', h, hn => by
    unfold apportionF at h
    split at h
    · cases h
    · rename_i v1 m1 h1
      split at h
      · cases h
      · rename_i vs1 m2 h2
        cases h
        have ih := apportionF_took fs vs _ vs1 _ h2 hn.right
        by_cases hf : f.visited = true
        · rw [if_pos hf] at h1
          have := (apportion_took v m v1 m1 h1 hn.left).seq ih
          simpa [reachedF, hf] using this
        · rw [if_neg hf] at h1
          cases h1
          have := (Took.refl hn.left).seq ih
          simpa [reachedF, hf] using this
end

/-- Every node's extent is in order. -/
def Ordered (vs : List V) : Prop := ∀ k e ws fs, V.node k e ws fs ∈ subsL vs → e.s ≤ e.e

mutual
theorem apportion_some : ∀ (v : V) (m : Apportioner), Ordered [v] → ∃ r, apportion v m = some r
  | .ext e, m, h => ⟨_, rfl⟩
  | .bool b, m, h => ⟨_, rfl⟩
  | .list vs, m, h => by
    obtain ⟨r, hr⟩ := apportionL_some vs m (fun k e ws fs hx => h k e ws fs (by simpa using hx))
    unfold apportion; rw [hr]; exact ⟨_, rfl⟩
  | .enm t vs, m, h => by
    obtain ⟨r, hr⟩ := apportionL_some vs m (fun k e ws fs hx => h k e ws fs (by simpa using hx))
    unfold apportion; rw [hr]; exact ⟨_, rfl⟩
  | .node k e ws vs, m, h => by
    obtain ⟨r, hr⟩ := apportionF_some k.fields vs m (fun k e ws fs hx => h k e ws fs (by simp [hx]))
    have he := h k e ws vs (by simp)
    unfold apportion; rw [hr]
    dsimp only
    split
    · unfold Apportioner.divvyUp
      rw [if_neg (by omega)]
      exact ⟨_, rfl⟩
    · exact ⟨_, rfl⟩
theorem apportionL_some : ∀ (vs : List V) (m : Apportioner), Ordered vs → ∃ r, apportionL vs m = some r
  | [], m, h => ⟨_, rfl⟩
  | v :: vs, m, h => by
    obtain ⟨r, hr⟩ := apportion_some v m (fun k e ws fs hx => h k e ws fs (by
      simp at hx ⊢; exact .inl hx))
    obtain ⟨r', hr'⟩ := apportionL_some vs r.2 (fun k e ws fs hx => h k e ws fs (by simp [hx]))
    unfold apportionL; rw [hr]; dsimp only; rw [hr']; exact ⟨_, rfl⟩
theorem apportionF_some : ∀ (fs : List Fld) (vs : List V) (m : Apportioner), Ordered vs →
    ∃ r, apportionF fs vs m = some r
  | [], vs, m, h => ⟨_, by unfold apportionF; rfl⟩
  | f :: fs, [], m, h => ⟨_, by unfold apportionF; rfl⟩
  | f :: fs, v :: vs, m, h => by
    have hv : Ordered [v] := fun k e ws fs hx => h k e ws fs (by simp at hx ⊢; exact .inl hx)
    have hv' : ∃ r, (if f.visited = true then apportion v m else some (v, m)) = some r := by
      split
      · exact apportion_some v m hv
      · exact ⟨_, rfl⟩
    obtain ⟨r, hr⟩ := hv'
    obtain ⟨r', hr'⟩ := apportionF_some fs vs r.2 (fun k e ws fs hx => h k e ws fs (by simp [hx]))
    unfold apportionF; rw [hr]; dsimp only; rw [hr']; exact ⟨_, rfl⟩
end

/-- Whitespace in order, by start. -/
def Increasing (m : List Ws) : Prop := m.Pairwise (fun a b => a.extent.s < b.extent.s)

theorem push_last {m : Apportioner} {w : Ws} (h : ∀ x ∈ m, x.extent.s < w.extent.s) : m.push w = m ++ [w] := by
  induction m with
  | nil => rfl
  | cons x m ih =>
    have hx := h x (by simp)
    unfold Apportioner.push
    rw [if_neg (by omega), if_neg (by omega), ih (fun y hy => h y (by simp [hy]))]
    rfl

theorem push_all {ws : List Ws} : ∀ {m : Apportioner}, Increasing (m ++ ws) → ws.foldl Apportioner.push m = m ++ ws := by
  induction ws with
  | nil => simp
  | cons w ws ih =>
    intro m h
    have h' := List.pairwise_append.mp h
    rw [List.foldl_cons, push_last (fun x hx => h'.2.2 x hx w (by simp)), ih (by simpa using h)]
    simp

end Verif
