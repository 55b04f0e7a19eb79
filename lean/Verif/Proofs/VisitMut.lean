import Verif.Spec.VisitMut
import Verif.Proofs.Visit
/-!
# Proofs about visitors that change the tree
-/

namespace Verif
open Verif.Spec

theorem depthL_mem {v : V} {vs : List V} (h : v ∈ vs) : v.depth ≤ depthL vs := by
  induction vs with
  | nil => cases h
  | cons u vs ih =>
    rw [depthL]
    rcases List.mem_cons.mp h with rfl | h
    · exact Nat.le_max_left ..
    · exact Nat.le_trans (ih h) (Nat.le_max_right ..)

theorem V.depth_pos (v : V) : 0 < v.depth := by cases v <;> simp [V.depth]

/-! ## A visitor that changes nothing -/

section
variable {σ : Type} {ro : Visitor σ}

theorem asMut_ws (w : Ws) (s : σ) : ro.asMut.visitWs w s = some (w, ro.visitWs w s) := by
  unfold VisitorMut.visitWs Visitor.visitWs aroundMut Visitor.around
  simp only [Visitor.asMut]
  generalize ro.visit (.whitespace w) s = r
  obtain ⟨c, s⟩ := r
  cases c
  · cases w with
    | whitespace e => rfl
    | commentLine e =>
      simp only [aroundMut, CommentM.ws, Bool.false_eq_true, if_false, Visitor.around]
      generalize ro.visit (.comment (.commentLine e)) s = r
      obtain ⟨c, s⟩ := r
      cases c <;> simp [ExitM.default, CommentM.ws]
    | commentBlock e =>
      simp only [aroundMut, CommentM.ws, if_true, Visitor.around]
      generalize ro.visit (.comment (.commentBlock e)) s = r
      obtain ⟨c, s⟩ := r
      cases c <;> simp [ExitM.default, CommentM.ws]
  · rfl

theorem asMut_wss (ws : List Ws) (s : σ) : visitMutAll ro.asMut.visitWs ws s = some (ws, ro.visitWss ws s) := by
  induction ws generalizing s with
  | nil => rfl
  | cons w ws ih => simp only [visitMutAll, asMut_ws, ih, Visitor.visitWss]

theorem asMut_all {n : Nat} (ih : ∀ v s, v.depth ≤ n → ro.asMut.visitV n v s = some (v, ro.visitV v s)) (vs : List V) (s : σ)
    (h : depthL vs ≤ n) : visitMutAll (ro.asMut.visitV n) vs s = some (vs, ro.visitL vs s) := by
  induction vs generalizing s with
  | nil => rfl
  | cons v vs ihv =>
    rw [depthL] at h
    simp only [visitMutAll, ih v s (by omega), ihv _ (by omega), Visitor.visitL]

theorem asMut_fields {n : Nat} (ih : ∀ v s, v.depth ≤ n → ro.asMut.visitV n v s = some (v, ro.visitV v s)) (fs : List Fld) (vs : List V)
    (s : σ) (h : depthL vs ≤ n) : visitMutFields (ro.asMut.visitV n) fs vs s = some (vs, ro.visitF fs vs s) := by
  induction vs generalizing s fs with
  | nil => cases fs <;> simp [visitMutFields, Visitor.visitF]
  | cons v vs ihv =>
    cases fs with
    | nil => simp [visitMutFields, Visitor.visitF]
    | cons f fs =>
      rw [depthL] at h
      rw [visitMutFields, Visitor.visitF]
      by_cases hf : f.visited = true
      · simp only [hf, if_true, ih v s (by omega), ihv _ _ (show depthL vs ≤ n by omega)]
      · simp only [hf, if_false, ihv _ _ (show depthL vs ≤ n by omega), Bool.false_eq_true]

theorem asMut_visitV (n : Nat) : ∀ v s, v.depth ≤ n → ro.asMut.visitV n v s = some (v, ro.visitV v s) := by
  induction n with
  | zero => intro v s h; have := v.depth_pos; omega
  | succ n ih =>
    intro v s h
    cases v with
    | ext e => rfl
    | bool b => rfl
    | list vs =>
      rw [V.depth] at h
      rw [VisitorMut.visitV, asMut_all ih vs s (by omega), Visitor.visitV]; rfl
    | enm t vs =>
      rw [V.depth] at h
      rw [VisitorMut.visitV, Visitor.visitV]
      unfold aroundMut Visitor.around
      simp only [Visitor.asMut]
      generalize ro.visit (.value (.enm t vs)) s = r
      obtain ⟨c, s⟩ := r
      cases c
      · have := asMut_all ih vs s (by omega)
        simp only [Visitor.asMut] at this
        simp [this]
      · rfl
    | node k e ws vs =>
      rw [V.depth] at h
      rw [VisitorMut.visitV, Visitor.visitV]
      have hF : ∀ s, visitMutFields (ro.asMut.visitV n) k.fields vs s = some (vs, ro.visitF k.fields vs s) :=
        fun s => asMut_fields ih k.fields vs s (by omega)
      have hW : ∀ s, visitMutAll ro.asMut.visitWs ws s = some (ws, ro.visitWss ws s) := asMut_wss ws
      have hv : ∀ d s, ro.asMut.visitNode k d s = some ((ro.visit (.value (.node k d.extent d.whitespace d.fields)) s).1, d,
        (ro.visit (.value (.node k d.extent d.whitespace d.fields)) s).2) := fun _ _ => rfl
      have hx : ∀ d s, ro.asMut.exitNode k d s = some (d, ro.exit (.value (.node k d.extent d.whitespace d.fields)) s) := fun _ _ => rfl
      unfold aroundMut Visitor.around
      by_cases hk : k.isAttributed = true
      · simp [hk, hv, hx, hF]
      · simp only [hk, Bool.false_eq_true, if_false, hv]
        generalize ro.visit (.value (.node k e ws vs)) s = r
        obtain ⟨c, s⟩ := r
        cases c
        · simp [hF, hW, hx]
        · simp [hx]

theorem asMut_visitF (n : Nat) (f : File) (s : σ) (h : depthL f.items ≤ n) : ro.asMut.visitF n f s = some (f, ro.visitFile f s) := by
  have h1 : ∀ s, visitMutAll (ro.asMut.visitV n) f.items s = some (f.items, ro.visitL f.items s) :=
    fun s => asMut_all (asMut_visitV n) f.items s h
  have hv : ∀ s, ro.asMut.visitFile f s = some ((ro.visit (.file f) s).1, f, (ro.visit (.file f) s).2) := fun _ => rfl
  have hx : ∀ f s, ro.asMut.exitFile f s = some (f, ro.exit (.file f) s) := fun _ _ => rfl
  unfold VisitorMut.visitF Visitor.visitFile aroundMut Visitor.around
  simp only [hv]
  generalize ro.visit (.file f) s = r
  obtain ⟨c, s⟩ := r
  cases c
  · simp [h1, asMut_wss, hx]
  · simp [hx]

end

/-! ## Changes made on leaving -/

section
variable {E : Edits}

theorem edits_ws (w : Ws) (s : Unit) : E.visitor.visitWs w s = some (E.ws w, ()) := by
  cases w <;> rfl

theorem edits_wss (ws : List Ws) (s : Unit) : visitMutAll E.visitor.visitWs ws s = some (ws.map E.ws, ()) := by
  induction ws generalizing s with
  | nil => rfl
  | cons w ws ih => simp only [visitMutAll, edits_ws, ih, List.map_cons]

theorem edits_all {n : Nat} (ih : ∀ v s, v.depth ≤ n → E.visitor.visitV n v s = some (E.apply v, ())) (vs : List V) (s : Unit)
    (h : depthL vs ≤ n) : visitMutAll (E.visitor.visitV n) vs s = some (E.applyL vs, ()) := by
  induction vs generalizing s with
  | nil => rfl
  | cons v vs ihv =>
    rw [depthL] at h
    simp only [visitMutAll, ih v s (by omega), ihv _ (show depthL vs ≤ n by omega), Edits.applyL]

theorem edits_fields {n : Nat} (ih : ∀ v s, v.depth ≤ n → E.visitor.visitV n v s = some (E.apply v, ())) (fs : List Fld) (vs : List V)
    (s : Unit) (h : depthL vs ≤ n) : visitMutFields (E.visitor.visitV n) fs vs s = some (E.applyF fs vs, ()) := by
  induction vs generalizing s fs with
  | nil => cases fs <;> simp [visitMutFields, Edits.applyF]
  | cons v vs ihv =>
    cases fs with
    | nil => simp [visitMutFields, Edits.applyF]
    | cons f fs =>
      rw [depthL] at h
      rw [visitMutFields, Edits.applyF]
      by_cases hf : f.visited = true
      · simp only [hf, if_true, ih v s (by omega), ihv _ _ (show depthL vs ≤ n by omega)]
      · simp only [hf, if_false, ihv _ _ (show depthL vs ≤ n by omega), Bool.false_eq_true]

theorem edits_visitV (n : Nat) : ∀ v s, v.depth ≤ n → E.visitor.visitV n v s = some (E.apply v, ()) := by
  induction n with
  | zero => intro v s h; have := v.depth_pos; omega
  | succ n ih =>
    intro v s h
    cases v with
    | ext e => rfl
    | bool b => rfl
    | list vs =>
      rw [V.depth] at h
      rw [VisitorMut.visitV, edits_all ih vs s (by omega), Edits.apply]; rfl
    | enm t vs =>
      rw [V.depth] at h
      rw [VisitorMut.visitV, Edits.apply]
      have h1 : ∀ s, visitMutAll (E.visitor.visitV n) vs s = some (E.applyL vs, ()) := fun s => edits_all ih vs s (by omega)
      have h2 : E.visitor.visitEnum = .default := rfl
      have h3 : ∀ v s, E.visitor.exitEnum v s = some (E.enum v, s) := fun _ _ => rfl
      simp [aroundMut, h1, h2, h3, EnterM.default]
    | node k e ws vs =>
      rw [V.depth] at h
      rw [VisitorMut.visitV, Edits.apply]
      have h1 : ∀ s, visitMutFields (E.visitor.visitV n) k.fields vs s = some (E.applyF k.fields vs, ()) :=
        fun s => edits_fields ih k.fields vs s (by omega)
      have h2 : ∀ k, E.visitor.visitNode k = .default := fun _ => rfl
      have h3 : ∀ v s, E.visitor.exitNode k v s = some (E.node k v, s) := fun _ _ => rfl
      have h4 := edits_wss (E := E) ws
      by_cases hk : k.isAttributed = true
      · simp [aroundMut, hk, h1, h2, h3, EnterM.default]
      · simp [aroundMut, hk, h1, h2, h3, h4, EnterM.default]

theorem edits_visitF (n : Nat) (f : File) (s : Unit) (h : depthL f.items ≤ n) :
    E.visitor.visitF n f s = some (⟨E.applyL f.items, f.whitespace.map E.ws⟩, ()) := by
  have h1 : ∀ s, visitMutAll (E.visitor.visitV n) f.items s = some (E.applyL f.items, ()) :=
    fun s => edits_all (edits_visitV n) f.items s h
  have h2 : E.visitor.visitFile = .default := rfl
  have h3 : E.visitor.exitFile = .default := rfl
  simp [VisitorMut.visitF, aroundMut, h1, h2, h3, EnterM.default, ExitM.default, edits_wss]

end

/-! ## The whitespace apportioner -/

theorem apportioner_ws (w : Ws) (m : Apportioner) : apportionerVisitor.visitWs w m = some (w, m) := by
  cases w <;> rfl

theorem apportioner_wss (ws : List Ws) (m : Apportioner) : visitMutAll apportionerVisitor.visitWs ws m = some (ws, m) := by
  induction ws generalizing m with
  | nil => rfl
  | cons w ws ih => simp only [visitMutAll, apportioner_ws, ih]

theorem apportioner_all {n : Nat} (ih : ∀ v m, v.depth ≤ n → apportionerVisitor.visitV n v m = apportion v m) (vs : List V) (m : Apportioner)
    (h : depthL vs ≤ n) : visitMutAll (apportionerVisitor.visitV n) vs m = apportionL vs m := by
  induction vs generalizing m with
  | nil => rfl
  | cons v vs ihv =>
    rw [depthL] at h
    rw [visitMutAll, ih v m (by omega), apportionL]
    simp only [ihv _ (show depthL vs ≤ n by omega)]
    cases apportion v m with
    | none => rfl
    | some r => obtain ⟨v', m'⟩ := r; dsimp only; cases apportionL vs m' <;> rfl

theorem apportioner_fields {n : Nat} (ih : ∀ v m, v.depth ≤ n → apportionerVisitor.visitV n v m = apportion v m) (fs : List Fld)
    (vs : List V) (m : Apportioner) (h : depthL vs ≤ n) :
    visitMutFields (apportionerVisitor.visitV n) fs vs m = apportionF fs vs m := by
  induction vs generalizing m fs with
  | nil => cases fs <;> simp [visitMutFields, apportionF]
  | cons v vs ihv =>
    cases fs with
    | nil => simp [visitMutFields, apportionF]
    | cons f fs =>
      rw [depthL] at h
      rw [visitMutFields, apportionF, ih v m (by omega)]
      simp only [ihv _ _ (show depthL vs ≤ n by omega)]
      cases (if f.visited = true then apportion v m else some (v, m)) with
      | none => rfl
      | some r => obtain ⟨v', m'⟩ := r; dsimp only; cases apportionF fs vs m' <;> rfl

theorem apportioner_visitV (n : Nat) : ∀ v m, v.depth ≤ n → apportionerVisitor.visitV n v m = apportion v m := by
  induction n with
  | zero => intro v s h; have := v.depth_pos; omega
  | succ n ih =>
    intro v m h
    cases v with
    | ext e => rfl
    | bool b => rfl
    | list vs =>
      rw [V.depth] at h
      rw [VisitorMut.visitV, apportioner_all ih vs m (by omega), apportion]
      cases apportionL vs m <;> rfl
    | enm t vs =>
      rw [V.depth] at h
      rw [VisitorMut.visitV, apportion]
      have h1 := apportioner_all ih vs m (by omega)
      have h2 : apportionerVisitor.visitEnum = .default := rfl
      have h3 : apportionerVisitor.exitEnum = .default := rfl
      cases h4 : apportionL vs m <;> simp [aroundMut, h1, h2, h3, h4, EnterM.default, ExitM.default]
    | node k e ws vs =>
      rw [V.depth] at h
      rw [VisitorMut.visitV, apportion]
      have h1 := apportioner_fields ih k.fields vs m (by omega)
      have h2 : ∀ k, apportionerVisitor.visitNode k = .default := fun _ => rfl
      have h3 : ∀ d m, apportionerVisitor.exitNode k d m =
        if k.handled then (m.divvyUp d.extent).map fun (taken, m) => ({ d with whitespace := d.whitespace ++ taken }, m)
        else some (d, m) := fun _ _ => rfl
      have h4 := apportioner_wss ws
      cases h5 : apportionF k.fields vs m with
      | none =>
        by_cases hk : k.isAttributed = true <;> simp [aroundMut, hk, h1, h2, h5, EnterM.default]
      | some r =>
        obtain ⟨vs', m'⟩ := r
        by_cases hh : k.handled = true
        · cases h6 : Apportioner.divvyUp m' e <;> by_cases hk : k.isAttributed = true <;>
            simp [aroundMut, hk, h1, h2, h3, h4, h5, h6, hh, EnterM.default]
        · by_cases hk : k.isAttributed = true <;> simp [aroundMut, hk, h1, h2, h3, h4, h5, hh, EnterM.default]

theorem apportioner_visitF (n : Nat) (f : File) (m : Apportioner) (h : depthL f.items ≤ n) :
    apportionerVisitor.visitF n f m = apportionFile f m := by
  have h1 := apportioner_all (apportioner_visitV n) f.items m h
  have h2 : apportionerVisitor.visitFile = .default := rfl
  have h3 : ∀ f m, apportionerVisitor.exitFile f m = some ({ f with whitespace := f.whitespace ++ m }, []) := fun _ _ => rfl
  unfold apportionFile VisitorMut.visitF
  cases h4 : apportionL f.items m <;> simp [aroundMut, h1, h2, h3, h4, EnterM.default, apportioner_wss]

end Verif
