import Verif.Proofs.Visit
/-!
# Visitors whose decisions depend on what they have seen
-/

namespace Verif
open Verif.Spec

section
variable {σ : Type} {vis : Visitor σ}

theorem answers_append (l r : List Ev) (s : σ) : answers vis (l ++ r) s = answers vis l s ++ answers vis r (replay vis l s) := by
  induction l generalizing s with
  | nil => rfl
  | cons e l ih => cases e <;> simp [answers, replay, ih]

/-- Running `g` is making some well nested calls, which meet the nodes of the walk `w`. -/
def Walks (vis : Visitor σ) (g : σ → σ) (w : List Control → List Callee × List Control) : Prop :=
  ∀ s, ∃ calls, g s = replay vis calls s ∧ Balanced calls ∧ ∀ rest, w (answers vis calls s ++ rest) = (enters calls, rest)

theorem Walks.nil : Walks vis id (fun as => ([], as)) := fun _ => ⟨[], rfl, .nil, fun _ => rfl⟩

theorem Walks.comp {g h : σ → σ} {v w} (hg : Walks vis g v) (hh : Walks vis h w) : Walks vis (fun s => h (g s)) (thenMeet v w) := by
  intro s
  obtain ⟨l, h1, h2, h3⟩ := hg s
  obtain ⟨r, h4, h5, h6⟩ := hh (replay vis l s)
  refine ⟨l ++ r, ?_, h2.append h5, ?_⟩
  · show h (g s) = _
    rw [h1, h4, replay_append]
  · intro rest
    rw [answers_append, List.append_assoc]
    unfold thenMeet
    rw [h3]
    dsimp only
    rw [h6, enters_append]

theorem Walks.wrapped {l : List Ev} (h : Balanced l) (c : Callee) : Balanced (.enter c :: l ++ [.exit c]) :=
  .wrap c h .nil

theorem Walks.around {g : σ → σ} {w} (hg : Walks vis g w) (c : Callee) : Walks vis (vis.around c g) (meet c w) := by
  intro s
  unfold Visitor.around
  generalize hv : vis.visit c s = r
  obtain ⟨ctl, s'⟩ := r
  cases ctl with
  | Continue =>
    obtain ⟨l, h1, h2, h3⟩ := hg s'
    refine ⟨.enter c :: l ++ [.exit c], ?_, Walks.wrapped h2 c, ?_⟩
    · dsimp only
      rw [h1, List.cons_append, replay, hv, replay_append]; rfl
    · intro rest
      rw [List.cons_append, answers, hv, answers_append]
      simp only [answers, List.append_nil, List.cons_append, meet, h3]
      simp [enters]
  | Break =>
    refine ⟨.enter c :: [] ++ [.exit c], ?_, Walks.wrapped .nil c, ?_⟩
    · simp [replay, hv]
    · intro rest
      simp [answers, hv, meet, enters]

theorem visitWs_walks (w : Ws) : Walks vis (vis.visitWs w) (walkWs w) := by
  refine Walks.around ?_ _
  cases w
  · exact Walks.nil
  · exact Walks.nil.around _
  · exact Walks.nil.around _

theorem visitWss_walks (ws : List Ws) : Walks vis (vis.visitWss ws) (walkWss ws) := by
  induction ws with
  | nil => exact Walks.nil
  | cons w ws ih => exact (visitWs_walks w).comp ih

mutual
theorem visitV_walks : ∀ v : V, Walks vis (vis.visitV v) v.walk
  | .ext _ => by rw [V.walk]; exact Walks.nil
  | .bool _ => by rw [V.walk]; exact Walks.nil
  | .list vs => by
    rw [V.walk]
    exact visitL_walks vs
  | .enm t vs => by
    rw [V.walk]
    have : vis.visitV (.enm t vs) = vis.around (.value (.enm t vs)) (vis.visitL vs) := by funext s; rw [Visitor.visitV]
    rw [this]
    exact (visitL_walks vs).around _
  | .node k e ws vs => by
    rw [V.walk]
    split
    · rename_i hk
      intro s
      obtain ⟨l, h1, h2, h3⟩ := visitF_walks k.fields vs (vis.visit (.value (.node k e ws vs)) s).2
      refine ⟨.enter (.value (.node k e ws vs)) :: l ++ [.exit (.value (.node k e ws vs))], ?_, Walks.wrapped h2 _, ?_⟩
      · rw [Visitor.visitV, if_pos hk, h1, List.cons_append, replay, replay_append]; rfl
      · intro rest
        rw [List.cons_append, answers, answers_append]
        simp only [answers, List.append_nil, List.cons_append, meet, h3]
        simp [enters]
    · rename_i hk
      have : vis.visitV (.node k e ws vs) =
          vis.around (.value (.node k e ws vs)) (fun s => vis.visitWss ws (vis.visitF k.fields vs s)) := by
        funext s; rw [Visitor.visitV, if_neg hk]
      rw [this]
      exact ((visitF_walks k.fields vs).comp (visitWss_walks ws)).around _
theorem visitL_walks : ∀ vs : List V, Walks vis (vis.visitL vs) (walkL vs)
  | [] => by rw [walkL]; exact Walks.nil
  | v :: vs => by
    rw [walkL]
    exact (visitV_walks v).comp (visitL_walks vs)
theorem visitF_walks : ∀ (fs : List Fld) (vs : List V), Walks vis (vis.visitF fs vs) (walkF fs vs)
  | f :: fs, v :: vs => by
    rw [walkF]
    have : vis.visitF (f :: fs) (v :: vs) = fun s => vis.visitF fs vs ((if f.visited then vis.visitV v else id) s) := by
      funext s; rw [Visitor.visitF]; split <;> rfl
    rw [this]
    refine Walks.comp ?_ (visitF_walks fs vs)
    split
    · exact visitV_walks v
    · exact Walks.nil
  | [], vs => by
    have : vis.visitF [] vs = id := by funext s; simp [Visitor.visitF]
    simp only [walkF]
    rw [this]; exact Walks.nil
  | _ :: _, [] => by
    have : ∀ f fs, vis.visitF (f :: fs) [] = id := by intro f fs; funext s; simp [Visitor.visitF]
    simp only [walkF]
    rw [this]; exact Walks.nil
end

theorem visitFile_walks (f : File) : Walks vis (vis.visitFile f) (fileWalk f) :=
  ((visitL_walks f.items).comp (visitWss_walks f.whitespace)).around _

end

end Verif
