import Verif.Spec.Visit
import Verif.Proofs.Apportion
/-!
# Proofs about visitors
-/

namespace Verif
open Verif.Spec

section
variable (d : Callee → Control)

/-- The calls around the calls of `body`. -/
def wrap (c : Callee) (body : List Ev) : List Ev :=
  .enter c :: (match d c with | .Continue => body | .Break => []) ++ [.exit c]

/-- The calls for a piece of whitespace. -/
def Ws.calls (w : Ws) : List Ev :=
  wrap d (.whitespace w) (match w with
    | .whitespace _ => []
    | .commentLine _ | .commentBlock _ => wrap d (.comment w) [])

mutual
/-- The calls for a value. -/
def V.calls : V → List Ev
  | .ext _ => []
  | .bool _ => []
  | .list vs => callsL vs
  | .enm t vs => wrap d (.value (.enm t vs)) (callsL vs)
  | .node k e ws vs =>
    if k.isAttributed then .enter (.value (.node k e ws vs)) :: callsF k.fields vs ++ [.exit (.value (.node k e ws vs))]
    else wrap d (.value (.node k e ws vs)) (callsF k.fields vs ++ ws.flatMap (Ws.calls d))
/-- The calls for a list. -/
def callsL : List V → List Ev
  | [] => []
  | v :: vs => v.calls ++ callsL vs
/-- The calls for the fields of a struct. -/
def callsF : List Fld → List V → List Ev
  | f :: fs, v :: vs => (if f.visited then v.calls else []) ++ callsF fs vs
  | _, _ => []
end

theorem replay_append {σ} (vis : Visitor σ) (l r : List Ev) (s : σ) :
    replay vis (l ++ r) s = replay vis r (replay vis l s) := by
  induction l generalizing s with
  | nil => rfl
  | cons e l ih => cases e <;> simp [replay, ih]

/-- The decisions of the visitor are those of `d`. -/
def Decides {σ} (vis : Visitor σ) : Prop := ∀ c s, (vis.visit c s).1 = d c

variable {d}

theorem around_calls {σ} {vis : Visitor σ} (h : Decides d vis) (c : Callee) (body : σ → σ) (l : List Ev)
    (hb : ∀ s, body s = replay vis l s) (s : σ) : vis.around c body s = replay vis (wrap d c l) s := by
  have hd := h c s
  unfold Visitor.around wrap
  rw [List.cons_append]
  show _ = replay vis _ (vis.visit c s).2
  generalize vis.visit c s = r at hd
  obtain ⟨ctl, s'⟩ := r
  dsimp only at hd; subst hd
  rw [replay_append]
  dsimp only
  cases d c
  · dsimp only; rw [hb]; rfl
  · rfl

theorem visitWs_calls {σ} {vis : Visitor σ} (h : Decides d vis) (w : Ws) (s : σ) :
    vis.visitWs w s = replay vis (w.calls d) s := by
  refine around_calls h _ _ _ ?_ s
  intro s
  cases w
  · rfl
  · exact around_calls h _ id [] (fun _ => rfl) s
  · exact around_calls h _ id [] (fun _ => rfl) s

theorem visitWss_calls {σ} {vis : Visitor σ} (h : Decides d vis) (ws : List Ws) (s : σ) :
    vis.visitWss ws s = replay vis (ws.flatMap (Ws.calls d)) s := by
  induction ws generalizing s with
  | nil => rfl
  | cons w ws ih => rw [Visitor.visitWss, ih, visitWs_calls h, List.flatMap_cons, replay_append]

mutual
theorem visitV_calls {σ} {vis : Visitor σ} (h : Decides d vis) : ∀ (v : V) (s : σ),
    vis.visitV v s = replay vis (v.calls d) s
  | .ext _, s => rfl
  | .bool _, s => rfl
  | .list vs, s => by rw [Visitor.visitV, V.calls]; exact visitL_calls h vs s
  | .enm t vs, s => by
    rw [Visitor.visitV, V.calls]
    exact around_calls h _ _ _ (visitL_calls h vs) s
  | .node k e ws vs, s => by
    rw [Visitor.visitV, V.calls]
    split
    · rw [visitF_calls h, List.cons_append]
      show _ = replay vis _ (vis.visit _ s).2
      rw [replay_append]; rfl
    · refine around_calls h _ _ _ ?_ s
      intro s
      rw [visitWss_calls h, visitF_calls h, replay_append]
theorem visitL_calls {σ} {vis : Visitor σ} (h : Decides d vis) : ∀ (vs : List V) (s : σ),
    vis.visitL vs s = replay vis (callsL d vs) s
  | [], s => rfl
  | v :: vs, s => by rw [Visitor.visitL, callsL, visitL_calls h vs, visitV_calls h v, replay_append]
theorem visitF_calls {σ} {vis : Visitor σ} (h : Decides d vis) : ∀ (fs : List Fld) (vs : List V) (s : σ),
    vis.visitF fs vs s = replay vis (callsF d fs vs) s
  | f :: fs, v :: vs, s => by
    rw [Visitor.visitF, callsF, visitF_calls h fs vs, replay_append]
    split
    · rw [visitV_calls h v]
    · rfl
  | [], _, s => by simp [Visitor.visitF, callsF, replay]
  | _ :: _, [], s => by simp [Visitor.visitF, callsF, replay]
end

/-- The calls for a file. -/
def fileCalls (d : Callee → Control) (f : File) : List Ev :=
  wrap d (.file f) (callsL d f.items ++ f.whitespace.flatMap (Ws.calls d))

theorem visitFile_calls {σ} {vis : Visitor σ} (h : Decides d vis) (f : File) (s : σ) :
    vis.visitFile f s = replay vis (fileCalls d f) s := by
  refine around_calls h _ _ _ ?_ s
  intro s
  rw [visitWss_calls h, visitL_calls h, replay_append]

theorem recorder_decides (d : Callee → Control) : Decides d (recorder d) := fun _ _ => rfl

theorem replay_recorder (d : Callee → Control) (l s : List Ev) : replay (recorder d) l s = s ++ l := by
  induction l generalizing s with
  | nil => simp [replay]
  | cons e l ih => cases e <;> (rw [replay, ih]; simp [recorder])

/-! ## Nesting -/

theorem _root_.Verif.Spec.Balanced.append {l r : List Ev} (h : Balanced l) (h' : Balanced r) : Balanced (l ++ r) := by
  induction h with
  | nil => exact h'
  | wrap c h1 h2 ih1 ih2 =>
    rw [List.append_assoc]
    exact .wrap c h1 ih2

theorem _root_.Verif.Spec.Balanced.one {c : Callee} {l : List Ev} (h : Balanced l) : Balanced (.enter c :: l ++ [.exit c]) := .wrap c h .nil

theorem wrap_balanced {c : Callee} {l : List Ev} (h : Balanced l) : Balanced (wrap d c l) := by
  unfold wrap
  split
  · exact h.one
  · exact Balanced.nil.one

theorem Ws.calls_balanced (w : Ws) : Balanced (w.calls d) := by
  refine wrap_balanced ?_
  cases w
  · exact .nil
  · exact wrap_balanced .nil
  · exact wrap_balanced .nil

theorem wss_balanced (ws : List Ws) : Balanced (ws.flatMap (Ws.calls d)) := by
  induction ws with
  | nil => exact .nil
  | cons w ws ih => rw [List.flatMap_cons]; exact w.calls_balanced.append ih

mutual
theorem V.calls_balanced : ∀ v : V, Balanced (v.calls d)
  | .ext _ => .nil
  | .bool _ => .nil
  | .list vs => by rw [V.calls]; exact callsL_balanced vs
  | .enm t vs => by rw [V.calls]; exact wrap_balanced (callsL_balanced vs)
  | .node k e ws vs => by
    rw [V.calls]
    split
    · exact (callsF_balanced _ vs).one
    · exact wrap_balanced ((callsF_balanced _ vs).append (wss_balanced ws))
theorem callsL_balanced : ∀ vs : List V, Balanced (callsL d vs)
  | [] => .nil
  | v :: vs => by rw [callsL]; exact v.calls_balanced.append (callsL_balanced vs)
theorem callsF_balanced : ∀ (fs : List Fld) (vs : List V), Balanced (callsF d fs vs)
  | f :: fs, v :: vs => by
    rw [callsF]
    refine Balanced.append ?_ (callsF_balanced fs vs)
    split
    · exact v.calls_balanced
    · exact .nil
  | [], _ => by simp only [callsF]; exact .nil
  | _ :: _, [] => by simp only [callsF]; exact .nil
end

/-! ## Order -/

@[simp] theorem enters_append (l r : List Ev) : enters (l ++ r) = enters l ++ enters r := List.filterMap_append ..
@[simp] theorem enters_nil : enters [] = [] := rfl
@[simp] theorem enters_enter (c : Callee) (l : List Ev) : enters (.enter c :: l) = c :: enters l := rfl
@[simp] theorem enters_exit (c : Callee) (l : List Ev) : enters (.exit c :: l) = enters l := rfl
@[simp] theorem exits_append (l r : List Ev) : exits (l ++ r) = exits l ++ exits r := List.filterMap_append ..
@[simp] theorem exits_nil : exits [] = [] := rfl
@[simp] theorem exits_enter (c : Callee) (l : List Ev) : exits (.enter c :: l) = exits l := rfl
@[simp] theorem exits_exit (c : Callee) (l : List Ev) : exits (.exit c :: l) = c :: exits l := rfl

theorem _root_.Verif.Spec.Balanced.perm {l : List Ev} (h : Balanced l) : (enters l).Perm (exits l) := by
  induction h with
  | nil => exact .refl _
  | wrap c h1 h2 ih1 ih2 =>
    simp
    exact ((ih1.append ih2).cons c).trans List.perm_middle.symm

theorem enters_wrap (c : Callee) (l : List Ev) :
    enters (wrap d c l) = c :: match d c with | .Break => [] | .Continue => enters l := by
  unfold wrap
  cases d c <;> simp

theorem enters_ws (w : Ws) : enters (w.calls d) = wsPre d w := by
  unfold Ws.calls wsPre
  rw [enters_wrap]
  cases w <;> cases h : d (.whitespace _) <;> simp [enters_wrap] <;> cases d (.comment _) <;> rfl

theorem enters_wss (ws : List Ws) : enters (ws.flatMap (Ws.calls d)) = ws.flatMap (wsPre d) := by
  induction ws with
  | nil => rfl
  | cons w ws ih => simp [List.flatMap_cons, ih, enters_ws]

/-- `d` says `Continue` for attributed nodes. -/
def NoAttrBreak (d : Callee → Control) : Prop :=
  ∀ k e ws vs, k.isAttributed = true → d (.value (.node k e ws vs)) = .Continue

mutual
theorem enters_V (h : NoAttrBreak d) : ∀ v : V, enters (v.calls d) = v.pre d
  | .ext _ => rfl
  | .bool _ => rfl
  | .list vs => by rw [V.calls, V.pre]; exact enters_L h vs
  | .enm t vs => by rw [V.calls, V.pre, enters_wrap, enters_L h vs]; cases d _ <;> rfl
  | .node k e ws vs => by
    rw [V.calls, V.pre]
    split
    · rename_i hk
      rw [h k e ws vs hk]
      simp [enters_F h]
    · rw [enters_wrap, enters_append, enters_wss, enters_F h]
      cases d _ <;> rfl
theorem enters_L (h : NoAttrBreak d) : ∀ vs : List V, enters (callsL d vs) = preL d vs
  | [] => rfl
  | v :: vs => by rw [callsL, preL, enters_append, enters_V h v, enters_L h vs]
theorem enters_F (h : NoAttrBreak d) : ∀ (fs : List Fld) (vs : List V), enters (callsF d fs vs) = preF d fs vs
  | f :: fs, v :: vs => by
    rw [callsF, preF, enters_append, enters_F h fs vs]
    split
    · rw [enters_V h v]
    · rfl
  | [], _ => by simp [callsF, preF]
  | _ :: _, [] => by simp [callsF, preF]
end

theorem enters_file (h : NoAttrBreak d) (f : File) : enters (fileCalls d f) = filePre d f := by
  unfold fileCalls filePre
  rw [enters_wrap, enters_append, enters_wss, enters_L h]
  cases d _ <;> rfl

end

/-- The decision function the code follows: that of the visitor, except for attributed nodes. -/
def obeyed (d : Callee → Control) : Callee → Control
  | .value (.node k e ws vs) => if k.isAttributed then .Continue else d (.value (.node k e ws vs))
  | c => d c

theorem obeyed_noAttrBreak (d : Callee → Control) : NoAttrBreak (obeyed d) := by
  intro k e ws vs h
  simp [obeyed, h]

theorem wrap_obeyed {d : Callee → Control} {c : Callee} {l : List Ev} (h : obeyed d c = d c) :
    wrap (obeyed d) c l = wrap d c l := by
  unfold wrap
  rw [h]

theorem Ws.calls_obeyed (d : Callee → Control) : Ws.calls (obeyed d) = Ws.calls d := by
  funext w
  unfold Ws.calls
  rw [wrap_obeyed rfl]
  cases w <;> simp [wrap_obeyed (d := d) (c := .comment _) rfl]

mutual
theorem V.calls_obeyed (d : Callee → Control) : ∀ v : V, v.calls (obeyed d) = v.calls d
  | .ext _ => rfl
  | .bool _ => rfl
  | .list vs => by rw [V.calls, V.calls, callsL_obeyed d vs]
  | .enm t vs => by rw [V.calls, V.calls, callsL_obeyed d vs, wrap_obeyed rfl]
  | .node k e ws vs => by
    rw [V.calls, V.calls, callsF_obeyed d _ vs, Ws.calls_obeyed]
    split
    · rfl
    · rename_i h
      exact wrap_obeyed (by simp [obeyed, h])
theorem callsL_obeyed (d : Callee → Control) : ∀ vs : List V, callsL (obeyed d) vs = callsL d vs
  | [] => rfl
  | v :: vs => by rw [callsL, callsL, V.calls_obeyed d v, callsL_obeyed d vs]
theorem callsF_obeyed (d : Callee → Control) : ∀ (fs : List Fld) (vs : List V),
    callsF (obeyed d) fs vs = callsF d fs vs
  | f :: fs, v :: vs => by rw [callsF, callsF, V.calls_obeyed d v, callsF_obeyed d fs vs]
  | [], _ => by simp [callsF]
  | _ :: _, [] => by simp [callsF]
end

theorem fileCalls_obeyed (d : Callee → Control) (f : File) : fileCalls (obeyed d) f = fileCalls d f := by
  unfold fileCalls
  rw [callsL_obeyed, Ws.calls_obeyed, wrap_obeyed rfl]

/-! ## Against the parts of the tree -/

@[simp] theorem values_append (l r : List Callee) : values (l ++ r) = values l ++ values r := List.filterMap_append ..
@[simp] theorem values_nil : values [] = [] := rfl
@[simp] theorem values_value (v : V) (l : List Callee) : values (.value v :: l) = v :: values l := rfl
@[simp] theorem whites_append (l r : List Callee) : whites (l ++ r) = whites l ++ whites r := List.filterMap_append ..
@[simp] theorem whites_nil : whites [] = [] := rfl
@[simp] theorem whites_value (v : V) (l : List Callee) : whites (.value v :: l) = whites l := rfl

theorem values_wss (d : Callee → Control) (ws : List Ws) : values (ws.flatMap (wsPre d)) = [] := by
  induction ws with
  | nil => rfl
  | cons w ws ih =>
    rw [List.flatMap_cons, values_append, ih]
    unfold wsPre
    cases w <;> cases d _ <;> rfl

theorem whites_wss (d : Callee → Control) (ws : List Ws) : whites (ws.flatMap (wsPre d)) = ws := by
  induction ws with
  | nil => rfl
  | cons w ws ih =>
    rw [List.flatMap_cons, whites_append, ih]
    unfold wsPre
    cases w <;> cases d _ <;> rfl

/-- Go everywhere. -/
def always : Callee → Control := fun _ => .Continue

mutual
theorem values_V : ∀ v : V, values (v.pre always) = v.reached
  | .ext _ => rfl
  | .bool _ => rfl
  | .list vs => by rw [V.pre, V.reached]; exact values_L vs
  | .enm t vs => by rw [V.pre, V.reached]; simp [always]; exact values_L vs
  | .node k e ws vs => by
    rw [V.pre, V.reached]
    simp only [always, values_value, values_append, List.cons.injEq, true_and]
    rw [values_F]
    split
    · simp
    · rw [values_wss]; simp
theorem values_L : ∀ vs : List V, values (preL always vs) = reachedL vs
  | [] => rfl
  | v :: vs => by rw [preL, reachedL, values_append, values_V v, values_L vs]
theorem values_F : ∀ (fs : List Fld) (vs : List V), values (preF always fs vs) = reachedF fs vs
  | f :: fs, v :: vs => by
    rw [preF, reachedF, values_append, values_F fs vs]
    split
    · rw [values_V v]
    · rfl
  | [], _ => by simp [preF, reachedF]
  | _ :: _, [] => by simp [preF, reachedF]
end

/-- The whitespace that visitors see in a value. -/
def V.seenWs : V → List Ws
  | .node k _ ws _ => if k.isAttributed then [] else ws
  | _ => []

/-- The whitespace of an attributed node. -/
def V.attrWs : V → List Ws
  | .node k _ ws _ => if k.isAttributed then ws else []
  | _ => []

theorem perm_swap3 {α} (a b c : List α) : (a ++ (b ++ c)).Perm (b ++ (a ++ c)) := by
  rw [← List.append_assoc, ← List.append_assoc]
  exact List.perm_append_comm.append_right c

mutual
theorem whites_V : ∀ v : V, (whites (v.pre always)).Perm (v.reached.flatMap V.seenWs)
  | .ext _ => .nil
  | .bool _ => .nil
  | .list vs => by rw [V.pre, V.reached]; exact whites_L vs
  | .enm t vs => by
    rw [V.pre, V.reached]
    simp only [always, whites_value, List.flatMap_cons, V.seenWs, List.nil_append]
    exact whites_L vs
  | .node k e ws vs => by
    rw [V.pre, V.reached]
    simp only [always, whites_value, whites_append, List.flatMap_cons, V.seenWs]
    have h1 : whites (if k.isAttributed = true then [] else ws.flatMap (wsPre always)) =
        if k.isAttributed = true then [] else ws := by
      split
      · rfl
      · exact whites_wss _ ws
    rw [h1]
    exact List.perm_append_comm.trans ((whites_F k.fields vs).append_left _)
theorem whites_L : ∀ vs : List V, (whites (preL always vs)).Perm ((reachedL vs).flatMap V.seenWs)
  | [] => .nil
  | v :: vs => by
    rw [preL, reachedL, whites_append, List.flatMap_append]
    exact (whites_V v).append (whites_L vs)
theorem whites_F : ∀ (fs : List Fld) (vs : List V), (whites (preF always fs vs)).Perm ((reachedF fs vs).flatMap V.seenWs)
  | f :: fs, v :: vs => by
    rw [preF, reachedF, whites_append, List.flatMap_append]
    refine List.Perm.append ?_ (whites_F fs vs)
    split
    · exact whites_V v
    · exact .nil
  | [], _ => by simp [preF, reachedF]
  | _ :: _, [] => by simp [preF, reachedF]
end

theorem noWs_wsL {vs : List V} (h : NoWs vs) : wsL vs = [] := by
  unfold wsL
  rw [List.flatMap_eq_nil_iff]
  intro v hv
  cases v with
  | node k e ws fs => exact h k e ws fs hv
  | _ => rfl

/-! Whitespace is only put where visitors get to. -/

mutual
theorem apportion_ws : ∀ (v : V) (m : Apportioner) (v' : V) (m' : Apportioner), apportion v m = some (v', m') →
    NoWs [v] → wsL [v'] = v'.reached.flatMap V.ws
  | .ext _, m, v', m', h, hn => by simp [apportion] at h; rw [← h.1]; rfl
  | .bool _, m, v', m', h, hn => by simp [apportion] at h; rw [← h.1]; rfl
  | .list vs, m, v', m', h, hn => by
    simp only [apportion] at h
    split at h
    · cases h
    · rename_i h1
      cases h
      have := apportionL_ws vs _ _ _ h1 (fun k e ws fs hx => hn k e ws fs (by simp [hx]))
      simp [V.reached, this]
  | .enm t vs, m, v', m', h, hn => by
    simp only [apportion] at h
    split at h
    · cases h
    · rename_i h1
      cases h
      have := apportionL_ws vs _ _ _ h1 (fun k e ws fs hx => hn k e ws fs (by simp [hx]))
      simp [V.reached, this, V.ws]
  | .node k e ws vs, m, v', m', h, hn => by
    simp only [apportion] at h
    split at h
    · cases h
    · rename_i h1
      have := apportionF_ws k.fields vs _ _ _ h1 (fun k e ws fs hx => hn k e ws fs (by simp [hx]))
      split at h
      · split at h
        · cases h
        · cases h
          simp [V.reached, this, V.ws]
      · cases h
        simp [V.reached, this, V.ws]
theorem apportionL_ws : ∀ (vs : List V) (m : Apportioner) (vs' : List V) (m' : Apportioner),
    apportionL vs m = some (vs', m') → NoWs vs → wsL vs' = (reachedL vs').flatMap V.ws
  | [], m, vs', m', h, hn => by simp [apportionL] at h; rw [h.1]; rfl
  | v :: vs, m, vs', m', h, hn => by
    simp only [apportionL] at h
    split at h
    · cases h
    · rename_i h1
      split at h
      · cases h
      · rename_i h2
        cases h
        rw [wsL_cons, apportion_ws v _ _ _ h1 hn.left, apportionL_ws vs _ _ _ h2 hn.right]
        simp [reachedL]
theorem apportionF_ws : ∀ (fs : List Fld) (vs : List V) (m : Apportioner) (vs' : List V) (m' : Apportioner),
    apportionF fs vs m = some (vs', m') → NoWs vs → wsL vs' = (reachedF fs vs').flatMap V.ws
  | f :: fs, v :: vs, m, vs', m', h, hn => by
    simp only [apportionF] at h
    split at h
    · cases h
    · rename_i h1
      split at h
      · cases h
      · rename_i h2
        cases h
        rw [wsL_cons, apportionF_ws fs vs _ _ _ h2 hn.right, reachedF, List.flatMap_append]
        split at h1
        · rename_i hf
          rw [if_pos hf, apportion_ws v _ _ _ h1 hn.left]
        · rename_i hf
          cases h1
          rw [if_neg hf, noWs_wsL hn.left]; rfl
  | [], vs, m, vs', m', h, hn => by
    simp [apportionF] at h; rw [← h.1, noWs_wsL hn]; cases vs <;> simp [reachedF]
  | _ :: _, [], m, vs', m', h, hn => by simp [apportionF] at h; rw [h.1]; simp [reachedF]
end

theorem reached_split (l : List V) : (l.flatMap V.ws).Perm (l.flatMap V.seenWs ++ l.flatMap V.attrWs) := by
  induction l with
  | nil => exact .nil
  | cons v l ih =>
    simp only [List.flatMap_cons]
    have h : v.ws = v.seenWs ++ v.attrWs := by
      cases v with
      | node k e ws vs => simp only [V.ws, V.seenWs, V.attrWs]; split <;> simp
      | _ => rfl
    rw [h]
    have := ih.append_left (v.seenWs ++ v.attrWs)
    refine this.trans ?_
    rw [List.append_assoc, List.append_assoc]
    exact (perm_swap3 _ _ _).append_left _

end Verif
