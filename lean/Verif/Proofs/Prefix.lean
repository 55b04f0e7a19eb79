import Verif.Proofs.ItemEnd
/-!
# The items of a file whose brackets match do not depend on what comes after them
-/

namespace Verif
open Spec

/-- The parser functions whose last token is a whole token that cannot be split. -/
def NT.ends (nt : NT) : Bool :=
  nt.fenced 1 || nt.fenced 2 || nt = .item || nt = .attribute_containing || nt = .attribute_containing_literal

/-- The last token read is a whole token that cannot be split. -/
def G.ends : G → Bool
  | .tok k => k.solid
  | .r n => n.ends
  | .seq _ b => b.ends
  | .alt a b => a.ends && b.ends
  | .ext a | .drop a | .map _ a | .build _ a => a.ends
  | _ => false

theorem rules_ends : ∀ nt : NT, nt.ends = true → ∃ g, rules nt = .g g ∧ g.ends = true := by
  have h : NT.all.all (fun nt => !nt.ends || match rules nt with
    | .g g => g.ends
    | .expr _ => false) = true := by decide +kernel
  intro nt hn
  have := List.all_eq_true.mp h nt (NT.mem_all nt)
  rw [hn] at this
  revert this
  cases rules nt <;> simp

section
variable {toks toks' : List Token} {n : Nat} {α : Type}

/-- If the parser ends before the `n + 1`-st token, and did not look at it, the token does not matter. -/
def Fin' (toks : List Token) (n : Nat) (p p' : P α) : Prop :=
  ∀ a pt v a2 l, ValidPt toks pt → p a pt = ⟨.ok ⟨n + 1, none⟩ v, a2, l⟩ → l.reach ≤ n →
    pt.off ≤ n ∧ (¬ (p' a pt).dead → p' a pt = ⟨.ok ⟨n + 1, none⟩ v, a2, l⟩)

theorem exEnd_eq (h : Agree n toks toks') {p : Pt} (hp : p.off ≤ n) : ex toks' p ⟨n + 1, none⟩ = ex toks p ⟨n + 1, none⟩ := by
  unfold Verif.ex
  simp only [Nat.add_sub_cancel]
  rw [h _ hp, h n (Nat.le_refl _)]

theorem Fin'.map {β : Type} {p p' : P α} {f : α → β} (h : Fin' toks n p p') : Fin' toks n (p.map f) (p'.map f) := by
  intro a pt v a2 l hv h1 hl
  obtain ⟨v, h2, rfl⟩ := Inv.map_ok h1
  obtain ⟨h3, h4⟩ := h a pt _ _ _ hv h2 hl
  refine ⟨h3, fun hd => ?_⟩
  unfold P.map at hd ⊢
  rcases hr : p' a pt with ⟨⟨m, v⟩ | ⟨m, e⟩ | _ | _, a1, l1⟩ <;> rw [hr] at hd h4 <;> simp at hd h4 <;> simp [h4]

theorem Fin'.spanned (hA : Agree n toks toks') {p p' : P α} (h : Fin' toks n p p') :
    Fin' toks n (P.spanned toks p) (P.spanned toks' p') := by
  intro a pt v a2 l hv h1 hl
  obtain ⟨v', h2⟩ := Inv.spanned_ok h1
  obtain ⟨h3, h4⟩ := h a pt _ _ _ hv h2 hl
  refine ⟨h3, fun hd => ?_⟩
  have h5 : ¬ (p' a pt).dead := by
    intro hd'
    apply hd
    unfold P.spanned
    rcases hr : p' a pt with ⟨⟨m, v⟩ | ⟨m, e⟩ | _ | _, a1, l1⟩ <;> rw [hr] at hd' <;> simp at hd' ⊢
  unfold P.spanned at h1 ⊢
  rw [h4 h5]
  rw [h2] at h1
  dsimp only at h1 ⊢
  rw [exEnd_eq hA h3]
  exact h1

variable {Φ : NT → Rel} {rec rec' : NT → P (List V)}

theorem evalG_fin (ht : EofLast toks) (hA : Agree n toks toks') (hr : RecOK toks Φ rec) (hT : RecTracked toks rec)
    (hL : ∀ nt, Local toks n (rec nt) (rec' nt)) (hF : ∀ nt : NT, nt.ends = true → Fin' toks n (rec nt) (rec' nt)) (g : G) :
    g.wf = true → g.local = true → g.ends = true → Fin' toks n (evalG toks rec g) (evalG toks' rec' g) := by
  induction g with
  | tok k =>
    intro _ _ hk a pt v a2 l hv h hl
    obtain ⟨h1, h2, -⟩ := tok_ok hk h
    have h3 : n = pt.off := by simpa using congrArg Pt.off h1
    subst h3
    refine ⟨Nat.le_refl _, fun _ => ?_⟩
    have h4 : evalG toks' rec' (.tok k) a pt = evalG toks rec (.tok k) a pt := by
      simp only [evalG, P.map]
      rw [hA.token _ _ _ _ (Nat.le_refl _)]
    rw [h4, h]
  | r m => intro _ _ hm; exact hF m hm
  | seq x y _ ih =>
    intro hw hl he a pt v a2 l hv h hle
    simp [G.local] at hl; simp [G.wf] at hw
    obtain ⟨m, v1, a1, l1, l2, h1, h2, rfl⟩ := Inv.bind_ok h
    simp only [Log.reach_append] at hle
    have hrun := evalG_run ht hr x hw.1 a pt hv
    rw [h1] at hrun
    have h3 := (ih hw.2 hl.2 he).map (f := fun ws => v1 ++ ws) a1 m _ _ _ hrun.2.2.1 h2 (by omega)
    have h4 := Pt.off_le hv hrun.2.2.1 hrun.2.2.2.1
    refine ⟨by omega, fun hd => ?_⟩
    have h5 := evalG_local ht hA hr hT hL x hw.1 hl.1 a pt hv
    rw [h1] at h5
    have h6 : evalG toks' rec' x a pt = _ := h5 (by simp) (fun hd' => hd (by
      simp only [evalG, P.bind]
      rcases hx : evalG toks' rec' x a pt with ⟨⟨m, v⟩ | ⟨m, e⟩ | _ | _, a1, l1⟩ <;> rw [hx] at hd' <;> simp at hd' ⊢)) (by simp; omega)
    simp only [evalG, P.bind, h6] at hd ⊢
    have h7 : ¬ ((P.map (fun ws => v1 ++ ws) (evalG toks' rec' y)) a1 m).dead := by
      intro hd'
      apply hd
      rcases hx : (P.map (fun ws => v1 ++ ws) (evalG toks' rec' y)) a1 m with ⟨⟨m, v⟩ | ⟨m, e⟩ | _ | _, a1, l1⟩ <;>
        rw [hx] at hd' <;> simp at hd' ⊢
    rw [h3.2 h7]
  | alt x y ihx ihy =>
    intro hw hl he a pt v a2 l hv h hle
    simp [G.local] at hl; simp [G.wf] at hw; simp [G.ends] at he
    have hd1 : ¬ (evalG toks' rec' (.alt x y) a pt).dead → ¬ (evalG toks' rec' x a pt).dead := fun hd hd' => hd (by
      simp only [evalG, P.orElse]
      rcases hx : evalG toks' rec' x a pt with ⟨⟨m, v⟩ | ⟨m, e⟩ | _ | _, a1, l1⟩ <;> rw [hx] at hd' <;> simp at hd' ⊢)
    rcases Inv.orElse_ok h with h1 | ⟨m, e, a1, l1, l2, h1, h2, rfl⟩
    · obtain ⟨h3, h4⟩ := ihx (by simp [hw]) hl.1 he.1 a pt _ _ _ hv h1 hle
      refine ⟨h3, fun hd => ?_⟩
      have h5 := h4 (hd1 hd)
      simp only [evalG, P.orElse, h5]
    · simp only [Log.reach_append, Log.reach_cons, Log.reach_nil] at hle
      obtain ⟨h3, h4⟩ := ihy (by simp [hw]) hl.2 he.2 a1 pt _ _ _ hv h2 (by omega)
      refine ⟨h3, fun hd => ?_⟩
      have h5 := evalG_local ht hA hr hT hL x (by simp [hw]) hl.1 a pt hv
      rw [h1] at h5
      have h6 : evalG toks' rec' x a pt = _ := h5 (by simp) (hd1 hd) (by simp; omega)
      simp only [evalG, P.orElse, h6] at hd ⊢
      rw [h4 (fun hd' => hd (by
        rcases hx : evalG toks' rec' y a1 pt with ⟨⟨m, v⟩ | ⟨m, e⟩ | _ | _, a1, l1⟩ <;> rw [hx] at hd' <;> simp at hd' ⊢))]
  | ext x ih => intro hw hl he; exact ((ih hw hl he).spanned hA).map
  | drop x ih => intro hw hl he; exact (ih hw hl he).map
  | map f x ih => intro hw hl he; exact (ih hw hl he).map
  | build m x ih => intro hw hl he; exact ((ih hw hl he).spanned hA).map
  | _ => intro _ _ he; simp [G.ends] at he

theorem eval_fin (ht : EofLast toks) (hA : Agree n toks toks') (m : Nat) :
    ∀ m' (nt : NT), nt.ends = true → Fin' toks n (eval toks m nt) (eval toks' m' nt) := by
  induction m with
  | zero => intro m' nt _ a pt v a2 l _ h; simp [eval] at h
  | succ m ih =>
    intro m' nt hn
    obtain ⟨g, hg, he⟩ := rules_ends nt hn
    have h1 := rules_tracked nt
    have h2 := rules_wf nt
    rw [hg] at h1 h2
    simp at h1
    have e : ∀ toks k, eval toks (k + 1) nt = evalG toks (eval toks k) g := by intro toks k; unfold eval; rw [hg]; rfl
    cases m' with
    | zero =>
      rw [e]
      intro a pt v a2 l hv h hl
      exact ⟨((evalG_fin ht hA (eval_consumes ht m) (eval_tracked ht m) (eval_local ht hA m m) (ih m) g h2 h1.2 he) a pt v a2 l hv h hl).1,
        fun hd => absurd trivial hd⟩
    | succ m' =>
      rw [e, e]
      exact evalG_fin ht hA (eval_consumes ht m) (eval_tracked ht m) (eval_local ht hA m m') (ih m') g h2 h1.2 he

theorem parseItem_fin (ht : EofLast toks) (hA : Agree n toks toks') : Fin' toks n (parseItem toks) (parseItem toks') :=
  evalG_fin ht hA (eval_consumes ht _) (eval_tracked ht _) (eval_local ht hA _ _) (eval_fin ht hA _ _) itemG itemG_wf (by decide +kernel)
    (by decide +kernel)

theorem parseItem_alive (ht : EofLast toks) {pt : Pt} (hv : ValidPt toks pt) : ¬ (parseItem toks .Unambiguous pt).dead := by
  have hr := evalG_run ht (eval_consumes ht (evalFuel toks)) itemG itemG_wf .Unambiguous pt hv
  change Run toks (parseItem toks .Unambiguous pt) _ _ _ at hr
  have hh := parseItem_noHang ht .Unambiguous pt hv
  generalize parseItem toks .Unambiguous pt = r at hr hh
  rcases r with ⟨_ | _ | _ | _, _, _⟩
  · simp
  · simp
  · exact absurd hr.2.2 id
  · exact absurd hh id

end

/-! ## The loop over the items -/

section
variable {toks toks' : List Token} {N : Nat} {clear clear' : Bool}

theorem parseItem_end (ht : EofLast toks) {pt q : Pt} {vs : List V} {a : Amb} {l : Log} (hv : ValidPt toks pt) (hs : pt.sub = none)
    (h : parseItem toks .Unambiguous pt = ⟨.ok q vs, a, l⟩) :
    a = .Unambiguous ∧ ValidPt toks q ∧ q.sub = none ∧ pt.off < q.off ∧ ∀ x ∈ l, ValidPt toks x.1 := by
  have h1 := parseItem_run (Φ := fun _ _ _ _ _ => True) ht (fun _ _ _ _ _ _ _ => trivial) .Unambiguous pt hv
  rw [h] at h1
  obtain ⟨h2, h3⟩ := item_end hs h1.2.2.2.2
  exact ⟨h1.1, h1.2.2.1, h2, h3, fun x hx => (h1.2.1 x hx).1⟩

/-- Items end outside of all brackets. -/
theorem parseItems_depth (hc : Ctx toks N) (ht : EofLast toks) (hN : toks.length = N + 1) (k : Nat) :
    ∀ f pt items its, ValidPt toks pt → pt.sub = none → parseItems toks clear k f .Unambiguous pt items = .ok its →
      depth toks pt.off = 0 := by
  induction k with
  | zero => intro f pt items its _ _ h; cases h
  | succ k ih =>
    intro f pt items its hv hs h
    unfold parseItems at h
    obtain ⟨t, h1, -⟩ := id hv
    have hlt := hv.off_lt
    rw [h1] at h
    dsimp only at h
    split at h
    · rename_i he
      have : pt.off = N := by
        rcases Nat.lt_or_eq_of_le (Nat.le_of_lt_succ (hN ▸ hlt)) with h2 | h2
        · obtain ⟨u, h3, h4⟩ := hc.tok _ h2
          rw [h1] at h3; cases h3
          exact (h4 (isEOF_kind he)).elim
        · exact h2
      rw [this]; exact hc.dN
    · rcases hp : parseItem toks .Unambiguous pt with ⟨⟨q, vs⟩ | ⟨q, e⟩ | _ | _, a', l⟩ <;> rw [hp] at h <;> dsimp only at h
      · obtain ⟨rfl, h2, h3, h4, -⟩ := parseItem_end ht hv hs hp
        rw [if_pos h4] at h
        have h5 := ih _ _ _ _ h2 h3 h
        rcases Int.lt_or_eq_of_le (hc.d0 pt.off (by omega)) with hd | hd
        · obtain ⟨m, hz, -, hm⟩ := hc.trapped (by omega) hd
          have h8 := evalG_stay hc.closed (fun nt j m hz => eval_stay hc.closed (evalFuel toks) nt j m hz) itemG 0 pt.off m false false hz
            (by decide +kernel) .Unambiguous pt ⟨Nat.le_refl _, hz.le⟩
          have h8 : Lim _ _ _ (parseItem toks .Unambiguous pt) := h8
          rw [hp] at h8
          have h9 := (h8.ok _ _ rfl).in
          have := hz.deep q.off h9.1 h9.2
          omega
        · exact hd.symm
      · split at h <;> cases h
      · cases h
      · cases h

theorem PFailures.addAll_lt {l : Log} {b : Nat} : ∀ {f : PFailures}, f.point.off < b → (∀ x ∈ l, x.1.off < b) →
    (f.addAll l).point.off < b := by
  induction l with
  | nil => intro f h _; exact h
  | cons x l ih =>
    intro f h hl
    obtain ⟨p, e⟩ := x
    refine ih ?_ (fun x hx => hl x (by simp [hx]))
    unfold PFailures.add
    split
    · exact h
    · split
      · exact hl (p, e) (by simp)
      · exact h

/-- The loop goes over the same items, whatever comes after them. -/
theorem parseItems_prefix (hc : Ctx toks N) (ht : EofLast toks) (hN : toks.length = N + 1) (ht' : EofLast toks')
    (hA : ∀ i, i < N → toks'[i]? = toks[i]?) (k : Nat) :
    ∀ k' f f' pt items its, ValidPt toks pt → pt.sub = none → f'.point.off ≤ pt.off → (f'.point.off = pt.off → f' = .new) →
      toks'.length < k' + pt.off →
      parseItems toks clear k f .Unambiguous pt items = .ok its →
      ∃ k'' f'', toks'.length < k'' + N ∧ f''.point.off ≤ N ∧ (f''.point.off = N → f'' = .new) ∧
        parseItems toks' clear' k' f' .Unambiguous pt items = parseItems toks' clear' k'' f'' .Unambiguous ⟨N, none⟩ its := by
  induction k with
  | zero => intro k' f f' pt items its _ _ _ _ _ h; cases h
  | succ k ih =>
    intro k' f f' pt items its hv hs hf hf' hk h
    have hlt := hv.off_lt
    unfold parseItems at h
    obtain ⟨t, h1, -⟩ := id hv
    rw [h1] at h
    dsimp only at h
    split at h
    · rename_i he
      have : pt.off = N := by
        rcases Nat.lt_or_eq_of_le (Nat.le_of_lt_succ (hN ▸ hlt)) with h2 | h2
        · obtain ⟨u, h3, h4⟩ := hc.tok _ h2
          rw [h1] at h3; cases h3
          exact (h4 (isEOF_kind he)).elim
        · exact h2
      cases h
      obtain ⟨off, sub⟩ := pt
      dsimp only at this hs
      subst this hs
      exact ⟨k', f', hk, hf, hf', rfl⟩
    · rename_i hne
      have hptN : pt.off < N := by
        rcases Nat.lt_or_eq_of_le (Nat.le_of_lt_succ (hN ▸ hlt)) with h2 | h2
        · exact h2
        · obtain ⟨u, h3, h4⟩ := hc.eof
          rw [← h2, h1] at h3; cases h3
          cases t <;> simp_all [Token.isEOF, Token.kind?]
      rcases hp : parseItem toks .Unambiguous pt with ⟨⟨q, vs⟩ | ⟨q, e⟩ | _ | _, a', l⟩ <;> rw [hp] at h <;> dsimp only at h
      · obtain ⟨rfl, h2, h3, h4, h5⟩ := parseItem_end ht hv hs hp
        rw [if_pos h4] at h
        have hd := parseItems_depth hc ht hN _ _ _ _ _ h2 h3 h
        have hlog : ∀ x ∈ l, x.1.off < q.off := itemG_log (n := evalFuel toks - 3) hc ht hN hv hs (by
          have : evalFuel toks - 3 + 3 = evalFuel toks := by unfold evalFuel; omega
          rw [this]; exact hp) hd
        have hqN := h2.off_lt
        obtain ⟨n, hn⟩ : ∃ n, q.off = n + 1 := ⟨q.off - 1, by omega⟩
        have hq : q = ⟨n + 1, none⟩ := by cases q; simp_all
        subst hq
        have hAg : Agree n toks toks' := fun i hi => hA i (by omega)
        have hv' : ValidPt toks' pt := by
          obtain ⟨t, h6, h7⟩ := hv
          exact ⟨t, by rw [hA _ hptN]; exact h6, h7⟩
        have hreach : l.reach ≤ n := by
          clear h h5 hp
          induction l with
          | nil => simp
          | cons x l ihl =>
            have := hlog x (by simp)
            have := ihl (fun y hy => hlog y (by simp [hy]))
            dsimp only at *
            simp only [Log.reach_cons]; omega
        have h6 := (parseItem_fin ht hAg .Unambiguous pt vs .Unambiguous l hv hp hreach).2 (parseItem_alive ht' hv')
        cases k' with
        | zero => have := hv'.off_lt; omega
        | succ k' =>
          have h7 : (if clear' then PFailures.new else f'.addAll l).point.off < n + 1 := by
            split
            · simp [PFailures.new, Pt.zero]
            · exact PFailures.addAll_lt (by omega) hlog
          obtain ⟨k'', f'', h8, h9, h10, h11⟩ := ih k' _ (if clear' then PFailures.new else f'.addAll l) ⟨n + 1, none⟩ _ _ h2 h3 (by simp only; omega)
            (fun h => by simp only at h; omega) (by simp only at *; omega) h
          refine ⟨k'', f'', h8, h9, h10, ?_⟩
          rw [← h11]
          conv => lhs; unfold parseItems
          rw [hA _ hptN, h1]
          dsimp only
          rw [if_neg hne, h6]
          dsimp only
          rw [if_pos h4]
      · split at h <;> cases h
      · cases h
      · cases h

end

end Verif
