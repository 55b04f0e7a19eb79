import Verif.Proofs.Append
/-!
# Some of the items of a file
-/

namespace Verif
open Spec

/-! ## The last token of an item -/

/-- The last token read is of one of these kinds. -/
def G.lastIn (f : NT → Bool) (ks : List TK) : G → Bool
  | .tok k => k.solid && ks.contains k
  | .r n => f n
  | .seq _ b => b.lastIn f ks
  | .alt a b => a.lastIn f ks && b.lastIn f ks
  | .ext a | .drop a | .map _ a | .build _ a => a.lastIn f ks
  | _ => false

/-- The kinds of the tokens with which items end. -/
def itemLast : List TK := [.Semicolon, .RightCurly, .RightSquare, .RightParen, .DocCommentInnerLine, .DocCommentInnerBlock]

theorem rules_last : ∀ nt : NT, nt.ends = true → ∃ g, rules nt = .g g ∧ g.lastIn NT.ends itemLast = true := by
  have h : NT.all.all (fun nt => !nt.ends || match rules nt with
    | .g g => g.lastIn NT.ends itemLast
    | .expr _ => false) = true := by decide +kernel
  intro nt hn
  have := List.all_eq_true.mp h nt (NT.mem_all nt)
  rw [hn] at this
  revert this
  cases rules nt <;> simp

section
variable {toks : List Token} {D : Nat → Prop} {α : Type}

/-- If the parser succeeds, the last token is of one of these kinds. -/
def LastIn (toks : List Token) (ks : List TK) (p : P α) : Prop :=
  ∀ a pt q v a2 l, p a pt = ⟨.ok q v, a2, l⟩ → ∃ m t k, q = ⟨m + 1, none⟩ ∧ toks[m]? = some t ∧ t.kind? = some k ∧ k ∈ ks

theorem LastIn.map {β : Type} {ks : List TK} {p : P α} {f : α → β} (h : LastIn toks ks p) : LastIn toks ks (p.map f) := by
  intro a pt q v a2 l h1
  obtain ⟨v, h2, rfl⟩ := Inv.map_ok h1
  exact h _ _ _ _ _ _ h2

theorem LastIn.spanned {ks : List TK} {p : P α} (h : LastIn toks ks p) : LastIn toks ks (P.spanned toks p) := by
  intro a pt q v a2 l h1
  obtain ⟨v', h2⟩ := Inv.spanned_ok h1
  exact h _ _ _ _ _ _ h2

theorem evalG_last {rec : NT → P (List V)} {f : NT → Bool} {ks : List TK} (hr : ∀ nt, f nt = true → LastIn toks ks (rec nt)) (g : G) :
    g.lastIn f ks = true → LastIn toks ks (evalG toks rec g) := by
  induction g with
  | tok k =>
    intro h a pt q v a2 l h1
    simp [G.lastIn] at h
    obtain ⟨rfl, -, -, t, h2, h3⟩ := tok_ok h.1 h1
    exact ⟨_, t, k, rfl, h2, h3, h.2⟩
  | r n => intro h; exact hr n h
  | seq x y _ ih =>
    intro h a pt q v a2 l h1
    obtain ⟨m, v1, a1, l1, l2, h1, h2, rfl⟩ := Inv.bind_ok h1
    exact (ih h).map _ _ _ _ _ _ h2
  | alt x y ihx ihy =>
    intro h a pt q v a2 l h1
    simp [G.lastIn] at h
    rcases Inv.orElse_ok h1 with h1 | ⟨m, e, a1, l1, l2, h1, h2, rfl⟩
    · exact ihx h.1 _ _ _ _ _ _ h1
    · exact ihy h.2 _ _ _ _ _ _ h2
  | ext x ih => intro h; exact (ih h).spanned.map
  | drop x ih => intro h; exact (ih h).map
  | map g x ih => intro h; exact (ih h).map
  | build m x ih => intro h; exact (ih h).spanned.map
  | _ => intro h; simp [G.lastIn] at h

theorem eval_last (n : Nat) : ∀ nt : NT, nt.ends = true → LastIn toks itemLast (eval toks n nt) := by
  induction n with
  | zero => intro nt _ a pt q v a2 l h; simp [eval] at h
  | succ n ih =>
    intro nt hn
    obtain ⟨g, hg, he⟩ := rules_last nt hn
    rw [eval_rule hg]
    exact evalG_last ih g he

theorem parseItem_last : LastIn toks itemLast (parseItem toks) :=
  evalG_last (eval_last _) itemG (by decide +kernel)

/-- An item is one value, which says where it stands. -/
theorem parseItem_value {a a2 : Amb} {pt q : Pt} {vs : List V} {l : Log} (h : parseItem toks a pt = ⟨.ok q vs, a2, l⟩) :
    ∃ e fs, vs = [.node .AttributedItem e [] fs] ∧ ex toks pt q = some e := by
  have h : evalG toks (eval toks (evalFuel toks)) (.build (.node .AttributedItem) _) a pt = _ := h
  obtain ⟨⟨e, fs⟩, h1, rfl⟩ := Inv.map_ok h
  refine ⟨e, fs, rfl, ?_⟩
  unfold P.spanned at h1
  split at h1
  · split at h1
    · cases h1; assumption
    · cases h1
  all_goals cases h1

/-! ## The items one after the other -/

/-- From the `i`-th to the `j`-th token there are these items, each ends where `D` is the case, and none of them depends on what comes
after it. -/
inductive Runs (toks : List Token) (D : Nat → Prop) : Nat → Nat → List V → Prop
  | nil {i} : Runs toks D i i []
  | cons {i j k v vs l} : parseItem toks .Unambiguous ⟨i, none⟩ = ⟨.ok ⟨j, none⟩ [v], .Unambiguous, l⟩ → i < j → j < toks.length →
      (∀ x ∈ l, x.1.off < j) ∧ D j → Runs toks D j k vs → Runs toks D i k (v :: vs)

theorem Runs.le {i j : Nat} {vs : List V} (h : Runs toks D i j vs) : i ≤ j := by
  induction h with
  | nil => exact Nat.le_refl _
  | cons _ _ _ _ _ ih => omega

theorem Runs.split {i k : Nat} {vs : List V} (h : Runs toks D i k vs) : ∀ {a b : List V}, vs = a ++ b → D i →
    ∃ j, D j ∧ Runs toks D i j a ∧ Runs toks D j k b := by
  induction h with
  | nil =>
    intro a b e hi
    obtain ⟨rfl, rfl⟩ := List.nil_eq_append_iff.mp e
    exact ⟨_, hi, .nil, .nil⟩
  | @cons i j k v vs l h1 h2 h3 h4 h5 ih =>
    intro a b e hi
    cases a with
    | nil => exact ⟨i, hi, .nil, by simp at e; subst e; exact .cons h1 h2 h3 h4 h5⟩
    | cons x xs =>
      simp at e
      obtain ⟨rfl, e⟩ := e
      obtain ⟨m, h6, h7, h8⟩ := ih e h4.2
      exact ⟨m, h6, .cons h1 h2 h3 h4 h7, h8⟩

/-- Where the first item starts. -/
theorem Runs.first {i j : Nat} {v : V} {vs : List V} (h : Runs toks D i j (v :: vs)) :
    ∃ k e ws fs t, v = .node k e ws fs ∧ toks[i]? = some t ∧ e.s = t.extent.s := by
  cases h with
  | cons h1 h2 h3 h4 _ =>
    obtain ⟨e, fs, h5, h6⟩ := parseItem_value h1
    simp at h5
    refine ⟨_, e, _, fs, toks[i], h5, List.getElem?_eq_getElem (by omega), ?_⟩
    unfold ex at h6
    rw [List.getElem?_eq_getElem (show i < toks.length by omega)] at h6
    dsimp only at h6
    rw [if_pos h2] at h6
    split at h6
    · cases h6
    · cases h6; rfl

/-- Where the last item ends. -/
theorem Runs.last {i j : Nat} {v : V} {vs : List V} (h : Runs toks D i j vs) : vs.getLast? = some v →
    ∃ k e ws fs m t k', v = .node k e ws fs ∧ j = m + 1 ∧ toks[m]? = some t ∧ e.e = t.extent.e ∧ t.kind? = some k' ∧ k' ∈ itemLast := by
  induction h with
  | nil => intro h; cases h
  | @cons i j k w vs l h1 h2 h3 h4 h5 ih =>
    intro h
    cases vs with
    | nil =>
      cases h5
      simp at h
      subst h
      obtain ⟨e, fs, h5, h6⟩ := parseItem_value h1
      obtain ⟨m, t, k', hj, ht, hk, hm⟩ := parseItem_last _ _ _ _ _ _ h1
      simp at h5 hj
      subst hj
      refine ⟨_, e, _, fs, m, t, k', h5, rfl, ht, ?_, hk, hm⟩
      unfold ex at h6
      rw [List.getElem?_eq_getElem (show i < toks.length by omega)] at h6
      dsimp only at h6
      rw [if_pos h2, Nat.add_sub_cancel, ht] at h6
      cases h6; rfl
    | cons x xs => exact ih (by rw [List.getLast?_cons_cons] at h; exact h)

/-- What the loop leads to. -/
theorem parseItems_runs {N : Nat} {clear : Bool} (hc : Ctx toks N) (ht : EofLast toks) (hN : toks.length = N + 1) (k : Nat) :
    ∀ f i items its, i ≤ N → parseItems toks clear k f .Unambiguous ⟨i, none⟩ items = .ok its →
      ∃ vs, its = items ++ vs ∧ Runs toks (fun n => depth toks n = 0) i N vs := by
  induction k with
  | zero => intro f i items its _ h; cases h
  | succ k ih =>
    intro f i items its hi h
    have hv : ValidPt toks ⟨i, none⟩ := ValidPt.of_none (show i < toks.length by omega)
    unfold parseItems at h
    obtain ⟨t, h1, -⟩ := id hv
    rw [h1] at h
    dsimp only at h
    split at h
    · rename_i he
      have : i = N := by
        rcases Nat.lt_or_eq_of_le hi with h2 | h2
        · obtain ⟨u, h3, h4⟩ := hc.tok _ h2
          dsimp only at h1
          rw [h1] at h3; cases h3
          exact (h4 (isEOF_kind he)).elim
        · exact h2
      subst this
      cases h
      exact ⟨[], by simp, .nil⟩
    · rcases hp : parseItem toks .Unambiguous ⟨i, none⟩ with ⟨⟨q, vs⟩ | ⟨q, e⟩ | _ | _, a', l⟩ <;> rw [hp] at h <;> dsimp only at h
      · obtain ⟨rfl, h2, h3, h4, -⟩ := parseItem_end ht hv rfl hp
        rw [if_pos h4] at h
        have hd := parseItems_depth hc ht hN _ _ _ _ _ h2 h3 h
        have hlog : ∀ x ∈ l, x.1.off < q.off := itemG_log (n := evalFuel toks - 3) hc ht hN hv rfl (by
          have : evalFuel toks - 3 + 3 = evalFuel toks := by unfold evalFuel; omega
          rw [this]; exact hp) hd
        obtain ⟨e, fs, rfl, -⟩ := parseItem_value hp
        obtain ⟨j, sub⟩ := q
        dsimp only at h3
        subst h3
        have hj := h2.off_lt
        dsimp only at hj h4
        obtain ⟨vs, rfl, h5⟩ := ih _ _ _ _ (by omega) h
        exact ⟨_, List.append_assoc .., .cons hp h4 hj ⟨hlog, hd⟩ h5⟩
      · split at h <;> cases h
      · cases h
      · cases h

/-- The tokens of some of the items, and an end. -/
theorem Runs.excerpt {i j a : Nat} {sel : List V} {A B : List Token} {t : Token} (ht : EofLast toks) (htoks : toks = A ++ B) (hi : A.length = i)
    (hj : j ≤ toks.length) (hB : EofLast (B.take (j - i) ++ [t])) (h : Runs toks D a j sel) (ha : i ≤ a) :
    Runs (B.take (j - i) ++ [t]) (fun _ => True) (a - i) (j - i) sel := by
  induction h with
  | nil => exact .nil
  | @cons a b j v vs l h1 h2 h3 h4 h5 ih =>
    have hbj := h5.le
    have hlen : toks.length = i + B.length := by rw [htoks]; simp [hi]
    have hl : (B.take (j - i)).length = j - i := by rw [List.length_take]; omega
    obtain ⟨n, rfl⟩ : ∃ n, b = n + 1 := ⟨b - 1, by omega⟩
    have he : EofLast (A ++ (B.take (j - i) ++ [t])) := by
      obtain ⟨i1, u, e1, h6, h7⟩ := hB
      refine ⟨A ++ i1, u, by rw [e1]; simp, h6, ?_⟩
      intro x hx
      rcases List.mem_append.mp hx with hx | hx
      · obtain ⟨i2, u2, e2, h8, h9⟩ := ht
        refine h9 x ?_
        have hB0 : B ≠ [] := by rintro rfl; simp at hlen; omega
        obtain ⟨B', y, rfl⟩ : ∃ B' y, B = B' ++ [y] := ⟨_, _, (List.dropLast_concat_getLast hB0).symm⟩
        rw [htoks, ← List.append_assoc] at e2
        obtain ⟨e3, -⟩ := List.append_inj' e2 rfl
        rw [← e3]
        exact List.mem_append.mpr (.inl hx)
      · exact h7 x hx
    have hAg : Agree n toks (A ++ (B.take (j - i) ++ [t])) := by
      intro x hx
      rw [htoks]
      rcases Nat.lt_or_ge x A.length with h6 | h6
      · rw [List.getElem?_append_left h6, List.getElem?_append_left h6]
      · rw [List.getElem?_append_right h6, List.getElem?_append_right h6, List.getElem?_append_left (by omega), List.getElem?_take,
          if_pos (by omega)]
    have hv : ValidPt toks ⟨a, none⟩ := ValidPt.of_none (show a < toks.length by omega)
    have hv' : ValidPt (A ++ (B.take (j - i) ++ [t])) ⟨a, none⟩ := ValidPt.of_none (by simp; omega)
    have hv'' : ValidPt (B.take (j - i) ++ [t]) ⟨a - i, none⟩ := ValidPt.of_none (by simp; omega)
    have hreach : l.reach ≤ n := by
      clear h1 ih
      induction l with
      | nil => simp
      | cons x l ihl =>
        have := h4.1 x (by simp)
        have := ihl ⟨fun y hy => h4.1 y (by simp [hy]), h4.2⟩
        simp only [Log.reach_cons]; omega
    have h6 := (parseItem_fin ht hAg .Unambiguous _ _ .Unambiguous l hv h1 hreach).2 (parseItem_alive he hv')
    have h7 := parseItem_up A (B.take (j - i) ++ [t]) .Unambiguous ⟨a - i, none⟩ (parseItem_alive hB hv'')
    have e1 : Pt.up A.length ⟨a - i, none⟩ = ⟨a, none⟩ := by simp [Pt.up]; omega
    rw [e1, h6] at h7
    have h8 : n + 1 - i < (B.take (j - i) ++ [t]).length := by simp; omega
    rcases hp : parseItem (B.take (j - i) ++ [t]) .Unambiguous ⟨a - i, none⟩ with ⟨⟨q, vs⟩ | ⟨q, e⟩ | _ | _, a', l'⟩ <;> rw [hp] at h7
    · simp only [up_ok, Res.mk.injEq, Out.ok.injEq] at h7
      obtain ⟨⟨h9, rfl⟩, rfl, h10⟩ := h7
      obtain ⟨qo, qs⟩ := q
      simp only [Pt.up, Pt.mk.injEq] at h9
      obtain ⟨h9, rfl⟩ := h9
      have : qo = n + 1 - i := by omega
      subst this
      refine .cons hp (by omega) h8 ⟨?_, trivial⟩ (ih hj hB (by omega))
      intro x hx
      have := h4.1 (x.1.up A.length, x.2) (by rw [h10]; exact List.mem_map.mpr ⟨x, hx, rfl⟩)
      simp at this
      omega
    · cases h7
    · cases h7
    · cases h7

/-- The loop over these items. -/
theorem Runs.parse {i j : Nat} {vs : List V} {clear : Bool} (h : Runs toks D i j vs) (hN : toks.length = j + 1)
    (he : ∃ t, toks[j]? = some t ∧ t.isEOF = true) (hno : ∀ x < j, ∀ t, toks[x]? = some t → t.isEOF = false) :
    ∀ k f items, toks.length < k + i → parseItems toks clear k f .Unambiguous ⟨i, none⟩ items = .ok (items ++ vs) := by
  induction h with
  | nil =>
    intro k f items hk
    obtain ⟨t, h1, h2⟩ := he
    cases k with
    | zero => omega
    | succ k =>
      unfold parseItems
      rw [h1]
      dsimp only
      rw [if_pos h2, List.append_nil]
  | @cons i b j v vs l h1 h2 h3 h4 h5 ih =>
    intro k f items hk
    have := h5.le
    cases k with
    | zero => omega
    | succ k =>
      unfold parseItems
      have h6 : toks[i]? = some toks[i] := List.getElem?_eq_getElem (by omega)
      have h7 := hno i (by omega) _ h6
      dsimp only
      rw [h6]
      dsimp only
      rw [if_neg (by simp [h7]), h1]
      dsimp only
      rw [if_pos h2, ih hN he hno k _ _ (by omega), List.append_assoc]
      rfl

end

/-- Some of the items of a file make a file of their own. -/
theorem parseTokens_excerpt {A : List Token} {t : Token} {clear : Bool} {its : List V} (hb : Matched A) (ht : t.isEOF)
    (hA : ∀ u ∈ A, u.isEOF = false) (h : parseTokens (A ++ [t]) clear = .ok its) :
    Runs (A ++ [t]) (fun n => depth (A ++ [t]) n = 0) 0 A.length its := by
  obtain ⟨vs, e, h1⟩ := parseItems_runs (Ctx.of hb ht hA) ⟨A, t, rfl, ht, by simpa using hA⟩ (by simp) _ _ _ _ _ (Nat.zero_le _) h
  simp at e
  rw [e]
  exact h1

theorem Runs.parseTokens {A P Q R : List Token} {t u : Token} {clear : Bool} {D : Nat → Prop} {sel : List V} (ht : t.isEOF) (hu : u.isEOF)
    (hA : ∀ u ∈ A, u.isEOF = false) (e : A = P ++ Q ++ R) (h : Runs (A ++ [t]) D P.length (P ++ Q).length sel) :
    parseTokens (Q ++ [u]) clear = .ok sel := by
  have hQ : ∀ u ∈ Q, u.isEOF = false := fun u hu => hA u (by rw [e]; simp [hu])
  have e1 : (Q ++ (R ++ [t])).take ((P ++ Q).length - P.length) = Q := by simp
  have h1 := h.excerpt (A := P) (B := Q ++ (R ++ [t])) (t := u) ⟨A, t, rfl, ht, hA⟩ (by rw [e]; simp) rfl (by rw [e]; simp)
    (by rw [e1]; exact ⟨Q, u, rfl, hu, hQ⟩) (Nat.le_refl _)
  rw [e1] at h1
  have h2 := h1.parse (clear := clear) (by simp) ⟨u, by simp, hu⟩ (fun x hx y hy => by
    rw [List.getElem?_append_left (by simpa using hx)] at hy
    exact hQ y (List.mem_of_getElem? hy)) ((Q ++ [u]).length + 1) .new [] (by omega)
  simpa [Verif.parseTokens, Pt.zero] using h2

/-! ## Brackets -/

/-- By how much the tokens change the depth. -/
def weights : List Token → Int
  | [] => 0
  | t :: ts => t.weight + weights ts

theorem weights_append (a b : List Token) : weights (a ++ b) = weights a + weights b := by
  induction a with
  | nil => simp [weights]
  | cons t a ih => simp [weights, ih]; omega

theorem depth_weights (a b : List Token) : depth (a ++ b) a.length = weights a := by
  suffices h : ∀ n, n ≤ a.length → depth (a ++ b) n = weights (a.take n) by
    rw [h _ (Nat.le_refl _), List.take_length]
  intro n
  induction n with
  | zero => intro _; rfl
  | succ n ih =>
    intro h
    have h1 : (a ++ b)[n]? = some a[n] := by rw [List.getElem?_append_left (by omega), List.getElem?_eq_getElem]
    rw [depth_succ h1, ih (by omega), List.take_succ_eq_append_getElem (by omega), weights_append]
    simp [weights]

theorem NoBracket.weight {t : Token} (h : NoBracket t) : t.weight = 0 := by
  refine weight_none fun k hk => ?_
  have : ∀ k : TK, k ∉ [TK.LeftParen, .RightParen, .LeftSquare, .RightSquare, .LeftCurly, .RightCurly] → k.opens = false ∧ k.closes = false := by
    intro k; cases k <;> simp [TK.opens, TK.closes]
  exact this k (fun hm => h k hm hk)

theorem Pair.weight {o c : Token} {ko kc : TK} (ho : o.kind? = some ko) (hc : c.kind? = some kc) (h : Pair ko kc) :
    o.weight = 1 ∧ c.weight = -1 := by
  cases h <;> exact ⟨weight_open ho rfl, weight_close hc rfl⟩

theorem Matched.weights {A : List Token} (h : Matched A) : weights A = 0 ∧ ∀ B C, A = B ++ C → 0 ≤ Verif.weights B := by
  induction h with
  | nil => exact ⟨rfl, fun B C e => by rw [(List.nil_eq_append_iff.mp e).1]; decide⟩
  | @plain t ts h1 _ ih =>
    refine ⟨by simp [Verif.weights, NoBracket.weight h1, ih.1], fun B C e => ?_⟩
    cases B with
    | nil => decide
    | cons x B =>
      simp at e
      obtain ⟨rfl, e⟩ := e
      have := ih.2 B C e
      simp [Verif.weights, NoBracket.weight h1, this]
  | @group o c ko kc inner rest h1 h2 h3 _ _ ih1 ih2 =>
    obtain ⟨w1, w2⟩ := Pair.weight h1 h2 h3
    refine ⟨by rw [List.cons_append, Verif.weights, weights_append, Verif.weights, w1, w2, ih1.1, ih2.1]; decide, fun B C e => ?_⟩
    cases B with
    | nil => decide
    | cons x B =>
      simp at e
      obtain ⟨rfl, e⟩ := e
      rw [Verif.weights, w1]
      rcases List.append_eq_append_iff.mp e with ⟨a, rfl, e'⟩ | ⟨a, rfl, -⟩
      · cases a with
        | nil => rw [List.append_nil, ih1.1]; decide
        | cons y a =>
          simp at e'
          have := ih2.2 a C e'.2
          rw [← e'.1]
          rw [weights_append, Verif.weights, ih1.1, w2]
          omega
      · have := ih1.2 B a rfl
        omega

/-- Brackets that match still do in both parts, if the cut is outside of all brackets. -/
theorem Matched.cut {A : List Token} (h : Matched A) : ∀ B C, A = B ++ C → Verif.weights B = 0 → Matched B ∧ Matched C := by
  induction h with
  | nil => intro B C e _; obtain ⟨rfl, rfl⟩ := List.nil_eq_append_iff.mp e; exact ⟨.nil, .nil⟩
  | @plain t ts h1 h2 ih =>
    intro B C e hw
    cases B with
    | nil => simp at e; subst e; exact ⟨.nil, .plain h1 h2⟩
    | cons x B =>
      simp at e
      obtain ⟨rfl, e⟩ := e
      simp [Verif.weights, NoBracket.weight h1] at hw
      exact ⟨.plain h1 (ih B C e hw).1, (ih B C e hw).2⟩
  | @group o c ko kc inner rest h1 h2 h3 h4 h5 ih1 ih2 =>
    intro B C e hw
    obtain ⟨w1, w2⟩ := Pair.weight h1 h2 h3
    cases B with
    | nil => rw [List.nil_append] at e; subst e; exact ⟨.nil, .group h1 h2 h3 h4 h5⟩
    | cons x B =>
      simp at e
      obtain ⟨rfl, e⟩ := e
      rw [Verif.weights, w1] at hw
      rcases List.append_eq_append_iff.mp e with ⟨a, rfl, e'⟩ | ⟨a, rfl, -⟩
      · cases a with
        | nil => rw [List.append_nil, (Matched.weights h4).1] at hw; simp at hw
        | cons y a =>
          simp at e'
          rw [← e'.1] at hw ⊢
          rw [weights_append, Verif.weights, (Matched.weights h4).1, w2] at hw
          obtain ⟨h6, h7⟩ := ih2 a C e'.2 (by omega)
          exact ⟨.group h1 h2 h3 h4 h6, h7⟩
      · have := (Matched.weights h4).2 B a rfl
        omega

/-- The brackets between two places outside of all brackets. -/
theorem Matched.between {A P Q R : List Token} {t : Token} (h : Matched A) (e : A = P ++ Q ++ R) (h1 : depth (A ++ [t]) P.length = 0)
    (h2 : depth (A ++ [t]) (P ++ Q).length = 0) : Matched Q := by
  subst e
  rw [show P ++ Q ++ R ++ [t] = P ++ (Q ++ R ++ [t]) by simp, depth_weights] at h1
  rw [show P ++ Q ++ R ++ [t] = (P ++ Q) ++ (R ++ [t]) by simp, depth_weights, weights_append] at h2
  exact (Matched.cut (Matched.cut h (P ++ Q) R rfl (by rw [weights_append]; exact h2)).1 P Q rfl h1).2

end Verif
