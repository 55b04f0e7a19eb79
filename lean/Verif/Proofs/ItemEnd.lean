import Verif.Proofs.ItemLog
/-!
# How far the parser of an item with its attributes looks
-/

namespace Verif
open Spec

theorem nestedLen_stop (o c : Token → Bool) : ∀ (ts : List Token) (d : Nat) (t : Token),
    ts[nestedLen o c d ts]? = some t → t.isEOF = true ∨ c t = true := by
  intro ts
  induction ts with
  | nil => intro d t h; simp at h
  | cons u ts ih =>
    intro d t h
    rw [nestedLen_cons] at h
    split at h
    · simp at h; subst h; exact .inl (by assumption)
    · split at h
      · exact ih _ t (by simpa using h)
      · split at h
        · cases d with
          | zero => simp at h; subst h; exact .inr (by assumption)
          | succ d => exact ih _ t (by simpa using h)
        · exact ih _ t (by simpa using h)

section
variable {toks : List Token} {N : Nat} {rec : NT → P (List V)} {a a2 : Amb} {pt q : Pt} {l : Log} {e : PErr} {w : List V}

theorem d_there {k : TK} {i : Nat} {t : Token} (ht : toks[i]? = some t) (hk : t.kind? = some k)
    (h : evalG toks rec (.d k) a ⟨i, none⟩ = ⟨.fail q e, a2, l⟩) : False := by
  have h1 := Inv.map_fail (Inv.map_fail h)
  cases t with
  | number => cases k <;> simp [Token.kind?] at hk
  | plain k' x =>
    simp only [Token.kind?, Option.some.injEq] at hk
    subst hk
    simp [token, ht, convTK] at h1

theorem nested_ok {o c : TK} (ho : o.solid = true) (h : evalG toks rec (.nested o c) a pt = ⟨.ok q w, a2, l⟩) :
    l = [] ∧ a2 = a ∧ q = ⟨pt.off + 1 + nestedLen (isTK o) (isTK c) 0 (toks.drop (pt.off + 1)), none⟩ ∧
      ∃ t, toks[pt.off]? = some t ∧ t.kind? = some o := by
  obtain ⟨m, v, a1, l1, l2, h1, h2, rfl⟩ := Inv.bind_ok h
  obtain ⟨v', h2, -⟩ := Inv.map_ok h2
  rcases solid_cases (toks := toks) ho (.Expected o) a pt with ⟨e, h3⟩ | h3 | ⟨v, t, h3, ht, hkt⟩ <;> rw [h3] at h1 <;> cases h1
  unfold parseNestedUntil at h2
  dsimp only at h2
  split at h2 <;> cases h2
  exact ⟨rfl, rfl, by simp [Pt.advanceBy], t, ht, hkt⟩

theorem nested_fail {o c : TK} (ho : o.solid = true) (h : evalG toks rec (.nested o c) a pt = ⟨.fail q e, a2, l⟩) :
    l = [] ∧ q = pt := by
  rcases Inv.bind_fail h with h1 | ⟨m, v, a1, l1, l2, h1, h2, rfl⟩
  · rcases solid_cases (toks := toks) ho (.Expected o) a pt with ⟨e, h3⟩ | h3 | ⟨v, t, h3, ht, hkt⟩ <;> rw [h3] at h1 <;> cases h1
    exact ⟨rfl, rfl⟩
  · have h2 := Inv.map_fail h2
    unfold parseNestedUntil at h2
    dsimp only at h2
    split at h2 <;> cases h2

/-- After the tokens between square brackets comes the closing one. -/
theorem nested_close (hc : Ctx toks N) {i : Nat} (h : i < N) {t : Token} (ht : toks[i]? = some t) (hk : t.kind? = some .LeftSquare) :
    ∃ u, toks[i + 1 + nestedLen (isTK .LeftSquare) (isTK .RightSquare) 0 (toks.drop (i + 1))]? = some u ∧ u.kind? = some .RightSquare := by
  obtain ⟨m, hm, hs⟩ := hc.closed i t .LeftSquare h ht hk rfl
  have h1 := hs.nested
  have h2 := hs.lt
  have e : TK.other .LeftSquare = .RightSquare := rfl
  rw [e] at h1
  obtain ⟨u, hu, hku⟩ := hc.tok (i + 1 + nestedLen (isTK .LeftSquare) (isTK .RightSquare) 0 (toks.drop (i + 1))) (by omega)
  refine ⟨u, hu, ?_⟩
  rcases nestedLen_stop (isTK .LeftSquare) (isTK .RightSquare) (toks.drop (i + 1)) 0 u (by rw [List.getElem?_drop]; exact hu) with h3 | h3
  · exact (hku (isEOF_kind h3)).elim
  · simpa [isTK] using h3

variable {n : Nat} {nt lit : NT} {t1 t2 t3 : Tag} {k1 k2 : TK}

theorem attrs_ok (h1 : k1.solid = true) (h2 : k2.solid = true)
    (h : evalG toks rec (.alt (.alt (.wrap t1 (.tok k1)) (.wrap t2 (.tok k2))) (.wrap t3 (.r lit))) a pt = ⟨.ok q w, a2, l⟩) :
    (q = ⟨pt.off + 1, none⟩ ∧ (∃ t, toks[pt.off]? = some t ∧ (t.kind? = some k1 ∨ t.kind? = some k2)) ∧ ∀ x ∈ l, x.1.off = pt.off) ∨
    ∃ w' l', rec lit a pt = ⟨.ok q w', a2, l'⟩ ∧ ∀ x ∈ l, x.1.off = pt.off ∨ x ∈ l' := by
  rcases Inv.orElse_ok h with h3 | ⟨m, e, a1, l1, l2, h3, h4, rfl⟩
  · rcases Inv.orElse_ok h3 with h4 | ⟨m, e, a1, l1, l2, h4, h5, rfl⟩
    · obtain ⟨v, h5, -⟩ := Inv.map_ok h4
      obtain ⟨rfl, rfl, -, t, h6, h7⟩ := tok_ok h1 h5
      exact .inl ⟨rfl, ⟨t, h6, .inl h7⟩, by simp⟩
    · obtain ⟨rfl, rfl, -⟩ := tok_fail h1 (Inv.map_fail h4)
      obtain ⟨v, h5, -⟩ := Inv.map_ok h5
      obtain ⟨rfl, rfl, -, t, h6, h7⟩ := tok_ok h2 h5
      exact .inl ⟨rfl, ⟨t, h6, .inr h7⟩, by simp⟩
  · obtain ⟨m', e', a1', l3, l4, h5, h6, rfl⟩ := Inv.orElse_fail h3
    obtain ⟨rfl, rfl, rfl⟩ := tok_fail h1 (Inv.map_fail h5)
    obtain ⟨rfl, rfl, rfl⟩ := tok_fail h2 (Inv.map_fail h6)
    obtain ⟨v, h7, -⟩ := Inv.map_ok h4
    refine .inr ⟨_, _, h7, fun x hx => ?_⟩
    simp at hx
    rcases hx with rfl | hx | rfl
    · exact .inl rfl
    · exact .inr hx
    · exact .inl rfl

theorem attrs_fail (h1 : k1.solid = true) (h2 : k2.solid = true)
    (h : evalG toks rec (.alt (.alt (.wrap t1 (.tok k1)) (.wrap t2 (.tok k2))) (.wrap t3 (.r lit))) a pt = ⟨.fail q e, a2, l⟩) :
    ∃ l', rec lit a pt = ⟨.fail q e, a2, l'⟩ ∧ ∀ x ∈ l, x.1.off = pt.off ∨ x ∈ l' := by
  obtain ⟨m, e, a1, l1, l2, h3, h4, rfl⟩ := Inv.orElse_fail h
  obtain ⟨m', e', a1', l3, l4, h5, h6, rfl⟩ := Inv.orElse_fail h3
  obtain ⟨rfl, rfl, rfl⟩ := tok_fail h1 (Inv.map_fail h5)
  obtain ⟨rfl, rfl, rfl⟩ := tok_fail h2 (Inv.map_fail h6)
  refine ⟨_, Inv.map_fail h4, fun x hx => ?_⟩
  simp at hx
  rcases hx with rfl | hx | rfl
  · exact .inl rfl
  · exact .inr hx
  · exact .inl rfl

theorem attribute_ok (h : eval toks (n + 2) .attribute a pt = ⟨.ok q w, a2, l⟩) :
    (∀ x ∈ l, x.1.off = pt.off) ∧ q.sub = none ∧ pt.off < q.off := by
  rw [eval_rule (g := .alt (.alt (.wrap .Attribute_DocCommentLine (.tok .DocCommentOuterLine)) (.wrap .Attribute_DocCommentBlock (.tok
    .DocCommentOuterBlock))) (.wrap .Attribute_Literal (.r .attribute_literal))) rfl] at h
  rcases attrs_ok rfl rfl h with ⟨rfl, -, h1⟩ | ⟨w', l', h1, h2⟩
  · exact ⟨h1, rfl, by simp⟩
  · rw [eval_rule (g := .node .AttributeLiteral (.seq (.d .Hash) (.seq (.nested .LeftSquare .RightSquare) (.d .RightSquare)))) rfl] at h1
    obtain ⟨v, h3⟩ := build_ok h1
    obtain ⟨m, v, v', a1, l1, l2, h4, h5, rfl⟩ := seq_ok h3
    obtain ⟨rfl, rfl, rfl, -⟩ := d_ok rfl h4
    obtain ⟨m, v, v', a1, l1, l2, h6, h7, rfl⟩ := seq_ok h5
    obtain ⟨rfl, rfl, rfl, -⟩ := nested_ok rfl h6
    obtain ⟨rfl, rfl, rfl, -⟩ := d_ok rfl h7
    exact ⟨fun x hx => by simpa using h2 x hx, rfl, by simp only; omega⟩

theorem attribute_fail (hc : Ctx toks N) (hN : pt.off ≤ N) (h : eval toks (n + 2) .attribute a pt = ⟨.fail q e, a2, l⟩) :
    ∀ x ∈ (q, e) :: l, x.1.off = pt.off ∨ x.1.off = pt.off + 1 ∧ ∃ t, toks[pt.off]? = some t ∧ t.kind? = some .Hash := by
  rw [eval_rule (g := .alt (.alt (.wrap .Attribute_DocCommentLine (.tok .DocCommentOuterLine)) (.wrap .Attribute_DocCommentBlock (.tok
    .DocCommentOuterBlock))) (.wrap .Attribute_Literal (.r .attribute_literal))) rfl] at h
  obtain ⟨l', h1, h2⟩ := attrs_fail rfl rfl h
  have main : ∀ x ∈ (q, e) :: l', x.1.off = pt.off ∨ x.1.off = pt.off + 1 ∧ ∃ t, toks[pt.off]? = some t ∧ t.kind? = some .Hash := by
    rw [eval_rule (g := .node .AttributeLiteral (.seq (.d .Hash) (.seq (.nested .LeftSquare .RightSquare) (.d .RightSquare)))) rfl] at h1
    have h5 := build_fail h1
    rcases seq_fail h5 with h3 | ⟨m, v, a1, l1, l2, h3, h6, rfl⟩
    · obtain ⟨rfl, rfl, -⟩ := d_fail rfl h3
      simp
    · obtain ⟨rfl, rfl, rfl, t, ht, hk⟩ := d_ok rfl h3
      rcases seq_fail h6 with h4 | ⟨m, v, a1, l1, l2, h4, h7, rfl⟩
      · obtain ⟨rfl, rfl⟩ := nested_fail rfl h4
        simp [ht, hk]
      · obtain ⟨rfl, rfl, rfl, t', ht', hk'⟩ := nested_ok rfl h4
        have hlt : pt.off + 1 < N := by
          obtain ⟨u, hu, hku⟩ := hc.eof
          have h5 : pt.off ≠ N := fun h => by rw [h, hu] at ht; cases ht; rw [hku] at hk; cases hk
          have h6 : pt.off + 1 ≠ N := fun h => by rw [h, hu] at ht'; cases ht'; rw [hku] at hk'; cases hk'
          omega
        obtain ⟨u, hu, hku⟩ := nested_close hc hlt ht' hk'
        exact (d_there hu hku h7).elim
  intro x hx
  rcases List.mem_cons.mp hx with rfl | hx
  · exact main _ (by simp)
  · rcases h2 x hx with h3 | h3
    · exact .inl h3
    · exact main x (List.mem_cons_of_mem _ h3)

theorem containing_ok (h : eval toks (n + 2) .attribute_containing a pt = ⟨.ok q w, a2, l⟩) :
    (∀ x ∈ l, x.1.off = pt.off) ∧ pt.off < q.off ∧
      (pt.off + 1 < q.off ∨ ∃ t, toks[pt.off]? = some t ∧ t.kind? ≠ some .Hash) := by
  rw [eval_rule (g := .alt (.alt (.wrap .AttributeContaining_DocCommentLine (.tok .DocCommentInnerLine)) (.wrap
    .AttributeContaining_DocCommentBlock (.tok .DocCommentInnerBlock))) (.wrap .AttributeContaining_Literal
    (.r .attribute_containing_literal))) rfl] at h
  rcases attrs_ok rfl rfl h with ⟨rfl, ⟨t, ht, hk⟩, h1⟩ | ⟨w', l', h1, h2⟩
  · exact ⟨h1, by simp, .inr ⟨t, ht, by rcases hk with hk | hk <;> rw [hk] <;> simp⟩⟩
  · rw [eval_rule (g := .node .AttributeContainingLiteral (.seq (.d .Hash) (.seq (.d .Bang) (.seq (.nested .LeftSquare .RightSquare)
      (.d .RightSquare))))) rfl] at h1
    obtain ⟨v, h3⟩ := build_ok h1
    obtain ⟨m, v, v', a1, l1, l2, h4, h5, rfl⟩ := seq_ok h3
    obtain ⟨rfl, rfl, rfl, -⟩ := d_ok rfl h4
    obtain ⟨m, v, v', a1, l1, l2, h6, h7, rfl⟩ := seq_ok h5
    obtain ⟨rfl, rfl, rfl, -⟩ := d_ok rfl h6
    obtain ⟨m, v, v', a1, l1, l2, h8, h9, rfl⟩ := seq_ok h7
    obtain ⟨rfl, rfl, rfl, -⟩ := nested_ok rfl h8
    obtain ⟨rfl, rfl, rfl, -⟩ := d_ok rfl h9
    exact ⟨fun x hx => by simpa using h2 x hx, by simp only; omega, .inl (by simp only; omega)⟩

/-- The attributes in front of an item. -/
theorem attributes_end (ht : EofLast toks) (k : Nat) : ∀ {a pt q a2 l} {ws : List (List V)}, ValidPt toks pt → pt.sub = none →
    P.zeroOrMore (eval toks (n + 2) .attribute) k a pt = ⟨.ok q ws, a2, l⟩ →
    a2 = a ∧ ValidPt toks q ∧ q.sub = none ∧ pt.off ≤ q.off ∧ ∃ p e lf, eval toks (n + 2) .attribute a q = ⟨.fail p e, a, lf⟩ ∧
      ∀ x ∈ l, x.1.off < q.off ∨ x ∈ (p, e) :: lf := by
  induction k with
  | zero => intro a pt q a2 l ws _ _ h; cases h
  | succ k ih =>
    intro a pt q a2 l ws hv hs h
    unfold P.zeroOrMore at h
    have hr := evalG_run ht (eval_consumes ht (n + 2)) (.r .attribute) (by decide +kernel) a pt hv
    have hr : Run toks (eval toks (n + 2) .attribute a pt) _ _ _ := hr
    rcases h1 : eval toks (n + 2) .attribute a pt with ⟨⟨m, v⟩ | ⟨m, e⟩ | _ | _, a1, l1⟩ <;> rw [h1] at h hr <;> dsimp only at h <;>
      try (cases h; done)
    · obtain ⟨h2, h3, h4⟩ := attribute_ok h1
      have e1 := hr.1
      dsimp only at e1
      subst e1
      rcases h5 : P.zeroOrMore (eval toks (n + 2) .attribute) k a1 m with ⟨⟨m', v'⟩ | ⟨m', e'⟩ | _ | _, a2', l2⟩ <;>
        rw [h5] at h <;> dsimp only at h <;> cases h
      obtain ⟨rfl, h6, h7, h8, p, e, lf, h9, h10⟩ := ih hr.2.2.1 h3 h5
      refine ⟨rfl, h6, h7, by omega, p, e, lf, h9, fun x hx => ?_⟩
      rcases List.mem_append.mp hx with hx | hx
      · have := h2 x hx; exact .inl (by omega)
      · exact h10 x hx
    · have e1 := hr.1
      dsimp only at e1
      subst e1
      cases h
      refine ⟨rfl, hv, hs, Nat.le_refl _, m, e, l1, h1, fun x hx => .inr ?_⟩
      simp at hx ⊢
      exact hx.symm

/-- The failures recovered from while an item is parsed are before the end of the item. -/
theorem itemG_log (hc : Ctx toks N) (ht : EofLast toks) (hN : toks.length = N + 1) (hv : ValidPt toks pt) (hs : pt.sub = none)
    (h : evalG toks (eval toks (n + 3)) itemG .Unambiguous pt = ⟨.ok q w, a2, l⟩) (hq : depth toks q.off = 0) :
    ∀ x ∈ l, x.1.off < q.off := by
  obtain ⟨v, h⟩ := build_ok h
  obtain ⟨⟨m, s⟩, v, v', a1, l1, l2, h1, h2, rfl⟩ := seq_ok h
  obtain ⟨w1, h1, -⟩ := Inv.map_ok h1
  obtain ⟨rfl, h3, h4, h5, p, e, lf, h6, h7⟩ := attributes_end ht _ hv hs h1
  dsimp only at h4
  subst h4
  have hm := h3.off_lt
  dsimp only at hm h5
  have h2 : eval toks (n + 3) .item _ _ = _ := h2
  have h0 : depth toks m = 0 := by
    rcases Int.lt_or_eq_of_le (hc.d0 m (by omega)) with hd | hd
    · obtain ⟨k, hz, -, hk⟩ := hc.trapped (by omega) hd
      have h8 := eval_stay hc.closed (n + 3) .item m k (hz.mono (Nat.zero_le _)) .Unambiguous ⟨m, none⟩ ⟨Nat.le_refl _, hz.le⟩
      rw [h2] at h8
      have h9 := h8.ok _ _ rfl
      have := hz.deep q.off h9.1 h9.2
      omega
    · exact hd.symm
  rcases item_log hc ht hN (by omega) h0 h2 hq with ⟨w', lg, h8, h9⟩ | ⟨h8, s, E, hf, hsq⟩
  · obtain ⟨h10, h11, h12⟩ := containing_ok h8
    have ha := attribute_fail hc (by simp only; omega) h6
    intro x hx
    rcases List.mem_append.mp hx with hx | hx
    · rcases h7 x hx with h13 | h13
      · dsimp only at *; omega
      · dsimp only at *
        rcases ha x h13 with h14 | ⟨h14, t, ht, hk⟩
        · omega
        · rcases h12 with h12 | ⟨t', ht', hk'⟩
          · omega
          · rw [ht] at ht'; cases ht'; exact (hk' hk).elim
    · have := h10 x (h9 x hx)
      simp only at *
      omega
  · have h9 := eval_stay hc.closed (n + 3) .attribute m s hf.zone .Unambiguous ⟨m, none⟩ ⟨Nat.le_refl _, hf.zone.le⟩
    rw [h6] at h9
    intro x hx
    rcases List.mem_append.mp hx with hx | hx
    · rcases h7 x hx with h10 | h10
      · have : m < q.off := by
          have := hf.zone.le
          omega
        dsimp only at h10
        omega
      · rcases List.mem_cons.mp h10 with rfl | h10
        · have := (h9.fail _ _ rfl).2; simp only; omega
        · have := h9.log x h10; omega
    · exact h8 x hx

end

end Verif
