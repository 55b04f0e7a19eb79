import Verif.Props.Whitespace
/-!
# Property theorems: replacing some items leaves the others alone (C66)
-/

namespace Verif.Props
open Verif Verif.Spec

/-- The items between two places in the tokens, none of them in an item, as a text of their own. -/
theorem segment (X : Xid) (hX : Sane X) (cl cl' cp' : Bool) (code : Text) (ts toks : List Token) (eof : Token)
    (h : lex X cl code = .ok ts) (htoks : significant ts = toks ++ [eof]) (hb : Matched toks) (h4 : eof.isEOF = true) (h5 : ∀ u ∈ toks, u.isEOF = false)
    {D : Nat → Prop} {i j : Nat} {items : List V} (hi : depth (toks ++ [eof]) i = 0) (hj : depth (toks ++ [eof]) j = 0)
    (hrun : Runs (toks ++ [eof]) D i j items) (hjl : j ≤ toks.length) {tb tm ta : List Token} (hts : ts = tb ++ (tm ++ ta))
    (htb : (significant tb).length = i) (htm : (significant tm).length = j - i) (hta : ta ≠ [])
    (hper : ∀ u, tm.getLast? = some u → u.kind? ≠ some .Period) :
    ∃ pre mid post ts' toks' eof' eof'' g, code = pre ++ (mid ++ post) ∧ (∀ t, (tm ++ ta).head? = some t → t.extent.s = blen pre) ∧
      (∀ t, ta.head? = some t → t.extent.s = blen pre + blen mid) ∧ lex X cl' mid = .ok ts' ∧
      ts'.filter (fun t => !isTrivia t) = toks' ++ [eof'] ∧ Matched toks' ∧ parseRustFile X cl' cp' mid = .ok g ∧
      moveds (blen pre) (bareL g.items) = items ∧ (Finished code ts → Finished mid ts') ∧
      ts'.map (·.moved (blen pre)) = tm ++ [eof''] ∧ eof''.isEOF = true := by
  have hs := (lex_spelled hX cl _ _).mp h
  have hij := hrun.le
  -- the text
  rw [hts] at hs
  obtain ⟨y, S, hyS⟩ : ∃ y S, tm ++ ta = y :: S := List.exists_cons_of_ne_nil (by simp [hta])
  have hs' := hs
  rw [hyS] at hs'
  obtain ⟨pre, rest, rfl, h6, h7⟩ := spelled_from hX hs'
  rw [← hyS, Nat.zero_add] at h6
  rw [Nat.zero_add] at h7
  obtain ⟨mid, post, rfl, h8, h9⟩ := spelled_split hX h6 hta hper
  obtain ⟨ts', h10⟩ := spelled_somewhere h9 0
  have h11 := spelled_unique hX h9 (by simpa using spelled_moved h10 (blen pre))
  generalize hee : Token.plain .EndOfFile ⟨blen pre + blen mid, blen pre + blen mid⟩ = ee at h11
  have hEE : ee.isEOF = true := by rw [← hee]; rfl
  have hEs : significant [ee] = [ee] := by rw [← hee]; rfl
  -- the tokens
  have e1 : significant tb ++ (significant tm ++ significant ta) = toks ++ [eof] := by
    rw [← htoks, hts, significant_eq, significant_eq, significant_eq, significant_eq, List.filter_append, List.filter_append]
  obtain ⟨R, hR, hRe⟩ : ∃ R, significant ta = R ++ [eof] ∧ toks = significant tb ++ significant tm ++ R := by
    rw [← List.append_assoc] at e1
    rcases List.append_eq_append_iff.mp e1 with ⟨a', h12, h13⟩ | ⟨a', h12, h13⟩
    · exact ⟨a', h13, h12⟩
    · have := congrArg List.length h12
      rw [List.length_append, List.length_append, htb, htm] at this
      have h14 : a' = [] := List.eq_nil_of_length_eq_zero (by omega)
      subst h14
      exact ⟨[], by simpa using h13.symm, by simpa using h12.symm⟩
  have hlen : (significant tb ++ significant tm).length = j := by rw [List.length_append, htb, htm]; omega
  have hbQ : Matched (significant tm) := Matched.between (P := significant tb) (R := R) (t := eof) hb hRe (by rw [htb]; exact hi) (by rw [hlen]; exact hj)
  have h12 : parseTokens (significant tm ++ [ee]) cp' = .ok items :=
    Runs.parseTokens (P := significant tb) (R := R) h4 hEE h5 hRe (by rw [htb, hlen]; exact hrun)
  have e2 : (significant ts').map (·.moved (blen pre)) = significant tm ++ [ee] := by
    have e3 : (fun t => !isTrivia t) = ((fun t => !isTrivia t) ∘ fun t => Token.moved (blen pre) t) := by
      funext t
      simp [isTrivia_moved]
    rw [significant_eq ts', e3, ← List.filter_map, h11, List.filter_append, ← significant_eq, ← significant_eq, hEs]
  rw [← e2, Move.parseTokens_moved] at h12
  obtain ⟨toks', eof', h14, h15⟩ : ∃ toks' eof', significant ts' = toks' ++ [eof'] ∧ toks'.map (·.moved (blen pre)) = significant tm := by
    obtain ⟨a1, a2, h16, h17, h18⟩ := List.map_eq_append_iff.mp e2
    obtain ⟨x', a3, rfl, h19, h20⟩ := List.map_eq_cons_iff.mp h18
    rw [List.map_eq_nil_iff.mp h20] at h16
    exact ⟨a1, x', h16, h17⟩
  have h16 : Matched toks' := by
    rw [← h15] at hbQ
    refine hbQ.sameKinds ?_
    clear h14 h15 hbQ
    induction toks' with
    | nil => exact .nil
    | cons t ts ih => exact .cons (by cases t <;> simp [SameKind, Token.moved, Number.moved]) ih
  have h17 : ∀ t, (tm ++ ta).head? = some t → t.extent.s = blen pre := by
    intro t ht
    rw [hyS] at ht
    cases ht
    exact h7
  have h18 : ∀ t, ta.head? = some t → t.extent.s = blen pre + blen mid := by
    intro t ht
    obtain ⟨t', h19, h20⟩ := spelled_start hX h8
    rw [ht] at h19; cases h19
    exact h20
  rcases file_outcome X cl' cp' mid with ⟨d, hd, -⟩ | ⟨us, hl, h13⟩
  · rw [(lex_spelled hX cl' _ _).mpr h10] at hd; cases hd
  · rw [(lex_spelled hX cl' _ _).mpr h10] at hl; cases hl
    rcases h13 with ⟨loc, errs, h13, -⟩ | ⟨g, h13, hr⟩
    · rw [h13] at h12; cases h12
    · rw [h13] at h12
      simp only [ParseResult.moved, ParseResult.ok.injEq] at h12
      refine ⟨pre, mid, post, ts', toks', eof', ee, g, rfl, h17, h18, (lex_spelled hX cl' _ _).mpr h10, by rw [← significant_eq]; exact h14, h16, hr, h12,
        fun hf => hf.part hX h10 ?_, h11, hEE⟩
      intro t ht
      have h19 : t.moved (blen pre) ∈ tm ++ [ee] := by
        rw [← h11]
        exact List.mem_map.mpr ⟨t, ht, rfl⟩
      rcases List.mem_append.mp h19 with h19 | h19
      · left; rw [hts]; simp [h19]
      · right
        rw [Move.MT.eof (d := blen pre) (t' := t.moved (blen pre)) rfl, List.mem_singleton.mp h19]
        exact hEE

mutual
theorem moved_zero : ∀ v : V, moved 0 v = v
  | .ext e => rfl
  | .bool _ => rfl
  | .list vs => by simp [moved, moveds_zero vs]
  | .enm _ vs => by simp [moved, moveds_zero vs]
  | .node k e ws vs => by
    have : ∀ ws : List Ws, ws.map (·.moved 0) = ws := fun ws => by
      have : (fun w : Ws => w.moved 0) = id := by funext w; cases w <;> rfl
      rw [this, List.map_id]
    simp [moved, moveds_zero vs, Extent.moved_zero, this]
theorem moveds_zero : ∀ vs : List V, moveds 0 vs = vs
  | [] => rfl
  | v :: vs => by simp [moveds, moved_zero v, moveds_zero vs]
end

/-- The items of an accepted text, one after the other. -/
theorem accepted_runs {X : Xid} {cl cp : Bool} {code : Text} {ts toks : List Token} {eof : Token} {f : File}
    (h : lex X cl code = .ok ts) (htoks : significant ts = toks ++ [eof]) (hb : Matched toks) (hok : parseRustFile X cl cp code = .ok f) :
    eof.isEOF = true ∧ (∀ u ∈ toks, u.isEOF = false) ∧
      Runs (toks ++ [eof]) (fun n => depth (toks ++ [eof]) n = 0) 0 toks.length (bareL f.items) := by
  obtain ⟨hp, he⟩ : parseTokens (toks ++ [eof]) cp = .ok (bareL f.items) ∧ EofLast (toks ++ [eof]) := by
    rcases file_outcome X cl cp code with ⟨d, hd, -⟩ | ⟨us, hl, ⟨loc, errs, -, hr⟩ | ⟨g, hp, hr⟩⟩
    · rw [h] at hd; cases hd
    · rw [hok] at hr; cases hr
    · rw [h] at hl; cases hl
      rw [hok] at hr; cases hr
      rw [htoks] at hp
      refine ⟨hp, ?_⟩
      have h1 : extractWhitespace X cl code = .ok (partitionTokens ts).1 (partitionTokens ts).2 := by simp [extractWhitespace, h]
      have := Src.of_extract h1
      rw [partitionTokens_snd] at this
      exact htoks ▸ this.eof
  obtain ⟨i, e, h3, h4, h5⟩ := he
  obtain ⟨rfl, h6⟩ := List.append_inj' h3 rfl
  cases h6
  exact ⟨h4, h5, parseTokens_excerpt hb h4 h5 hp⟩

/-- The last of some tokens is not a period, if the last of them that matters ends an item. -/
theorem last_not_period {tm : List Token} (h : ∀ u, (significant tm).getLast? = some u → ∃ k ∈ itemLast, u.kind? = some k) :
    ∀ u, tm.getLast? = some u → u.kind? ≠ some .Period := by
  intro u hu hk
  obtain ⟨l, rfl⟩ := List.getLast?_eq_some_iff.mp hu
  have h1 : significant (l ++ [u]) = significant l ++ [u] := by
    rw [significant_eq, significant_eq, List.filter_append, List.filter_cons, if_pos (by simp [isTrivia, hk])]
    rfl
  obtain ⟨k, h2, h3⟩ := h u (by rw [h1]; simp)
  rw [hk] at h3
  cases h3
  revert h2
  decide

/-- Some items of a program can be replaced by those of another one: put a program whose brackets match and that leaves nothing open, on lines of its own, in the place of the
text of these items.  The items before stay as they are, with all their whitespace and comments; those after are moved; in between are the items of the
new text. -/
theorem C66_replace (X : Xid) (hX : Sane X) (cl cp cp₁ cp' : Bool) (code : Text) (ts toks : List Token) (eof : Token) (f : File)
    (h : lex X cl code = .ok ts) (hf : Finished code ts) (htoks : ts.filter (fun t => !isTrivia t) = toks ++ [eof]) (hb : Matched toks)
    (hok : parseRustFile X cl cp code = .ok f) (before items after : List V) (hitems : f.items = before ++ items ++ after)
    (k₁ k₂ : K) (e₁ e₂ : Extent) (ws₁ ws₂ : List Ws) (vs₁ vs₂ : List V)
    (hfirst : items.head? = some (.node k₁ e₁ ws₁ vs₁)) (hlast : items.getLast? = some (.node k₂ e₂ ws₂ vs₂))
    (new : Text) (ts₁ toks₁ : List Token) (eof₁ : Token) (g : File)
    (h₁ : lex X cl new = .ok ts₁) (hf₁ : Finished new ts₁) (htoks₁ : ts₁.filter (fun t => !isTrivia t) = toks₁ ++ [eof₁]) (hb₁ : Matched toks₁)
    (hok₁ : parseRustFile X cl cp₁ new = .ok g) :
    ∃ pre old post f' rest, code = pre ++ (old ++ post) ∧ blen pre = e₁.s ∧ blen pre + blen old = e₂.e ∧
      parseRustFile X cl cp' (pre ++ '\n' :: (new ++ '\n' :: post)) = .ok f' ∧ moveds e₂.e rest = after ∧
      f'.items = before ++ (moveds (blen pre + 1) g.items ++ moveds (blen pre + 1 + (blen new + 1)) rest) := by
  have htoks0 := htoks
  rw [← significant_eq] at htoks
  obtain ⟨hE, hnE, hrun⟩ := accepted_runs h htoks hb hok
  obtain ⟨ts0, hl0, mf⟩ := made_of_ok hX hok
  rw [h] at hl0; cases hl0
  have hrun0 := hrun
  rw [hitems, bareL_append, bareL_append, List.append_assoc] at hrun
  obtain ⟨a, ha0, hr1, hr2⟩ := hrun.split rfl rfl
  obtain ⟨b, hb0, hr2, hr3⟩ := hr2.split rfl ha0
  have hab := hr2.le
  have hbl := hr3.le
  -- the first and the last token of the items
  obtain ⟨x, hx, hxs⟩ : ∃ x, (toks ++ [eof])[a]? = some x ∧ e₁.s = x.extent.s := by
    cases items with
    | nil => cases hfirst
    | cons v vs =>
      simp at hfirst
      subst hfirst
      obtain ⟨k, e, ws, fs, t, h7, h8, h9⟩ := hr2.first (v := (V.node k₁ e₁ ws₁ vs₁).bare) (vs := bareL vs)
      simp [V.bare] at h7
      exact ⟨t, h8, by rw [h7.2.1]; exact h9⟩
  obtain ⟨m, u, k, rfl, hu, hue, huk, hum⟩ : ∃ m u k, b = m + 1 ∧ (toks ++ [eof])[m]? = some u ∧ e₂.e = u.extent.e ∧ u.kind? = some k ∧
      k ∈ itemLast := by
    obtain ⟨l, rfl⟩ := List.getLast?_eq_some_iff.mp hlast
    obtain ⟨k, e, ws, fs, m, t, k', h7, h8, h9, h10, h11, h12⟩ := hr2.last (v := (V.node k₂ e₂ ws₂ vs₂).bare)
      (by rw [bareL_append]; simp [bareL])
    simp [V.bare] at h7
    exact ⟨m, t, k', h8, h9, by rw [h7.2.1]; exact h10, h11, h12⟩
  have ham : a ≤ m := by
    cases items with
    | nil => cases hfirst
    | cons v vs =>
      cases hr2 with
      | cons _ h7 _ _ h8 => have := h8.le; omega
  rw [List.getElem?_append_left (by omega)] at hu hx
  -- the last tokens of the parts
  have lasts : ∀ {i j : Nat} {vs : List V}, Runs (toks ++ [eof]) (fun n => depth (toks ++ [eof]) n = 0) i j vs → j ≤ toks.length →
      ∀ t, ((toks.take j).drop i).getLast? = some t → ∃ k ∈ itemLast, t.kind? = some k := by
    intro i j vs hr hj t ht
    cases hv : vs.getLast? with
    | none =>
      rw [List.getLast?_eq_none_iff.mp hv] at hr
      cases hr
      rw [List.drop_eq_nil_of_le (by rw [List.length_take]; omega)] at ht
      cases ht
    | some v =>
      obtain ⟨k, e, ws, fs, m, t', k', -, rfl, h9, -, h11, h12⟩ := hr.last hv
      rw [List.getElem?_append_left (by omega)] at h9
      have h13 : ((toks.take (m + 1)).drop i).getLast? = (toks.take (m + 1)).getLast? := by
        rw [List.getLast?_drop, if_neg]
        rw [List.length_take]
        intro h14
        rw [List.drop_eq_nil_of_le (by rw [List.length_take]; omega)] at ht
        cases ht
      have h14 : (toks.take (m + 1)).getLast? = some t' := by
        rw [List.take_add_one, h9]; simp
      rw [h13, h14] at ht
      cases ht
      exact ⟨k', h12, h11⟩
  -- the tokens in parts
  have hsp : ts.filter (fun t => !isTrivia t) = toks.take a ++ ((toks.take (m + 1)).drop a ++ (toks.drop (m + 1) ++ [eof])) := by
    rw [htoks0]
    have e1 : toks.take (m + 1) = toks.take a ++ (toks.take (m + 1)).drop a := by
      have := (List.take_append_drop a (toks.take (m + 1))).symm
      rw [List.take_take, Nat.min_eq_left (by omega)] at this
      exact this
    rw [← List.append_assoc, ← e1, ← List.append_assoc, List.take_append_drop]
  have hne : (toks.take (m + 1)).drop a ≠ [] := by
    intro h0
    have := congrArg List.length h0
    have hm := (List.getElem?_eq_some_iff.mp hu).1
    rw [List.length_drop, List.length_take] at this
    simp at this; omega
  obtain ⟨tb, tm, ta, hts, hsb, hsm, hsa, hhead, hlst⟩ := filter_cut hsp hne
  have hx' : tm.head? = some x := by
    rw [hhead, List.head?_drop, List.getElem?_take_of_lt (by omega)]; exact hx
  have hu' : tm.getLast? = some u := by
    rw [hlst, List.getLast?_drop, if_neg (by
      have hm := (List.getElem?_eq_some_iff.mp hu).1
      rw [List.length_take]; omega), List.take_add_one, hu]; simp
  have hspelled := mf.spelled
  obtain ⟨init, hin⟩ := spelled_eof hspelled
  have hta : ta ≠ [] := by
    rintro rfl
    simp at hsa
  obtain ⟨ta', et, rfl⟩ : ∃ ta' et, ta = ta' ++ [et] := ⟨_, _, (List.dropLast_concat_getLast hta).symm⟩
  have het : et = .plain .EndOfFile ⟨0 + blen code, 0 + blen code⟩ := by
    rw [hts, ← List.append_assoc, ← List.append_assoc] at hin
    obtain ⟨-, hin⟩ := List.append_inj' hin rfl
    simpa using hin
  have hsa' : ta'.filter (fun t => !isTrivia t) = toks.drop (m + 1) := by
    rw [List.filter_append, het] at hsa
    exact (List.append_inj' hsa rfl).1
  have hapart := items_apart hok
  rw [hitems, List.append_assoc] at hapart
  -- what is before
  obtain ⟨pre₀, pre, restp, tsp, toksp, eofp, eep, fp, p1, p2, p3, p4, p5, p6, p7, p8, p9, p10, p11⟩ :=
    segment X hX cl cl cp' code ts toks eof h htoks hb hE hnE (i := 0) (j := a) rfl ha0 hr1 (by omega) (tb := []) (tm := tb) (ta := tm ++ (ta' ++ [et]))
      (by rw [hts]; rfl) rfl (by rw [significant_eq, hsb, List.length_take]; omega) (by simp)
      (last_not_period (by
        rw [significant_eq, hsb]
        exact fun t ht => lasts hr1 (by omega) t (by simpa using ht)))
  obtain ⟨pt, p12, p13⟩ := spelled_start hX hspelled
  have p0 : pre₀ = [] := by
    have := p2 pt (by rw [hts] at p12; exact p12)
    exact blen_eq_zero.mp (by omega)
  subst p0
  have hpre : blen pre = e₁.s := by
    have := p3 x (by cases tm with
      | nil => cases hx'
      | cons y tm => exact hx')
    simp at this
    omega
  -- what is after
  obtain ⟨pre₂, post, restq, tsq, toksq, eofq, eeq, fq, q1, q2, q3, q4, q5, q6, q7, q8, q9, q10, q11⟩ :=
    segment X hX cl cl cp' code ts toks eof h htoks hb hE hnE (i := m + 1) (j := toks.length) hb0 (by
      have := (Matched.weights hb).1
      rw [depth_weights]; exact this) hr3 (by omega) (tb := tb ++ tm) (tm := ta') (ta := [et])
      (by rw [hts]; simp) (by rw [significant_eq, List.filter_append, hsb, hsm, List.length_append, List.length_drop, List.length_take, List.length_take]; omega)
      (by rw [significant_eq, hsa', List.length_drop]) (by simp)
      (last_not_period (by
        rw [significant_eq, hsa']
        exact fun t ht => lasts hr3 (by omega) t (by rw [List.take_length]; exact ht)))
  have hpre₂ : blen pre₂ = e₂.e := by
    obtain ⟨y, S, hyS⟩ : ∃ y S, ta' ++ [et] = y :: S := List.exists_cons_of_ne_nil (by simp)
    obtain ⟨tm', rfl⟩ := List.getLast?_eq_some_iff.mp hu'
    have := spelled_next hX (A := tb ++ tm') (t := u) (u := y) (B := S) (by rw [hts, hyS] at hspelled; simpa using hspelled)
    have := q2 y (by rw [hyS]; rfl)
    omega
  have hrestq : restq = [] := by
    have := q3 et rfl
    rw [het] at this
    rw [q1] at this
    simp [Token.extent] at this
    exact blen_eq_zero.mp (by omega)
  subst hrestq
  -- the trees of these
  have hfm : V.node k₁ e₁ ws₁ vs₁ ∈ items := List.mem_of_mem_head? hfirst
  have hlm : V.node k₂ e₂ ws₂ vs₂ ∈ items := List.mem_of_getLast? hlast
  have hnodes := items_are_nodes hok
  obtain ⟨tsp', hlp, mp⟩ := made_of_ok hX p7
  rw [p4] at hlp; cases hlp
  obtain ⟨tsq', hlq, mq⟩ := made_of_ok hX q7
  rw [q4] at hlq; cases hlq
  have itemsP : fp.items = before := by
    obtain ⟨v', hv'⟩ : ∃ v', (items ++ after).getLast? = some v' := by
      rw [List.getLast?_append]
      cases after.getLast? with
      | none => exact ⟨_, hlast⟩
      | some v' => exact ⟨v', rfl⟩
    obtain ⟨k', e', ws', vs', rfl⟩ := hnodes v' (by rw [hitems, List.append_assoc]; exact List.mem_append_right _ (List.mem_of_getLast? hv'))
    have hf' : (items ++ after).head? = some (.node k₁ e₁ ws₁ vs₁) := by rw [List.head?_append, hfirst]; rfl
    have hbt := part_between X hX cl cp code ts toks eof f h htoks0 hb hok before (items ++ after) [] (by rw [hitems]; simp) k₁ k' e₁ e' ws₁ ws' vs₁ vs'
      hf' hv'
    have := (segment_whitespace hX mf mp (before := []) (items := before) (after := items ++ after) (by rw [hitems]; simp) (tb := []) (o := 0)
      (by rw [hts]; rfl) p10 p11 p8 (fun t ht => by have := p2 t ht; simpa using this) (fun t ht => by have := p3 t ht; simpa using this) (by simp)
      (fun k e ws fs hx => by simp [bareL] at hx) (hbt.mono (by omega) (Nat.le_refl _))).1
    rw [moveds_zero] at this
    exact this
  have itemsQ : moveds e₂.e fq.items = after := by
    obtain ⟨v', hv'⟩ : ∃ v', (before ++ items).head? = some v' := by
      rw [List.head?_append]
      cases before.head? with
      | none => exact ⟨_, hfirst⟩
      | some v' => exact ⟨v', rfl⟩
    obtain ⟨k', e', ws', vs', rfl⟩ := hnodes v' (by rw [hitems]; exact List.mem_append_left _ (List.mem_of_mem_head? hv'))
    have hl' : (before ++ items).getLast? = some (.node k₂ e₂ ws₂ vs₂) := by rw [List.getLast?_append, hlast]; rfl
    have hbt := part_between X hX cl cp code ts toks eof f h htoks0 hb hok [] (before ++ items) after (by rw [hitems]; simp) k' k₂ e' e₂ ws' ws₂ vs' vs₂
      hv' hl'
    have := (segment_whitespace hX mf mq (before := before ++ items) (items := after) (after := []) (by rw [hitems]; simp) (tb := tb ++ tm) (tm := ta') (o := blen pre₂)
      (by rw [hts]; simp) q10 q11 q8 q2 q3 (by simp) (hbt.mono (Nat.zero_le _) (by omega)) (hi := 0)
      (fun k e ws fs hx => by simp [bareL] at hx)).1
    rw [← hpre₂]
    exact this
  -- put together
  have j1 := C61_join X hX cl cp₁ cp' new post ts₁ toks₁ eof₁ g h₁ hf₁ htoks₁ hb₁ hok₁
  rw [q7] at j1
  generalize hy1 : parseRustFile X cl cp' (new ++ '\n' :: post) = y1 at j1
  cases y1 with
  | ok g1 =>
    have i1 := (C65_join X hX cl cp₁ cp' new post ts₁ toks₁ eof₁ g fq g1 h₁ hf₁ htoks₁ hb₁ hok₁ q7 hy1).1
    have j2 := C61_join X hX cl cp' cp' pre (new ++ '\n' :: post) tsp toksp eofp fp p4 (p9 hf) p5 p6 p7
    rw [hy1] at j2
    generalize hy2 : parseRustFile X cl cp' (pre ++ '\n' :: (new ++ '\n' :: post)) = y2 at j2
    cases y2 with
    | ok f' =>
      have i2 := (C65_join X hX cl cp' cp' pre (new ++ '\n' :: post) tsp toksp eofp fp g1 f' p4 (p9 hf) p5 p6 p7 hy1 hy2).1
      obtain ⟨old, hold⟩ : ∃ old, pre₂ = pre ++ old := by
        have e1 : pre ++ restp = pre₂ ++ post := by
          rw [List.append_nil] at q1
          rw [← q1]; exact p1.symm
        rcases List.append_eq_append_iff.mp e1 with ⟨a', h12, -⟩ | ⟨a', h12, -⟩
        · exact ⟨a', h12⟩
        · have hle : e₁.s ≤ e₂.e := by
            obtain ⟨text, -, h13, -⟩ := C62_excerpt X hX cl cl cp cp code ts toks eof f h htoks0 hb hok before items after hitems k₁ k₂ e₁ e₂ ws₁ ws₂ vs₁ vs₂
              hfirst hlast
            have := sliceText_blen h13
            simp at this
            omega
          have := congrArg blen h12
          rw [blen_append] at this
          have : a' = [] := blen_eq_zero.mp (by omega)
          subst this
          exact ⟨[], by simpa using h12.symm⟩
      refine ⟨pre, old, post, f', fq.items, ?_, hpre, ?_, hy2, itemsQ, ?_⟩
      · rw [q1, hold]; simp
      · rw [← hpre₂, hold, blen_append]
      · rw [i2, i1, itemsP, Move.moveds_append, moveds_moveds, Nat.add_comm (blen new + 1)]
    | lexErr => exact j2.elim
    | parseErr => exact j2.elim
    | panic => exact j2.elim
    | hang => exact j2.elim
  | lexErr => exact j1.elim
  | parseErr => exact j1.elim
  | panic => exact j1.elim
  | hang => exact j1.elim

/-- The hypotheses are met: a program of three items with comments, and a new text of two items with comments. -/
example : ∃ ts toks eof f v₁ v₂ v₃ ts₁ toks₁ eof₁ g, lex asciiXid true c!"// a\nuse /* b */ c; fn f() { /* d */ } /* e */ struct S ;" = .ok ts ∧
    Finished c!"// a\nuse /* b */ c; fn f() { /* d */ } /* e */ struct S ;" ts ∧
    ts.filter (fun t => !isTrivia t) = toks ++ [eof] ∧ Matched toks ∧
    parseRustFile asciiXid true true c!"// a\nuse /* b */ c; fn f() { /* d */ } /* e */ struct S ;" = .ok f ∧ f.items = [v₁, v₂, v₃] ∧
    lex asciiXid true c!"enum E { A } // x\nuse y;" = .ok ts₁ ∧ Finished c!"enum E { A } // x\nuse y;" ts₁ ∧
    ts₁.filter (fun t => !isTrivia t) = toks₁ ++ [eof₁] ∧ Matched toks₁ ∧
    parseRustFile asciiXid true true c!"enum E { A } // x\nuse y;" = .ok g ∧ g.items.length = 2 := by
  obtain ⟨ts, toks, eof, rest, h1, h2, h⟩ := of_cutAt (n := 12)
    (r := lex asciiXid true c!"// a\nuse /* b */ c; fn f() { /* d */ } /* e */ struct S ;")
    (p := fun ts toks _ rest => rest.isEmpty && closes [] toks &&
      finished c!"// a\nuse /* b */ c; fn f() { /* d */ } /* e */ struct S ;" ts) (by decide +kernel)
  simp only [Bool.and_eq_true, List.isEmpty_iff] at h
  obtain ⟨⟨rfl, h5⟩, h7⟩ := h
  obtain ⟨f, h8, h9⟩ := FileResult.of_itemCount (n := 3)
    (r := parseRustFile asciiXid true true c!"// a\nuse /* b */ c; fn f() { /* d */ } /* e */ struct S ;") (by decide +kernel)
  obtain ⟨ts₁, toks₁, eof₁, rest₁, g1, g2, h'⟩ := of_cutAt (n := 8) (r := lex asciiXid true c!"enum E { A } // x\nuse y;")
    (p := fun ts toks _ rest => rest.isEmpty && closes [] toks && finished c!"enum E { A } // x\nuse y;" ts) (by decide +kernel)
  simp only [Bool.and_eq_true, List.isEmpty_iff] at h'
  obtain ⟨⟨rfl, g5⟩, g7⟩ := h'
  obtain ⟨g, g8, g9⟩ := FileResult.of_itemCount (n := 2) (r := parseRustFile asciiXid true true c!"enum E { A } // x\nuse y;") (by decide +kernel)
  match hf : f.items, h9 with
  | [v₁, v₂, v₃], _ => exact ⟨ts, toks, eof, f, v₁, v₂, v₃, ts₁, toks₁, eof₁, g, h1, Finished.of_finished h7, h2, Matched.of_closes h5, h8, hf,
      g1, Finished.of_finished g7, g2, Matched.of_closes g5, g8, g9⟩

end Verif.Props
