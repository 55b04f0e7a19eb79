import Verif.Proofs.SyntaxFn
/-!
# How grammar expressions are written
-/

namespace Verif
open Verif.Spec

/-! ## What `G.forms` knows -/

section
variable {d : NT → List Frm} {fs : List Frm}

theorem forms_tailed {k : TailK} {sp a : G} (h : (G.tailed k sp a).forms d = some fs) :
    k = .values ∧ ∃ t m, sp = .tok t ∧ a.forms d = some [[.f 0 m]] ∧ fs = [[.f 0 (.sep (!a.early) t m)]] := by
  cases k <;> cases sp <;> simp only [G.forms, reduceCtorEq, bind, Option.bind_eq_some_iff] at h
  obtain ⟨xs, hx, h⟩ := h
  split at h <;> cases h
  exact ⟨rfl, _, _, rfl, hx, rfl⟩

theorem forms_tailed1 {sp a : G} (h : (G.tailed1Values sp a).forms d = some fs) :
    ∃ t m, sp = .tok t ∧ a.forms d = some [[.f 0 m]] ∧ fs = [[.f 0 (.sep1 (!a.early) t m)]] := by
  cases sp <;> simp only [G.forms, reduceCtorEq, bind, Option.bind_eq_some_iff] at h
  obtain ⟨xs, hx, h⟩ := h
  split at h <;> cases h
  exact ⟨_, _, rfl, hx, rfl⟩

theorem forms_resume {sp a : G} (h : (G.resume sp a).forms d = some fs) :
    ∃ t m, sp = .tok t ∧ a.forms d = some [[.f 0 m]] ∧ fs = [[.f 0 (.more (!a.early) t m)]] := by
  cases sp <;> simp only [G.forms, reduceCtorEq, bind, Option.bind_eq_some_iff] at h
  obtain ⟨xs, hx, h⟩ := h
  split at h <;> cases h
  exact ⟨_, _, rfl, hx, rfl⟩

theorem forms_impl {k : TailK} {i : Impl} {sp a : G} (h : (G.implTailed k i sp a).forms d = some fs) :
    a.forms d = some (one .plain) ∧
    ((k = .block ∧ i = .statement ∧ sp = .tok .Semicolon ∧ a.early = true ∧ fs = [[.body 0 1]]) ∨
     (k = .values ∧ i = .matchArm ∧ sp = .tok .Comma ∧ fs = [[.f 0 .arms]])) := by
  unfold G.forms at h
  split at h <;> rename_i heq <;> cases heq <;> simp only [bind, Option.bind_eq_some_iff, reduceCtorEq] at h
  · obtain ⟨xs, hx, h⟩ := h
    split at h <;> cases h
    next hc => rw [hc.1] at hx; exact ⟨hx, .inl ⟨rfl, rfl, rfl, hc.2, rfl⟩⟩
  · obtain ⟨xs, hx, h⟩ := h
    split at h <;> cases h
    next hc => rw [hc] at hx; exact ⟨hx, .inr ⟨rfl, rfl, rfl, rfl⟩⟩

theorem forms_ext {a : G} (h : (G.ext a).forms d = some fs) :
    (∃ k, a = .tok k ∧ fs = [[.f 0 (.tok [k])]]) ∨ (∃ b, a = .peek b ∧ fs = [[.f 0 .here]]) := by
  cases a <;> simp [G.forms] at h
  · exact .inl ⟨_, rfl, h.symm⟩
  · exact .inr ⟨_, rfl, h.symm⟩

theorem forms_drop {a : G} (h : (G.drop a).forms d = some fs) :
    (∃ k, a = .tok k ∧ fs = [[.t k]]) ∨ (∃ k, a = .opt (.tok k) ∧ fs = [[.maybe k]]) := by
  unfold G.forms at h
  split at h <;> rename_i heq <;> cases heq <;> cases h
  · exact .inl ⟨_, rfl, rfl⟩
  · exact .inr ⟨_, rfl, rfl⟩

theorem forms_map {f : Fn} {a : G} (h : (G.map f a).forms d = some fs) :
    (∃ n m m', f = .externAbi ∧ a = .opt (.r n) ∧ d n = [[.f 0 m, .f 1 m']] ∧
      fs = [[.f 0 .none, .f 1 .none], [.f 0 (.some m), .f 1 m']]) ∨
    (∃ xs, a.forms d = some xs ∧ f.forms xs = some fs) := by
  unfold G.forms at h
  split at h <;> rename_i heq <;> cases heq
  · split at h
    · next hd =>
      split at h <;> cases h
      exact .inl ⟨_, _, _, rfl, rfl, hd, rfl⟩
    · cases h
  · simp only [bind, Option.bind_eq_some_iff] at h
    exact .inr h

end

/-! ## Statements and arms that need no separator -/

theorem statement_ends (x : V) (h : Impl.app .statement [x] = true) : selfTerminated x = true := by
  unfold Impl.app at h
  split at h <;> rename_i he <;> try (cases h; done)
  · cases he
    next e =>
    unfold mayTerminateAttributed at h
    split at h
    · next v =>
      unfold mayTerminate at h
      split at h
      · next t vs =>
        split at h
        all_goals first | (simp [selfTerminated]; done) | skip
        · split at h
          · rfl
          · cases h
        · cases h
      · cases h
    · cases h
  · cases he; rfl
  · contradiction

theorem arm_ends (x : V) (h : Impl.app .matchArm [x] = true) : armTerminated x = true := by
  unfold Impl.app at h
  split at h <;> rename_i he <;> try (cases h; done)
  · contradiction
  · contradiction
  · cases he; rfl

/-- The statements of a block and its last expression are what is listed. -/
theorem block_out (t : P.Tailed (List V)) : ∃ ss es, TailK.out .block t = [.list ss, .list es] ∧ es.length ≤ 1 ∧
    ss ++ es.map (fun x => .enm .Statement_Expression [x]) = t.values.flatten := by
  unfold TailK.out
  dsimp only
  split
  · next x hx =>
    split
    · exact ⟨_, _, rfl, by simp, by simp⟩
    · refine ⟨_, _, rfl, by simp, ?_⟩
      cases hlast : t.values.flatten.getLast? with
      | none => rw [hlast] at hx; cases hx
      | some y =>
        rw [hlast] at hx
        simp only [Option.bind_some] at hx
        unfold intoExpression at hx
        split at hx <;> cases hx
        obtain ⟨zs, hz⟩ := List.getLast?_eq_some_iff.mp hlast
        rw [hz]; simp
  · exact ⟨_, _, rfl, by simp, by simp⟩

/-! ## Numbers -/

theorem maybeExt_eq (o : Option Extent) : optExt o = maybeExt o := by cases o <;> rfl

theorem number_spells {toks : List Token} (n : Number) : Spells toks (.one (.val .plain) (convertNumber n)) [.number n] := by
  have h := Spells.number (toks := toks) (s := .plain) (n := n) (ws := []) (ws' := [])
  unfold convertNumber
  cases hb : n.base <;> rw [hb] at h <;> simp only [maybeExt_eq] <;> exact h

theorem simple_spells {toks : List Token} {n : Number} {e : Extent} (h : n.intoSimple = some e) : Spells toks (.one .simple (.ext e)) [.number n] := by
  unfold Number.intoSimple at h
  split at h
  · next hb =>
    split at h
    · next hc =>
      cases h
      simp only [Bool.and_eq_true, Option.isNone_iff_eq_none, beq_iff_eq] at hc
      exact .simple hb hc.1.1.1 hc.1.1.2 hc.1.2 hc.2
    · cases h
  · cases h

/-! ## Grammar expressions -/

section
variable {toks : List Token} {Φ : NT → Rel} (hΦ : ∀ nt am p q vs, Φ nt am p q vs → hasS vs nt.sty = true)
  (hW : ∀ nt am p q vs, Φ nt am p q vs → Written toks nt.forms p q vs)

theorem den_tok {k : TK} {am : Amb} {p q : Pt} (h : ∃ w, den toks Φ (.tok k) am p q w) : ∃ e, Path toks p q [.plain k e] := by
  obtain ⟨w, -, e, h, -⟩ := h
  exact ⟨e, h.pathTK⟩

theorem toTy_one {k : TailK} {ss us : List STy} (h : k.sty ss = some us) : ∃ s, ss = [s] := by
  unfold TailK.sty at h
  split at h
  · exact ⟨_, rfl⟩
  · exact ⟨_, rfl⟩
  · exact ⟨_, rfl⟩
  · cases h

theorem Written.union_left {xs ys : List Frm} {p q : Pt} {vs : List V} (h : Written toks xs p q vs) :
    Written toks (union xs ys) p q vs := by
  obtain ⟨x, hx, h⟩ := h
  exact ⟨x, by simp [union, hx], h⟩

theorem Written.union_right {xs ys : List Frm} {p q : Pt} {vs : List V} (h : Written toks ys p q vs) :
    Written toks (union xs ys) p q vs := by
  obtain ⟨x, hx, h⟩ := h
  exact ⟨x, by by_cases hc : x ∈ xs <;> simp [union, hx, hc], h⟩

theorem _root_.Verif.Spec.Spells.loose {loose : Bool} {ends : V → Bool} {k : TK} {vs : List V} {ts : List Token}
    (h : Spells toks (.ended loose ends k vs) ts) : Spells toks (.ended true ends k vs) ts := by
  induction vs generalizing ts with
  | nil => cases h with | endedEnd h => exact .endedEnd (by simp)
  | cons v vs ih =>
    cases h with
    | endedLast h => exact .endedLast h
    | endedSelf h1 h2 h3 => exact .endedSelf h1 h2 (ih h3)
    | endedCons h1 h2 => exact .endedCons h1 (ih h2)

/-- Tokens do not depend on the fields. -/
theorem _root_.Verif.Spec.Spells.change {k : TK} {e e' : Extent} {vs ws : List V} {ts : List Token} (h : Spells toks (.form e [.t k] vs) ts) :
    Spells toks (.form e' [.t k] ws) ts := by
  cases h with
  | t h => cases h; exact .t .done

include hΦ

/-- An element of a list. -/
theorem element {g : G} {k : TailK} {ss us : List STy} {m : Mode} (hs : g.sty NT.sty = some ss) (hk : k.sty ss = some us)
    (ih : ∀ am p q vs, den toks Φ g am p q vs → Written toks [[.f 0 m]] p q vs) (am : Amb) :
    ∀ p q v, den toks Φ g am p q v → ∃ x ts, v = [x] ∧ Path toks p q ts ∧ Spells toks (.one m x) ts := by
  intro p q v h
  obtain ⟨s, rfl⟩ := toTy_one hk
  obtain ⟨x, rfl, -⟩ := hasS_one (den_sty hΦ g _ hs _ _ _ _ h)
  obtain ⟨ts, hp, hx⟩ := (ih _ _ _ _ h).mode
  exact ⟨x, ts, rfl, hp, hx⟩

include hW

theorem paren_forms {am : Amb} {p q : Pt} {vs : List V} {e : Extent} (hd : NT.forms .expression = one .plain)
    (h : den toks Φ parenBody am p q vs) (he : ex toks p q = some e) : Written toks (one .plain) p q (Mk.app .paren e vs) := by
  obtain ⟨m1, v1, w1, ⟨v2, ⟨-, e1, h1, -⟩, rfl⟩, ⟨m2, v3, w3, ⟨t, ht, rfl⟩, ⟨v4, ⟨-, e2, h2, -⟩, rfl⟩, rfl⟩, rfl⟩ := h
  have p1 := h1.pathTK
  have p2 := h2.pathTK
  have hR := element hΦ (g := .r .expression) (k := .paren) (m := .val .plain) (ss := NT.sty .expression) rfl (by rfl)
    (fun _ _ _ _ h => by have := hW _ _ _ _ _ h.2; rw [hd] at this; exact this) .Unambiguous
  have hS : ∀ p q, (∃ w, den toks Φ G.comma .Unambiguous p q w) → ∃ e, Path toks p q [.plain .Comma e] := fun _ _ h => den_tok h
  simp only [List.nil_append, List.append_nil]
  unfold TailK.out
  dsimp only
  split
  · next hc =>
    have hx : ∃ x ts, t.values.flatten = [x] ∧ Path toks m1 m2 ts ∧ Spells toks (.one (.val .plain) x) ts := by
      cases ht with
      | stop => simp at hc
      | last hr hg =>
        have hg : Gap toks true _ m2 := hg
        rw [hg.same]
        obtain ⟨x, ts, rfl, hp, hx⟩ := hR _ _ _ hr
        exact ⟨x, ts, rfl, hp, hx⟩
      | more _ _ ht => have := ht.count; simp at this; omega
    obtain ⟨x, ts, hx, hp, hs⟩ := hx
    rw [hx]
    refine .of_mode (p1.append (hp.append p2)) (.enm (e := e) (form := [.f 0 (.val .plain)]) (by decide +kernel) (.form_one rfl ?_))
    refine .node (form := [.t .LeftParen, .f 0 (.val .plain), .t .RightParen]) (by decide +kernel) ?_
      (((p1.append (hp.append p2)).spans he).extends rfl)
    exact .t (.f (a := ts) rfl hs (.t .done))
  · obtain ⟨ws, ts, hx, hp, hs⟩ := TailR.spells (m := .val .plain) (loose := true) (er := false) hR hS rfl ht
    have hx : t.values.flatten = ws := by simpa using hx
    rw [hx]
    refine .of_mode (p1.append (hp.append p2)) (.enm (e := e) (form := [.f 0 (.val .plain)]) (by decide +kernel) (.form_one rfl ?_))
    refine .node (form := [.t .LeftParen, .f 0 (.sep true .Comma (.val .plain)), .t .RightParen]) (by decide +kernel) ?_
      (((p1.append (hp.append p2)).spans he).extends rfl)
    exact .t (.f (a := ts) rfl (.sep hs) (.t .done))

theorem field_forms {am : Amb} {p q : Pt} {vs : List V} {e : Extent} (hd : NT.forms .ident = one .plain)
    (hd' : NT.forms .expr_value_struct_literal_field_value = [[.t .Colon, .f 0 (.val .plain)]])
    (h : den toks Φ (.map .fieldValue fieldBody) am p q vs) (he : ex toks p p = some e) : Written toks (one .plain) p q [.node .StructLiteralField e [] vs] := by
  obtain ⟨v, ⟨m, v1, w1, ⟨v2, e1, ⟨-, h1⟩, he1, rfl⟩, h2, rfl⟩, rfl⟩ := h
  obtain ⟨x, rfl, hx⟩ := hasS_one (show hasS v2 [.ty (.node .Ident)] = true from hΦ _ _ _ _ _ h1)
  obtain ⟨e', ws, gs, rfl, hg⟩ := hasTy_node hx
  have hg := hasTys_nil (show hasTys gs [] = true from hg)
  subst hg
  have h3 := hW _ _ _ _ _ h1
  rw [hd] at h3
  obtain ⟨ts, hp, hs⟩ := h3.mode
  rcases h2 with ⟨w, ⟨-, h2⟩, rfl⟩ | ⟨-, rfl, rfl⟩
  · obtain ⟨y, rfl, hy⟩ := hasS_one (show hasS w [.ty (.node .AttributedExpression)] = true from hΦ _ _ _ _ _ h2)
    have h4 := hW _ _ _ _ _ h2
    rw [hd'] at h4
    obtain ⟨us, hp', hu⟩ := h4.single
    refine .of_mode (hp.append hp') (.node (form := [.f 0 (.val .plain), .t .Colon, .f 1 (.val .plain)]) (by decide +kernel) ?_
      (Extends.of_empty rfl ((hp.append hp').empty he)))
    refine .f rfl hs ?_
    cases hu e with
    | t hu' =>
      obtain ⟨z, hz, hu'⟩ := hu'.form_one_inv
      simp at hz; subst hz
      exact .t (.form_one rfl hu')
  · refine .of_mode hp (.node (form := [.shorthand 0 1]) (by decide +kernel) ?_ (Extends.of_empty rfl (hp.empty he)))
    obtain ⟨kind, rfl⟩ := hs.ident
    obtain rfl : e1 = e' := (hp.spans he1).one
    have := Spells.shorthand (e := e) (i := 0) (j := 1) (items := []) (vs := Fn.app .fieldValue
      (Mk.span.app e1 [V.node K.Ident e1 ws []] ++ [V.list []])) (b := []) rfl rfl ?_ hs .done
    · simpa using this
    · exact ⟨_, ws, ws, rfl, rfl, rfl, rfl, rfl, rfl⟩

theorem den_forms (g : G) : ∀ ss, g.sty NT.sty = some ss → ∀ fs, g.forms NT.forms = some fs → ∀ a p q vs,
    den toks Φ g a p q vs → Written toks fs p q vs := by
  have hw : ∀ (x : G) ss, x.sty NT.sty = some ss → ∀ a p q vs, den toks Φ x a p q vs → vs.length = x.width := by
    intro x ss hs a p q vs h
    rw [hasS_length (den_sty hΦ x ss hs _ _ _ _ h), G.width, hs]; rfl
  induction g with
  | eps => rintro ss - fs ⟨⟩ a p q vs ⟨-, rfl, rfl⟩; exact .of_single .nil fun _ => .done
  | tok k => rintro ss - fs ⟨⟩ a p q vs ⟨-, e, h, rfl⟩; exact .of_mode h.pathTK (.tok (by simp))
  | simpleNumber => rintro ss - fs ⟨⟩ a p q vs ⟨-, n, e, h, hn, rfl⟩; exact .of_mode h.pathNumber (simple_spells hn)
  | number => rintro ss - fs ⟨⟩ a p q vs ⟨-, n, h, rfl⟩; exact .of_mode h.pathNumber (number_spells n)
  | nested o c =>
    rintro ss - fs ⟨⟩ a p q vs ⟨m, e0, e, -, h, hb, hq, he, rfl⟩
    obtain ⟨ts, hp⟩ := hb.path
    have hs : q.sub = none := by rw [hq]; rfl
    exact .of_single (h.pathTK.append hp) fun _ => .t (.form_one rfl (.text (hp.covers hs he)))
  | r n => rintro ss - fs ⟨⟩ a p q vs ⟨-, h⟩; exact hW _ _ _ _ _ h
  | seq x y ihx ihy =>
    intro ss hs fs hf
    simp only [G.sty, bind, Option.bind_eq_some_iff] at hs
    obtain ⟨s, hs, t, ht, -⟩ := hs
    simp only [G.forms, bind, Option.bind_eq_some_iff] at hf
    obtain ⟨xs, hx, ys, hy, he⟩ := hf
    cases he
    rintro a p q vs ⟨m, v, w, h1, h2, rfl⟩
    obtain ⟨f, hf, ts, hp, h⟩ := ihx _ hs _ hx _ _ _ _ h1
    obtain ⟨f', hf', ts', hp', h'⟩ := ihy _ ht _ hy _ _ _ _ h2
    refine ⟨_, List.mem_flatMap.mpr ⟨f, hf, List.mem_map_of_mem hf'⟩, _, hp.append hp', fun e => ?_⟩
    exact (h e).form_left.form_append ((h' e).form_right (hw _ _ hs _ _ _ _ h1))
  | alt x y ihx ihy =>
    intro ss hs fs hf
    simp only [G.sty, bind, Option.bind_eq_some_iff] at hs
    obtain ⟨s, hs, t, ht, -⟩ := hs
    simp only [G.forms, bind, Option.bind_eq_some_iff] at hf
    obtain ⟨xs, hx, ys, hy, he⟩ := hf
    cases he
    rintro a p q vs (h | h)
    · exact (ihx _ hs _ hx _ _ _ _ h).union_left
    · exact (ihy _ ht _ hy _ _ _ _ h).union_right
  | ifAmbiguous x y ihx ihy =>
    intro ss hs fs hf
    simp only [G.sty, bind, Option.bind_eq_some_iff] at hs
    obtain ⟨s, hs, t, ht, -⟩ := hs
    simp only [G.forms, bind, Option.bind_eq_some_iff] at hf
    obtain ⟨xs, hx, ys, hy, he⟩ := hf
    cases he
    intro a p q vs h
    simp only [den] at h
    split at h
    · exact (ihx _ hs _ hx _ _ _ _ h).union_left
    · exact (ihy _ ht _ hy _ _ _ _ h).union_right
  | opt x ih =>
    intro ss hs fs hf
    simp only [G.sty, bind, Option.bind_eq_some_iff] at hs
    obtain ⟨s, hs, -⟩ := hs
    simp only [G.forms, bind, Option.bind_eq_some_iff] at hf
    obtain ⟨xs, hx, ⟨b, m, c⟩, hy, he⟩ := hf
    split at he
    · next hl =>
      cases he
      rintro a p q vs (⟨v, h, rfl⟩ | ⟨-, rfl, rfl⟩)
      · have hl' := hw _ _ hs _ _ _ _ h
        rw [hl] at hl'
        match v, hl' with
        | [v], _ =>
          obtain ⟨x, y, z, hp, h1, h2, h3⟩ := (ih _ hs _ hx _ _ _ _ h).around hy
          exact .of_mode hp (.present h1 h2 h3)
      · exact .of_mode .nil .absent
    · cases he
  | many x ih =>
    intro ss hs fs hf
    simp only [G.sty, bind, Option.bind_eq_some_iff] at hs
    obtain ⟨s, hs, hk⟩ := hs
    simp only [G.forms, bind, Option.bind_eq_some_iff] at hf
    obtain ⟨xs, hx, ⟨b, m, c⟩, hy, he⟩ := hf
    cases he
    rintro a p q vs ⟨vss, h, rfl⟩
    obtain ⟨ts, hp, hs⟩ := h.spells (pre := b) (m := m) (post := c) fun p q v h => by
      obtain ⟨s, rfl⟩ := toTy_one hk
      obtain ⟨x, rfl, -⟩ := hasS_one (den_sty hΦ _ _ hs _ _ _ _ h)
      obtain ⟨a, b, c, hp, h1, h2, h3⟩ := (ih _ hs _ hx _ _ _ _ h).around hy
      exact ⟨x, a, b, c, rfl, hp, h1, h2, h3⟩
    exact .of_mode hp (.many hs)
  | tailed k sp x ihs ih =>
    intro ss hs fs hf
    simp only [G.sty, bind, Option.bind_eq_some_iff] at hs
    obtain ⟨-, -, s, hs, hk⟩ := hs
    obtain ⟨rfl, t, m, rfl, hx, rfl⟩ := forms_tailed hf
    rintro a p q vs ⟨t', h, rfl⟩
    obtain ⟨ws, ts, hv, hp, hs⟩ := TailR.spells (element hΦ hs hk (ih _ hs _ hx) a) (fun _ _ h => den_tok h) rfl h
    simp only [List.flatten_nil, List.nil_append] at hv
    simp only [TailK.out, hv]
    exact .of_mode hp (.sep hs)
  | tailed1Values sp x ihs ih =>
    intro ss hs fs hf
    simp only [G.sty, bind, Option.bind_eq_some_iff] at hs
    obtain ⟨-, -, s, hs, hk⟩ := hs
    obtain ⟨t, m, rfl, hx, rfl⟩ := forms_tailed1 hf
    rintro a p q vs ⟨t', h, rfl⟩
    obtain ⟨ts, hv, hp, hs⟩ := TailR1.spells (element hΦ hs hk (ih _ hs _ hx) a) (fun _ _ h => den_tok h) rfl h
    exact .of_mode hp (.sep1 hv hs)
  | resume sp x ihs ih =>
    intro ss hs fs hf
    simp only [G.sty, bind, Option.bind_eq_some_iff] at hs
    obtain ⟨-, -, s, hs, hk⟩ := hs
    obtain ⟨t, m, rfl, hx, rfl⟩ := forms_resume hf
    rintro a p q vs (⟨hg, rfl⟩ | ⟨m', w, t', h1, h, rfl⟩)
    · have hg : Gap toks true p q := hg
      rw [hg.same]
      exact .of_mode .nil .noMore
    · obtain ⟨ts, hv, hp, hs⟩ := TailR1.spells (element hΦ hs hk (ih _ hs _ hx) a) (fun _ _ h => den_tok h) rfl h
      obtain ⟨e, hp'⟩ := den_tok ⟨w, h1⟩
      exact .of_mode (hp'.append hp) (.more hv hs)
  | implTailed k i sp x ihs ih =>
    intro ss hs fs hf
    simp only [G.sty, bind, Option.bind_eq_some_iff] at hs
    obtain ⟨-, -, s, hs, hk⟩ := hs
    obtain ⟨hx, hc⟩ := forms_impl hf
    rintro a p q vs ⟨t', h, rfl⟩
    rcases hc with ⟨rfl, rfl, rfl, he, rfl⟩ | ⟨rfl, rfl, rfl, rfl⟩
    · obtain ⟨ws, ts, hv, hp, hs⟩ := ImplR.spells (ends := selfTerminated) (loose := false) (element hΦ hs hk (ih _ hs _ hx) a)
        (fun _ _ h => den_tok h) statement_ends (by rw [he]; rfl) h
      simp only [List.flatten_nil, List.nil_append] at hv
      refine .of_single hp fun e => ?_
      obtain ⟨ss, es, ho, hl, hw⟩ := block_out t'
      rw [ho]
      rw [← hv, ← hw] at hs
      have := Spells.body (e := e) (i := 0) (j := 1) (items := []) (vs := [.list ss, .list es]) (b := []) rfl rfl hl hs .done
      simpa using this
    · obtain ⟨ws, ts, hv, hp, hs⟩ := ImplR.spells (ends := armTerminated) (loose := !x.early) (element hΦ hs hk (ih _ hs _ hx) a)
        (fun _ _ h => den_tok h) arm_ends rfl h
      simp only [List.flatten_nil, List.nil_append] at hv
      simp only [TailK.out, hv]
      exact .of_mode hp (.arms hs.loose)
  | ext x ih =>
    rintro ss - fs hf a p q vs ⟨v, e, h, he, rfl⟩
    rcases forms_ext hf with ⟨k, rfl, rfl⟩ | ⟨b, rfl, rfl⟩
    · obtain ⟨-, e', h, rfl⟩ := h
      rw [h.ex he]
      exact .of_mode h.pathTK (.tok (by simp))
    · obtain ⟨-, rfl, -⟩ := h
      exact .of_mode .nil .here
  | drop x ih =>
    rintro ss - fs hf a p q vs ⟨v, h, rfl⟩
    rcases forms_drop hf with ⟨k, rfl, rfl⟩ | ⟨k, rfl, rfl⟩
    · obtain ⟨-, e, h, -⟩ := h
      exact .of_single h.pathTK fun _ => .t .done
    · rcases h with ⟨v, ⟨-, e, h, -⟩, -⟩ | ⟨-, rfl, -⟩
      · exact .of_single h.pathTK fun _ => .with .done
      · exact .of_single .nil fun _ => .without .done
  | map f x ih =>
    intro ss hs fs hf
    simp only [G.sty, bind, Option.bind_eq_some_iff] at hs
    obtain ⟨s, hs, hk⟩ := hs
    rintro a p q vs ⟨v, h, rfl⟩
    rcases forms_map hf with ⟨n, m, m', rfl, rfl, hd, rfl⟩ | ⟨xs, hx, hfs⟩
    · have hv := den_sty hΦ _ _ hs _ _ _ _ h
      rcases h with ⟨w, ⟨-, h⟩, rfl⟩ | ⟨-, rfl, rfl⟩
      · have h1 := hW _ _ _ _ _ h
        rw [hd] at h1
        have hw2 : ∃ x y, w = [x, y] := by
          unfold Fn.sty at hk
          split at hk <;> try cases hk
          all_goals try (next heq => cases heq; done)
          next heq =>
          obtain ⟨z, hz, h2⟩ := hasS_one hv
          cases hz
          rcases hasTy_pair h2 with h2 | ⟨x, y, h2, -⟩
          · cases h2
            obtain ⟨ts, -, h⟩ := h1.single
            have := h ⟨0, 0⟩
            cases this with
            | f hv => simp at hv
          · cases h2; exact ⟨x, y, rfl⟩
        obtain ⟨x, y, rfl⟩ := hw2
        obtain ⟨ts, hp, h⟩ := h1.single
        refine ⟨_, List.mem_cons_of_mem _ (List.mem_cons_self ..), ts, hp, fun e => ?_⟩
        cases h e with
        | f h2 h3 h4 =>
          obtain ⟨z, h5, h6⟩ := h4.form_one_inv
          simp at h2 h5; subst h2 h5
          exact .f (v := .list [x]) rfl (.some h3) (.form_one rfl h6)
      · refine ⟨_, List.mem_cons_self .., [], .nil, fun e => ?_⟩
        exact .f (a := []) (v := .list []) rfl .none (.form_one (v := .list []) rfl .none)
    · exact Fn_forms_sound hfs hk (den_sty hΦ _ _ hs _ _ _ _ h) (ih _ hs _ hx _ _ _ _ h)
  | build m x ih =>
    intro ss hs fs hf
    simp only [G.sty, bind, Option.bind_eq_some_iff] at hs
    obtain ⟨s, hs, hk⟩ := hs
    rintro a p q vs ⟨v, e, h, he, rfl⟩
    cases m with
    | node k =>
      simp only [G.forms] at hf
      split at hf <;> try cases hf
      next hne =>
      simp only [bind, Option.bind_eq_some_iff, Option.map_eq_some_iff] at hf
      obtain ⟨xs, hx, st, hst, rfl⟩ := hf
      exact ((ih _ hs _ hx _ _ _ _ h).le (fitStyle_le hst)).node he (by simpa using hne)
    | span => simp [G.forms] at hf
    | paren =>
      simp only [G.forms] at hf
      split at hf
      · next hc =>
        cases hf
        obtain ⟨rfl, hd⟩ := hc
        exact paren_forms hΦ hW hd h he
      · cases hf
    | tupleBody =>
      simp only [G.forms, bind, Option.bind_eq_some_iff] at hf
      obtain ⟨xs, hx, hf⟩ := hf
      have hv := den_sty hΦ _ _ hs _ _ _ _ h
      split at hf
      · split at hf
        · next hle =>
          cases hf
          have hv2 : ∃ x y, v = [x, y] := by
            unfold Mk.sty at hk
            split at hk <;> try cases hk
            all_goals try (next heq => cases heq; done)
            obtain ⟨x, y, rfl, -⟩ := hasS_two hv
            exact ⟨x, y, rfl⟩
          obtain ⟨x, y, rfl⟩ := hv2
          obtain ⟨ts, hp, h⟩ := (ih _ hs _ hx _ _ _ _ h).single
          refine .of_single hp fun e' => ?_
          cases h e with
          | @t _ _ e1 _ _ _ h1 =>
            cases h1 with
            | f h2 h3 h4 =>
              cases h4 with
              | @t _ _ e2 _ _ _ h5 =>
                cases h5 with
                | f h6 h7 h8 =>
                  simp at h2 h6; subst h2 h6
                  obtain ⟨z, hz, hl⟩ := List.any_eq_true.mp (by simpa [Form.allLe] using hle)
                  have h9 := Spells.node (ws := []) hz (Form.le_spells (e := e) hl (.t (e' := e1) (.f (vs := [x]) rfl h3 (.t (e' := e2) .done))))
                    (by
                      unfold Extends
                      rw [if_neg (by decide), if_pos rfl]
                      exact ⟨_, by simpa using hp.spans he⟩)
                  have h10 := Spells.f (e := e') (i := 1) (vs := [y, .node .StructDefinitionBodyTuple e [] [x]]) rfl h9
                    (.f (i := 0) rfl h7 (h8.change))
                  simpa [Mk.app] using h10
        · cases hf
      · cases hf
  | nodeEmpty k x ih =>
    intro ss hs fs hf
    simp only [G.sty, bind, Option.bind_eq_some_iff] at hs
    obtain ⟨s, hs, hk⟩ := hs
    rintro a p q vs ⟨v, e, h, he, rfl⟩
    simp only [G.forms] at hf
    split at hf <;> try cases hf
    next hne =>
    simp only [Bool.not_eq_true', Bool.not_eq_false] at hne
    split at hf
    · next hx =>
      split at hf
      · next hc =>
        cases hf
        obtain ⟨rfl, hd, hd'⟩ := hc
        rw [hx] at h
        exact field_forms hΦ hW hd hd' h he
      · cases hf
    · simp only [bind, Option.bind_eq_some_iff, Option.map_eq_some_iff] at hf
      obtain ⟨xs, hx, st, hst, rfl⟩ := hf
      exact ((ih _ hs _ hx _ _ _ _ h).le (fitStyle_le hst)).nodeEmpty he hne
  | mapErr e x ih => intro ss hs fs hf a p q vs h; exact ih ss hs fs hf _ _ _ _ h
  | peek x ih => intro ss hs fs hf; simp [G.forms] at hf
  | amb l x ih => intro ss hs fs hf a p q vs h; exact ih ss hs fs hf _ _ _ _ h
  | notMaximum x ih => rintro ss hs fs hf a p q vs ⟨-, h⟩; exact ih ss hs fs hf _ _ _ _ h

end

end Verif
