import Verif.Proofs.Syntax
/-!
# How the closures of the parser change forms
-/

namespace Verif
open Verif.Spec

section
variable {toks : List Token}

theorem mapM_mem {α β : Type} {f : α → Option β} {xs : List α} {ys : List β} (h : xs.mapM f = some ys) {x : α} (hx : x ∈ xs) :
    ∃ y ∈ ys, f x = some y := by
  induction xs generalizing ys with
  | nil => cases hx
  | cons z xs ih =>
    rw [List.mapM_cons] at h
    simp only [bind, Option.bind_eq_some_iff, pure] at h
    obtain ⟨y, hy, zs, hz, he⟩ := h
    cases he
    rcases List.mem_cons.mp hx with rfl | hx
    · exact ⟨y, by simp, hy⟩
    · obtain ⟨w, hw, h⟩ := ih hz hx
      exact ⟨w, by simp [hw], h⟩

theorem Spells.tok_inv {ks : List TK} {v : V} {ts : List Token} (h : Spells toks (.one (.tok ks) v) ts) :
    ∃ k e, k ∈ ks ∧ v = .ext e ∧ ts = [.plain k e] := by
  cases h with
  | tok hk => exact ⟨_, _, hk, rfl, rfl⟩

/-- A literal or an identifier. -/
theorem leaf {s : Style} {k : K} {n : Nat} {ks : List TK} {e : Extent} {ts : List Token} (hk : Spec.forms s k = [[.f 0 (.tok ks)]])
    (h : Spells toks (.one (.tok ks) (.ext e)) ts) (hx : emptyExtent k = false) :
    Spells toks (.one (.val s) (.node k e [] [.ext e])) ts ∧ Spans toks e ts := by
  have hsp : Spans toks e ts := by
    obtain ⟨k, e', -, he, rfl⟩ := Spells.tok_inv h
    cases he
    exact spans_one rfl
  exact ⟨.node (form := [.f 0 (.tok ks)]) (by rw [hk]; simp) (.form_one (by simp) h) (hsp.extends hx), hsp⟩

theorem forms_one {s s' : Style} {k : K} {e : Extent} {v : V} {ts : List Token} (hk : [.f 0 (.val s')] ∈ Spec.forms s k)
    (h : Spells toks (.one (.val s') v) ts) (he : Spans toks e ts) (hx : emptyExtent k = false) :
    Spells toks (.one (.val s) (.node k e [] [v])) ts :=
  .node hk (.form_one (by simp) h) (he.extends hx)

theorem into_spells {e : Extent} {v : V} {ts : List Token} (h : Spells toks (.one (.val .plain) v) ts) (he : Spans toks e ts) :
    Spells toks (.one (.val .plain) (intoExpr e v)) ts := by
  refine .node (form := [.f 0 (.many [] (.val .plain) []), .f 1 (.val .plain)]) (by decide +kernel) ?_ (he.extends rfl)
  have h1 := Spells.f (e := e) (items := [.f 1 (.val .plain)]) (vs := [.list [], v]) (i := 0) (a := []) (by rfl)
    (.many (pre := []) (m := .val .plain) (post := []) .repNil) (.form_one (by rfl) h)
  exact h1

theorem expression_syntax {t : Tag} (h : t.en = .Expression) : variantSyntax .plain t = [[.f 0 (.val .plain)]] := by
  cases t <;> first | rfl | cases h

/-- The extent of a struct that is written with some tokens. -/
theorem _root_.Verif.Spec.Spells.exact {s : Style} {k : K} {e : Extent} {ws : List Ws} {vs : List V} {ts : List Token}
    (h : Spells toks (.one (.val s) (.node k e ws vs)) ts) (hk : exactExtent k = true) : Spans toks e ts := by
  simp only [exactExtent, Bool.not_eq_true', Bool.or_eq_false_iff, decide_eq_false_iff_not] at hk
  cases h with
  | node _ _ hx =>
    unfold Extends at hx
    rw [if_neg (by simp [hk]), if_neg hk.1.2, if_neg (by simp [hk])] at hx
    exact hx
  | number => exact spans_one rfl

theorem Fn_forms_sound {fn : Fn} {xs fs : List Frm} {ss us : List STy} {p q : Pt} {vs : List V} (hf : fn.forms xs = some fs)
    (hs : fn.sty ss = some us) (hv : hasS vs ss = true) (h : Written toks xs p q vs) : Written toks fs p q (fn.app vs) := by
  cases fn with
  | wrap t =>
    simp only [Fn.forms, Option.map_eq_some_iff] at hf
    obtain ⟨s, hf, rfl⟩ := hf
    have := h.le (fitStyle_le hf)
    split
    · exact this.variant
    · exact this.enm
  | wrapSecond t =>
    unfold Fn.sty at hs
    split at hs <;> try cases hs
    all_goals try (next heq => cases heq; done)
    next heq =>
      cases heq
      obtain ⟨w, b, rfl, -, -⟩ := hasS_two hv
      obtain ⟨x, hx, ts, hp, hsp⟩ := h
      simp only [Fn.forms] at hf
      obtain ⟨y, hy, hxy⟩ := mapM_mem hf hx
      refine ⟨y, hy, ts, hp, fun e => ?_⟩
      replace hsp := hsp e
      simp only [Fn.app]
      split at hxy
      · next hall =>
        cases hxy
        clear hp hx hy hf
        induction x generalizing ts with
        | nil => cases hsp; exact .done
        | cons i x ih =>
          simp only [List.all_cons, Bool.and_eq_true] at hall
          obtain ⟨hi, hall⟩ := hall
          split at hi
          · next m =>
            cases hsp with
            | f hv h1 h2 =>
              simp at hv; subst hv
              obtain ⟨z, hz, hl⟩ := List.any_eq_true.mp (by simpa [Form.allLe] using hi)
              exact .f (v := .enm t [b]) rfl (.variant (.enm (e := e) hz (Form.le_spells hl (.form_one rfl h1)))) (ih _ h2 hall)
          · cases hsp with
            | f hv h1 h2 =>
              simp at hv; subst hv
              exact .f (v := w) rfl h1 (ih _ h2 hall)
          · cases hsp with
            | t h => exact .t (ih _ h hall)
          · cases hi
      · cases hxy
  | flat =>
    simp only [Fn.forms] at hf
    split at hf
    · next a m b =>
      split at hf
      · cases hf
        unfold Fn.sty at hs
        split at hs <;> try cases hs
        all_goals try (next heq => cases heq; done)
        next heq =>
        obtain ⟨v, rfl, h1⟩ := hasS_one hv
        obtain ⟨ts, hp, h⟩ := h.mode
        rcases hasTy_opt h1 with rfl | ⟨x, rfl, h2⟩
        · cases h
          exact .of_mode hp .noGroup
        · obtain ⟨ws, rfl, -⟩ := hasTy_vec h2
          cases h with
          | present h3 h4 h5 => exact .of_mode hp (.group h3 h4 h5)
      · cases hf
    · cases hf
  | some =>
    unfold Fn.sty at hs
    split at hs <;> try cases hs
    all_goals try (next heq => cases heq; done)
    next heq =>
    obtain ⟨v, rfl, h1⟩ := hasS_one hv
    obtain ⟨x, hx, ts, hp, hsp⟩ := h
    simp only [Fn.forms] at hf
    obtain ⟨y, hy, hxy⟩ := mapM_mem hf hx
    refine ⟨y, hy, ts, hp, fun e => ?_⟩
    simp only [Option.map_eq_some_iff] at hxy
    obtain ⟨⟨a, m, b⟩, hxy, rfl⟩ := hxy
    replace hsp := hsp e
    rw [Form.around_eq hxy] at hsp
    obtain ⟨w, x, y, z, hw, rfl, h1, h2, h3⟩ := hsp.around
    simp at hw; subst hw
    exact .of_around (v := .list [v]) rfl h1 (.some h2) h3 e
  | none =>
    simp only [Fn.forms] at hf
    split at hf
    · cases hf
      obtain ⟨ts, hp, h⟩ := h.single
      have := h ⟨0, 0⟩
      cases this
      exact .of_mode hp .none
    · cases hf
      obtain ⟨ts, hp, h⟩ := h.single
      obtain ⟨v, -, h⟩ := (h ⟨0, 0⟩).form_one_inv
      obtain ⟨k, e, hk, -, rfl⟩ := Spells.tok_inv h
      simp at hk; subst hk
      exact .of_single hp fun e => .t (.form_one (v := .list []) rfl .none)
    · cases hf
  | swap =>
    unfold Fn.sty at hs
    split at hs <;> try cases hs
    all_goals try (next heq => cases heq; done)
    next heq =>
    obtain ⟨w, b, rfl, -, -⟩ := hasS_two hv
    obtain ⟨x, hx, ts, hp, hsp⟩ := h
    simp only [Fn.forms] at hf
    obtain ⟨y, hy, hxy⟩ := mapM_mem hf hx
    refine ⟨y, hy, ts, hp, fun e => ?_⟩
    replace hsp := hsp e
    simp only [Fn.app]
    split at hxy
    · next hall =>
      cases hxy
      clear hp hx hy hf
      induction x generalizing ts with
      | nil => cases hsp; exact .done
      | cons i x ih =>
        simp only [List.all_cons, Bool.and_eq_true] at hall
        obtain ⟨hi, hall⟩ := hall
        split at hi
        · cases hsp with
          | f hv h1 h2 =>
            simp at hv; subst hv
            exact .f (v := w) rfl h1 (ih _ h2 hall)
        · cases hsp with
          | f hv h1 h2 =>
            simp at hv; subst hv
            exact .f (v := b) rfl h1 (ih _ h2 hall)
        · cases hsp with
          | t h => exact .t (ih _ h hall)
        · cases hi
    · cases hxy
  | isSome =>
    simp only [Fn.forms] at hf
    split at hf
    · cases hf
      unfold Fn.sty at hs
      split at hs <;> try cases hs
      all_goals try (next heq => cases heq; done)
      next heq =>
      obtain ⟨v, rfl, h1⟩ := hasS_one hv
      obtain ⟨ts, hp, h⟩ := h.mode
      cases h with
      | absent => exact .of_mode hp .no
      | present h3 h4 h5 =>
        obtain ⟨k, e, hk, rfl, rfl⟩ := Spells.tok_inv h4
        simp at hk; subst hk
        have h6 := List.map_eq_nil_iff.mp h3
        have h7 := List.map_eq_nil_iff.mp h5
        subst h6 h7
        exact .of_mode hp .yes
    · cases hf
  | append =>
    simp only [Fn.forms] at hf
    split at hf
    · next m n =>
      split at hf
      · cases hf
        have hvs : ∃ a b, vs = [.list a, .list b] := by
          unfold Fn.sty at hs
          split at hs <;> try cases hs
          all_goals try (next heq => cases heq; done)
          · obtain ⟨w, b, rfl, h1, h2⟩ := hasS_two hv
            obtain ⟨b, rfl, -⟩ := hasTy_vec h2
            rcases hasTy_opt h1 with rfl | ⟨x, rfl, -⟩
            · exact ⟨_, _, rfl⟩
            · exact ⟨_, _, rfl⟩
          · obtain ⟨w, b, rfl, h1, h2⟩ := hasS_two hv
            obtain ⟨b, rfl, -⟩ := hasTy_vec h2
            obtain ⟨a, rfl, -⟩ := hasTy_vec h1
            exact ⟨_, _, rfl⟩
        obtain ⟨a, b, rfl⟩ := hvs
        obtain ⟨ts, hp, h⟩ := h.single
        have h := h ⟨0, 0⟩
        cases h with
        | f h1 h2 h3 =>
          obtain ⟨v, h4, h5⟩ := h3.form_one_inv
          simp at h1 h4; subst h1 h4
          exact .of_mode hp (.both h2 h5)
      · cases hf
    · cases hf
  | ident =>
    unfold Fn.sty at hs
    split at hs <;> try cases hs
    all_goals try (next heq => cases heq; done)
    next heq =>
    obtain ⟨v, rfl, h1⟩ := hasS_one hv
    obtain ⟨e, rfl⟩ := hasTy_ext h1
    simp only [Fn.forms] at hf
    split at hf
    · next hall =>
      simp only [Option.map_eq_some_iff] at hf
      obtain ⟨s, hf, rfl⟩ := hf
      obtain ⟨x, hx, ts, hp, hsp⟩ := h
      have hx' := List.all_eq_true.mp hall x hx
      split at hx'
      · next ks =>
        obtain ⟨v, hv, h⟩ := (hsp ⟨0, 0⟩).form_one_inv
        simp at hv; subst hv
        obtain ⟨k, e', hk, he, rfl⟩ := Spells.tok_inv h
        cases he
        have := List.all_eq_true.mp (fitStyle_le hf) _ (List.mem_map_of_mem hx)
        obtain ⟨y, hy, hl⟩ := List.any_eq_true.mp this
        exact .of_mode hp (.node hy (Form.le_spells hl (.self hk .done)) (Spans.extends (k := .Ident) (spans_one (t := .plain _ _) rfl) rfl))
      · cases hx'
    · cases hf
  | lifetime =>
    unfold Fn.sty at hs
    split at hs <;> try cases hs
    all_goals try (next heq => cases heq; done)
    next heq =>
    obtain ⟨v, rfl, h1⟩ := hasS_one hv
    obtain ⟨e, rfl⟩ := hasTy_ext h1
    simp only [Fn.forms] at hf
    split at hf
    · next hx =>
      subst hx; cases hf
      obtain ⟨ts, hp, h⟩ := h.mode
      obtain ⟨k, e', hk, he, rfl⟩ := Spells.tok_inv h
      cases he
      refine .of_mode hp (forms_one (s' := .quote) (by decide +kernel) (.node (form := [.self [.Lifetime]]) (by decide +kernel) (.self hk .done) (Spans.extends (k := .Ident) (spans_one (t := .plain _ _) rfl) rfl))
        (spans_one rfl) rfl)
    · cases hf
  | character =>
    unfold Fn.sty at hs
    split at hs <;> try cases hs
    all_goals try (next heq => cases heq; done)
    next heq =>
    obtain ⟨v, rfl, h1⟩ := hasS_one hv
    obtain ⟨e, rfl⟩ := hasTy_ext h1
    simp only [Fn.forms] at hf
    split at hf
    · next hx =>
      subst hx; cases hf
      obtain ⟨ts, hp, h⟩ := h.mode
      exact .of_mode hp (leaf (n := 0) (by decide +kernel) h rfl).1
    · cases hf
  | string =>
    unfold Fn.sty at hs
    split at hs <;> try cases hs
    all_goals try (next heq => cases heq; done)
    next heq =>
    obtain ⟨v, rfl, h1⟩ := hasS_one hv
    obtain ⟨e, rfl⟩ := hasTy_ext h1
    simp only [Fn.forms] at hf
    split at hf
    · next hx =>
      cases hf
      obtain ⟨ts, hp, h⟩ := (h.le hx).mode
      exact .of_mode hp (leaf (n := 0) (by decide +kernel) h rfl).1
    · cases hf
  | byte =>
    unfold Fn.sty at hs
    split at hs <;> try cases hs
    all_goals try (next heq => cases heq; done)
    next heq =>
    obtain ⟨v, rfl, h1⟩ := hasS_one hv
    obtain ⟨e, rfl⟩ := hasTy_ext h1
    simp only [Fn.forms] at hf
    split at hf
    · next hx =>
      subst hx; cases hf
      obtain ⟨ts, hp, h⟩ := h.mode
      have hl := leaf (s := .byte) (k := .Character) (n := 0) (by decide +kernel) h rfl
      exact .of_mode hp (forms_one (s' := .byte) (by decide +kernel) hl.1 hl.2 rfl)
    · cases hf
  | byteString =>
    unfold Fn.sty at hs
    split at hs <;> try cases hs
    all_goals try (next heq => cases heq; done)
    next heq =>
    obtain ⟨v, rfl, h1⟩ := hasS_one hv
    obtain ⟨e, rfl⟩ := hasTy_ext h1
    simp only [Fn.forms] at hf
    split at hf
    · next hx =>
      cases hf
      obtain ⟨ts, hp, h⟩ := (h.le hx).mode
      have hl := leaf (s := .byte) (k := .String) (n := 0) (by decide +kernel) h rfl
      exact .of_mode hp (forms_one (s' := .byte) (by decide +kernel) hl.1 hl.2 rfl)
    · cases hf
  | copyExtent k =>
    unfold Fn.sty at hs
    split at hs <;> try cases hs
    all_goals try (next heq => cases heq; done)
    next k' heq =>
    cases heq
    split at hs <;> try cases hs
    next hk' =>
    obtain ⟨v, rfl, h1⟩ := hasS_one hv
    obtain ⟨e, ws, gs, rfl, -⟩ := hasTy_node h1
    simp only [Fn.forms] at hf
    split at hf
    · split at hf
      · next hc =>
        simp only [Option.map_eq_some_iff] at hf
        obtain ⟨s, hf, rfl⟩ := hf
        simp only [copiesExtent, Bool.and_eq_true, Bool.not_eq_true', List.all_eq_true] at hc
        obtain ⟨f, hf1, hf2⟩ : ∃ f ∈ k.fields, f.ty = .node k' := by
          have : Ty.node k' ∈ k.fields.map (·.ty) := by rw [hk']; simp
          simpa using this
        have hx := hc.2 f hf1
        rw [hf2] at hx
        obtain ⟨ts, hp, h⟩ := h.mode
        obtain ⟨y, hy, hl⟩ := List.any_eq_true.mp (by simpa [Form.allLe] using fitStyle_le hf)
        exact .of_mode hp (.node hy (Form.le_spells hl (.form_one rfl h)) ((h.exact hx).extends hc.1))
      · cases hf
    · cases hf
  | into =>
    simp only [Fn.forms] at hf
    split at hf
    · next hx =>
      subst hx; cases hf
      unfold Fn.sty at hs
      split at hs <;> try cases hs
      all_goals try (next heq => cases heq; done)
      next heq =>
      split at hs <;> try cases hs
      next hall =>
      obtain ⟨v, rfl, h1⟩ := hasS_one hv
      obtain ⟨ts, hp, h⟩ := h.mode
      obtain ⟨g, vs, rfl, hg, hpay⟩ := STy.has_tags h1
      have hgk := List.all_eq_true.mp hall g hg
      simp only [Bool.and_eq_true, decide_eq_true_eq] at hgk
      obtain ⟨hen, hgk⟩ := hgk
      split at hgk
      · next k hk =>
        rw [hk, ← hasS_ty] at hpay
        obtain ⟨v, rfl, hv'⟩ := hasS_one hpay
        obtain ⟨e, ws, fs, rfl, -⟩ := hasTy_node hv'
        refine .of_mode hp (into_spells h ?_)
        cases h with
        | enm hf h =>
          rw [expression_syntax hen, List.mem_singleton] at hf
          subst hf
          obtain ⟨v, hv, h⟩ := h.form_one_inv
          cases hv
          refine h.exact ?_
          rcases (by simpa using hgk : k = .Block ∨ k = .Parenthetical ∨ k = .Tuple) with rfl | rfl | rfl <;> rfl
      · cases hgk
    · cases hf
  | externAbi => cases hf
  | fieldValue => cases hf

end

end Verif
