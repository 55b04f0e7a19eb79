import Verif.Proofs.Nest
import Verif.Props.Parse
/-!
# No extent reaches beyond the tokens

Every extent in a tree starts at or after the first token; it is empty or ends with or before the last token.
-/

namespace Verif
open Verif.Spec Verif.Props

variable {code : Text} {toks : List Token}

theorem isEOF_split {t : Token} {n : Nat} (h : (split t n).isSome = true) : t.isEOF = false := by
  cases t with
  | number m => rfl
  | plain k e =>
    cases k <;> first | rfl | (simp [split] at h)

theorem ValidPt.lt {p : Pt} (h : ValidPt toks p) : p.off < toks.length := by
  obtain ⟨t, ht, -⟩ := h
  exact (List.getElem?_eq_some_iff.mp ht).1

theorem EofLast.notEOF (h : EofLast toks) {i : Nat} {t : Token} (ht : toks[i]? = some t) (hi : i + 1 < toks.length) : t.isEOF = false := by
  obtain ⟨init, e, rfl, -, h1⟩ := h
  rw [List.getElem?_append_left (by simp at hi; omega)] at ht
  exact h1 t (List.mem_of_getElem? ht)

theorem ex_bound (hs : Src code toks) {p q : Pt} {e : Extent} (h : Btw toks p q) (he : ex toks p q = some e) :
    e.e ≤ e.s ∨ ∃ u ∈ toks, u.isEOF = false ∧ e.e ≤ u.extent.e := by
  have hr := hs.ex_range h he
  obtain ⟨-, hq, -⟩ := h
  cases hsub : q.sub with
  | some n =>
    obtain ⟨u, hu, hn⟩ := id hq
    right
    exact ⟨u, List.mem_of_getElem? hu, isEOF_split (hn n hsub), by have := hs.pos_le hq hu; omega⟩
  | none =>
    have h0 : q.subw = 0 := by simp [Pt.subw, hsub]
    unfold ex at he
    split at he
    · cases he
    · dsimp only at he
      split at he
      · split at he
        · cases he
        · rename_i u hu
          cases he
          right
          have hlt := hq.lt
          exact ⟨u, List.mem_of_getElem? hu, hs.eof.notEOF hu (by omega), by simp [h0]⟩
      · split at he
        · split at he
          · omega
          · split at he
            · cases he; exact .inl (Nat.le_refl _)
            · cases he
        · cases he

theorem no_copied_bounds : ∀ x ∈ allParts, match x with | .map (.copyExtent k) _ => k ≠ .TraitBounds | _ => True := by
  have h : allParts.all (fun x => match x with | .map (.copyExtent k) _ => k != .TraitBounds | _ => true) = true := by decide +kernel
  intro x hx
  have := List.all_eq_true.mp h x hx
  revert this
  split <;> simp

/-- Where an empty list of bounds can stand. -/
theorem Orig.bounds {Φ : NT → Rel} (hs : Src code toks) {e : Extent} {vs : List V} (h : Orig toks Φ .TraitBounds e vs) :
    e.e ≤ e.s ∨ ∃ u ∈ toks, u.isEOF = false ∧ e.e ≤ u.extent.e := by
  generalize hk : K.TraitBounds = k at h
  cases h with
  | build h1 h2 h3 h4 => exact ex_bound hs (den_btw _ _ _ _ _ h2) h3
  | empty h1 h2 h3 => exact ex_bound hs (.refl (den_btw _ _ _ _ _ h2).1) h3
  | @fn f _ _ _ _ _ _ _ _ h1 h2 h3 h4 h5 =>
    subst hk
    have := no_copied_bounds _ h1
    cases f <;> simp [Fn.makes] at h5 this
    exact absurd h5.symm this
  | number h1 h2 h3 =>
    subst hk
    unfold convertNumber at h3
    have no : ∀ o : Option Extent, V.node .TraitBounds e [] vs ∉ (optExt o).subs := by
      intro o
      cases o <;> simp [optExt]
    simp at h3
    split at h3 <;> simp [no] at h3
  | atom => cases hk
  | @pre _ _ _ _ _ _ _ op _ _ _ _ _ _ h1 h2 h3 h4 =>
    subst hk
    rcases h4 with h4 | ⟨t, h4⟩
    · simp [mkAttributed] at h4
    · cases op <;> simp [PrefixOp.mk] at h4
  | @post _ _ _ _ _ _ op _ _ _ _ h1 h2 h3 h4 => exact ex_bound hs (h1.btw.trans (h2.elim TableR.btw TableR.btw)) h3
  | inf h1 h2 h3 h4 =>
    refine ex_bound hs (h1.btw.trans (h2.btw.trans ?_)) h4
    rcases h3 with ⟨-, -, rfl⟩ | ⟨r, -, h3⟩
    · exact .refl h2.btw.2.1
    · exact h3.btw

theorem hollow_iff {v : V} (h : v.hollow = true) : ∃ e ws, v = .node .TraitBounds e ws [.list []] := by
  unfold V.hollow at h
  split at h
  · exact ⟨_, _, rfl⟩
  · cases h

/-- Where the structs of a file stand. -/
theorem node_bounds (hs : Src code toks) {a p q vs} (h : ItemsR toks (Full toks (Fits toks)) a p q vs) :
    ∀ k e ws fs, V.node k e ws fs ∈ subsL vs → (∃ t ∈ toks, t.isEOF = false ∧ t.extent.s ≤ e.s) ∧
      (e.e ≤ e.s ∨ ∃ u ∈ toks, u.isEOF = false ∧ e.e ≤ u.extent.e) := by
  induction h with
  | nil => intro k e ws fs h; simp at h
  | @snoc m q vs v h1 h2 h3 h4 ih =>
    intro k e ws fs hx
    rw [subsL_append] at hx
    rcases List.mem_append.mp hx with hx | hx
    · exact ih k e ws fs hx
    have hn := (den_good hs (fun _ _ _ _ _ h => h.2.2.2.1.1.1) (fun _ _ _ _ _ h => h.2.2.2.1.1.2) (fun _ _ _ _ _ h => h.2.2.2.1.2) itemG itemG_firm
      _ _ _ _ h4).nest
    have hf := item_full hs h4
    have hq := (den_btw _ _ _ _ _ h4).2.1.lt
    obtain ⟨fs', t, u, rfl, ht, hu, hlt, -⟩ := item_shape (code := code) h3 h4
    have hte := hs.eof.notEOF ht (by omega)
    have hue := hs.eof.notEOF hu (by omega)
    have hfirst : t.extent.s ≤ e.s := by
      have := (hf.1 e (List.mem_filterMap.mpr ⟨_, hx, rfl⟩)).1
      rw [Pt.pos_eq ht] at this
      omega
    refine ⟨⟨t, List.mem_of_getElem? ht, hte, hfirst⟩, ?_⟩
    have hx0 := hx
    simp at hx
    rcases hx with ⟨rfl, rfl, rfl, rfl⟩ | hx
    · exact .inr ⟨u, List.mem_of_getElem? hu, hue, Nat.le_refl _⟩
    · cases hh : (V.node k e ws fs).hollow with
      | true =>
        obtain ⟨e', ws', heq⟩ := hollow_iff hh
        cases heq
        exact (hf.2 _ _ _ _ hx0).2.bounds hs
      | false =>
        rcases hn _ _ _ _ (List.mem_cons_self ..) with h5 | h5 | h5
        · cases h5
        · cases h5
        · have := h5 e (List.mem_filterMap.mpr ⟨_, hx, by simp [V.firm, hh, V.own]⟩)
          exact .inr ⟨u, List.mem_of_getElem? hu, hue, this.2⟩

end Verif
