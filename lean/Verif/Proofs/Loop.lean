import Verif.Proofs.Source
/-!
# The loop over the items of a file

Items end at a token that cannot be split, so each of them takes at least one whole token.
-/

namespace Verif

/-- The kinds that splitting a token can give first. -/
def TK.splits : TK → Bool
  | .LeftAngle | .RightAngle | .Pipe | .Ampersand => true
  | _ => false

/-- Nonterminals that end with a whole token (checked below). -/
def NT.whole : NT → Bool
  | .item | .attribute_containing | .attribute_containing_literal | .p_const | .extern_crate | .extern_block | .function
  | .block | .item_macro_call | .item_macro_call_args | .item_macro_call_paren | .item_macro_call_square
  | .item_macro_call_curly | .module | .module_body_or_not | .module_body | .p_enum | .p_impl | .p_static | .p_struct
  | .struct_defn_body | .struct_defn_body_brace | .struct_defn_body_brace_only | .struct_defn_body_tuple | .p_trait
  | .p_union | .p_use | .type_alias => true
  | _ => false

/-- What is recognised ends with a whole token. -/
def G.whole : G → Bool
  | .tok k => !k.splits
  | .r n => n.whole
  | .seq _ b => b.whole
  | .alt a b | .ifAmbiguous a b => a.whole && b.whole
  | .ext a | .drop a | .map _ a | .build _ a | .nodeEmpty _ a | .mapErr _ a | .amb _ a | .notMaximum a => a.whole
  | _ => false

/-- The same for a rule. -/
def Rule.whole : Rule → Bool
  | .g x => x.whole
  | .expr _ => false

theorem rules_whole : ∀ nt, nt.whole = true → (rules nt).whole = true := by
  have h : NT.all.all (fun nt => !nt.whole || (rules nt).whole) = true := by decide +kernel
  intro nt hn
  have := List.all_eq_true.mp h nt (NT.mem_all nt)
  simpa [hn] using this

section
variable {toks : List Token} {Φ : NT → Rel}

theorem split_splits {t h r : Token} {n : Nat} {k : TK} {e : Extent} (hs : split t n = some (h, r))
    (hc : convTK k h = some e) : k.splits = true := by
  unfold split at hs
  split at hs <;> first | (cases hs; done) | skip
  all_goals
    cases hs
    simp only [convTK] at hc
    split at hc <;> cases hc
    subst k; rfl

theorem den_whole (hΦ : ∀ nt am p q vs, Φ nt am p q vs → nt.whole = true → q.sub = none) (g : G) :
    g.whole = true → ∀ a p q vs, den toks Φ g a p q vs → q.sub = none := by
  induction g with
  | tok k =>
    rintro hk a p q vs ⟨-, e, h, -⟩
    cases h with
    | whole => rfl
    | part _ _ _ h1 h2 => simp [G.whole, split_splits h1 h2] at hk
  | r n => rintro hn a p q vs ⟨-, h⟩; exact hΦ n a p q vs h hn
  | seq x y _ ih => rintro hn a p q vs ⟨m, v, w, -, h, -⟩; exact ih hn _ _ _ _ h
  | alt x y ihx ihy =>
    intro hn a p q vs h
    simp only [G.whole, Bool.and_eq_true] at hn
    exact h.elim (ihx hn.1 _ _ _ _) (ihy hn.2 _ _ _ _)
  | ifAmbiguous x y ihx ihy =>
    intro hn a p q vs h
    simp only [G.whole, Bool.and_eq_true] at hn
    simp only [den] at h
    split at h
    · exact ihx hn.1 _ _ _ _ h
    · exact ihy hn.2 _ _ _ _ h
  | ext x ih => rintro hn a p q vs ⟨v, e, h, -⟩; exact ih hn _ _ _ _ h
  | drop x ih => rintro hn a p q vs ⟨v, h, -⟩; exact ih hn _ _ _ _ h
  | map f x ih => rintro hn a p q vs ⟨v, h, -⟩; exact ih hn _ _ _ _ h
  | build m x ih => rintro hn a p q vs ⟨v, e, h, -⟩; exact ih hn _ _ _ _ h
  | nodeEmpty k x ih => rintro hn a p q vs ⟨v, e, h, -⟩; exact ih hn _ _ _ _ h
  | mapErr e x ih => intro hn a p q vs h; exact ih hn _ _ _ _ h
  | amb l x ih => intro hn a p q vs h; exact ih hn _ _ _ _ h
  | notMaximum x ih => rintro hn a p q vs ⟨-, h⟩; exact ih hn _ _ _ _ h
  | _ => intro hn; simp [G.whole] at hn

/-- Whatever holds of all parse results and is closed under the rules, together with what is always known. -/
def Known (Φ : NT → Rel) (nt : NT) (am : Amb) (p q : Pt) (vs : List V) : Prop :=
  Consumes nt am p q vs ∧ (nt.whole = true → q.sub = none) ∧ Φ nt am p q vs

theorem eval_known (ht : EofLast toks)
    (hc : ∀ nt am p q vs, Btw toks p q → denRule toks (Known Φ) (rules nt) am p q vs → Φ nt am p q vs) (n : Nat) :
    RecOK toks (Known Φ) (eval toks n) := by
  refine eval_run_of_closed (Φ := fun nt am p q vs => (nt.whole = true → q.sub = none) ∧ Φ nt am p q vs) ht ?_ n
  intro nt am p q vs hb h
  refine ⟨?_, hc nt am p q vs hb h⟩
  intro hn
  have hw := rules_whole nt hn
  generalize rules nt = r at h hw
  cases r with
  | g g => exact den_whole (fun _ _ _ _ _ h => h.2.1) g hw _ _ _ _ h
  | expr => cases hw

end

/-! ## The loop -/

section
variable {toks : List Token} {Φ : NT → Rel}

theorem itemG_wf : itemG.wf = true := by decide +kernel
theorem itemG_loops : itemG.loops = true := by decide +kernel
theorem itemG_null : itemG.null = false := by decide +kernel

/-- `parseItem` succeeds as the grammar says. -/
theorem parseItem_run (ht : EofLast toks)
    (hc : ∀ nt am p q vs, Btw toks p q → denRule toks (Known Φ) (rules nt) am p q vs → Φ nt am p q vs)
    (a : Amb) (pt : Pt) (hv : ValidPt toks pt) :
    Run toks (parseItem toks a pt) a pt (fun q vs => den toks (Known Φ) itemG a pt q vs) :=
  evalG_run ht (eval_known ht hc _) itemG itemG_wf a pt hv

theorem parseItem_noHang (ht : EofLast toks) (a : Amb) (pt : Pt) (hv : ValidPt toks pt) :
    NoHang (parseItem toks a pt) := by
  refine evalG_noHang ht (eval_consumes ht _) (k := 0) (r := 10) ?_ itemG itemG_wf itemG_loops a pt hv (Nat.zero_le _)
    (.inr (by decide +kernel))
  intro nt a pt hv _ _
  refine eval_noHang ht _ nt a pt hv ?_
  have := rank_lt nt
  have := hv.key_lt
  unfold evalFuel
  omega

/-- One turn: how an item ends. -/
theorem item_end {a : Amb} {p q : Pt} {vs : List V} (hs : p.sub = none)
    (h : den toks (Known Φ) itemG a p q vs) : q.sub = none ∧ p.off < q.off := by
  have h1 : q.sub = none := den_whole (fun _ _ _ _ _ h => h.2.1) itemG (by decide +kernel) _ _ _ _ h
  have h2 : p.key < q.key := den_lt (fun _ _ _ _ _ h => h.1.1) itemG itemG_null _ _ _ _ h
  refine ⟨h1, ?_⟩
  simp [Pt.key, Pt.subw, hs, h1] at h2
  exact h2

/-- A list of item values between two points. -/
inductive ItemsR (toks : List Token) (Φ : NT → Rel) (a : Amb) : Pt → Pt → List V → Prop
  | nil {p} : ItemsR toks Φ a p p []
  | snoc {p m q vs v} : ItemsR toks Φ a p m vs → ValidPt toks m → m.sub = none → den toks (Known Φ) itemG a m q v →
      ItemsR toks Φ a p q (vs ++ v)

/-- What the failures kept are like. -/
structure FailsOK (toks : List Token) (f : PFailures) : Prop where
  valid : ValidPt toks f.point

theorem FailsOK.new (ht : EofLast toks) : FailsOK toks .new := ⟨ValidPt.of_none ht.pos⟩

theorem FailsOK.add {f : PFailures} (h : FailsOK toks f) {p : Pt} {e : PErr} (hp : ValidPt toks p) :
    FailsOK toks (f.add p e) := by
  unfold PFailures.add
  split
  · exact h
  · split
    · exact ⟨hp⟩
    · exact ⟨h.valid⟩

theorem FailsOK.addAll {l : Log} : ∀ {f : PFailures}, FailsOK toks f → (∀ x ∈ l, ValidPt toks x.1) →
    FailsOK toks (f.addAll l) := by
  induction l with
  | nil => intro f h _; exact h
  | cons x l ih =>
    intro f h hl
    exact ih (h.add (hl x (by simp))) (fun y hy => hl y (by simp [hy]))

/-- After `add` the point kept is not before the one added, and there is something to report. -/
theorem PFailures.add_spec {f : PFailures} {p : Pt} {e : PErr} (hf : ValidPt toks f.point) (hp : ValidPt toks p) :
    p.key ≤ (f.add p e).point.key ∧ f.point.key ≤ (f.add p e).point.key ∧
      (f.kinds ≠ [] ∨ f.point = .zero → (f.add p e).kinds ≠ []) := by
  unfold PFailures.add
  have h1 := hp.lt_iff hf
  have h2 := hf.lt_iff hp
  split
  · rename_i h
    refine ⟨by have := h1.mp h; omega, Nat.le_refl _, ?_⟩
    rintro (h' | h')
    · exact h'
    · rw [h'] at h; simp [Pt.lt, Pt.zero, Pt.subw] at h
  · rename_i h; rw [h1] at h
    split
    · rename_i h'; exact ⟨Nat.le_refl _, by have := h2.mp h'; simp only; omega, by simp⟩
    · exact ⟨by rename_i h'; rw [h2] at h'; simp only; omega, Nat.le_refl _, by simp⟩

theorem PFailures.addAll_kinds {l : Log} : ∀ {f : PFailures}, ValidPt toks f.point → (∀ x ∈ l, ValidPt toks x.1) →
    (f.kinds ≠ [] ∨ f.point = .zero) → ((f.addAll l).kinds ≠ [] ∨ (f.addAll l).point = .zero) := by
  induction l with
  | nil => intro f _ _ h; exact h
  | cons x l ih =>
    intro f hf hl h
    exact ih ((FailsOK.mk hf).add (hl x (by simp))).valid (fun y hy => hl y (by simp [hy]))
      (.inl ((PFailures.add_spec hf (hl x (by simp))).2.2 h))

/-- How the loop ends. -/
def LoopOK (toks : List Token) (Φ : NT → Rel) (p0 : Pt) : ParseResult (List V) → Prop
  | .ok vs => ∃ q, ItemsR toks Φ .Unambiguous p0 q vs ∧ q.sub = none ∧ q.off + 1 = toks.length
  | .err loc errs => errs ≠ [] ∧ ∃ m q vs t, ItemsR toks Φ .Unambiguous p0 m vs ∧ ValidPt toks m ∧ m.sub = none ∧
      toks[q]? = some t ∧ loc = t.extent.s ∧ m.off ≤ q ∧ ∃ q' e a' l, parseItem toks .Unambiguous m = ⟨.fail q' e, a', l⟩
  | .panic => False
  | .hang => False

theorem parseItems_ok (ht : EofLast toks)
    (hc : ∀ nt am p q vs, Btw toks p q → denRule toks (Known Φ) (rules nt) am p q vs → Φ nt am p q vs)
    (clear : Bool) {p0 : Pt} (n : Nat) : ∀ fails pt items, ValidPt toks pt → pt.sub = none → toks.length < n + pt.off →
      ValidPt toks fails.point → (fails.kinds ≠ [] ∨ fails.point = .zero) →
      ItemsR toks Φ .Unambiguous p0 pt items →
      LoopOK toks Φ p0 (parseItems toks clear n fails .Unambiguous pt items) := by
  induction n with
  | zero => intro fails pt items hv _ hn; have := hv.off_lt; omega
  | succ n ih =>
    intro fails pt items hv hs hn hf hfk hi
    unfold parseItems
    obtain ⟨t, htk, -⟩ := id hv
    rw [htk]
    dsimp only
    split
    · rename_i he
      exact ⟨pt, hi, hs, ht.eof_last htk he⟩
    · have h1 := parseItem_run ht hc .Unambiguous pt hv
      have h2 := parseItem_noHang ht .Unambiguous pt hv
      cases hres : parseItem toks .Unambiguous pt with | _ out a' l =>
      rw [hres] at h1 h2
      obtain ⟨rfl, h3, h4⟩ := h1
      cases out with
      | panic => exact h4.elim
      | hang => exact h2.elim
      | ok q vs =>
        obtain ⟨h5, h6, h7⟩ := h4
        obtain ⟨h8, h9⟩ := item_end hs h7
        dsimp only
        rw [if_pos h9]
        refine ih _ q _ h5 h8 (by omega) ?_ ?_ (.snoc hi hv hs h7)
        · split
          · exact ValidPt.of_none ht.pos
          · exact ((FailsOK.mk hf).addAll (fun x hx => (h3 x hx).1)).valid
        · split
          · exact .inr rfl
          · exact PFailures.addAll_kinds hf (fun x hx => (h3 x hx).1) hfk
      | fail q e =>
        have h5 := ((FailsOK.mk hf).addAll (fun x hx => (h3 x hx).1))
        have h6 := (h5.add (e := e) h4.1).valid
        have h7 := PFailures.add_spec (e := e) h5.valid h4.1
        have h8 := h7.2.2 (PFailures.addAll_kinds hf (fun x hx => (h3 x hx).1) hfk)
        dsimp only
        generalize (fails.addAll l).add q e = f at h6 h7 h8 ⊢
        obtain ⟨t', ht', hn'⟩ := id h6
        rw [ht']
        refine ⟨h8, pt, f.point.off, items, t', hi, hv, hs, ht', rfl, ?_, _, _, _, _, hres⟩
        have := h7.1; have := h4.2; have := h6.subw_le
        simp [Pt.key, Pt.subw, hs] at *
        omega

theorem parseTokens_ok (ht : EofLast toks)
    (hc : ∀ nt am p q vs, Btw toks p q → denRule toks (Known Φ) (rules nt) am p q vs → Φ nt am p q vs)
    (clear : Bool) : LoopOK toks Φ .zero (parseTokens toks clear) :=
  parseItems_ok ht hc clear _ _ _ _ (ValidPt.of_none ht.pos) rfl (by simp [Pt.zero]) (ValidPt.of_none ht.pos) (.inr rfl)
    .nil

end
end Verif
