import Verif.Proofs.Nodes
/-!
# Single extents

Every extent in a tree is that of a token, of a part of one, or of the stretch between two points.
-/

namespace Verif
open Spec

/-- `Q` holds of all extents of the values. -/
def Each (Q : Extent → Prop) (vs : List V) : Prop := ∀ e ∈ extsL vs, Q e

namespace Each
variable {Q : Extent → Prop} {vs ws : List V}

theorem nil : Each Q [] := by simp [Each]

theorem append (h : Each Q vs) (h' : Each Q ws) : Each Q (vs ++ ws) := by
  intro e he
  simp at he
  exact he.elim (h e) (h' e)

theorem sub (h : Each Q vs) (h' : ∀ e ∈ extsL ws, e ∈ extsL vs) : Each Q ws := fun e he => h e (h' e he)

theorem one {e : Extent} (h : Q e) : Each Q [.ext e] := by
  intro e' he; simp at he; subst he; exact h

theorem flatten {vss : List (List V)} (h : ∀ v ∈ vss, Each Q v) : Each Q vss.flatten := by
  induction vss with
  | nil => exact nil
  | cons v vss ih => exact (h v (by simp)).append (ih fun w hw => h w (by simp [hw]))

end Each

section
variable {code : Text} {toks : List Token} {Φ : NT → Rel} {Q : Extent → Prop}

/-- What is asked of `Q`. -/
structure Sound (toks : List Token) (Q : Extent → Prop) : Prop where
  tok : ∀ {p q k e}, Btw toks p q → TokStep toks (convTK k) p q e → Q e
  num : ∀ {p q n}, Btw toks p q → TokStep toks convNumber p q n → ∀ e ∈ allExtents (.number n), Q e
  ex : ∀ {p q e}, Btw toks p q → ex toks p q = some e → Q e

variable (hq : Sound toks Q) (hΦ : ∀ nt am p q vs, Φ nt am p q vs → Each Q vs)
include hq hΦ

theorem den_each (g : G) : ∀ a p q vs, den toks Φ g a p q vs → Each Q vs := by
  induction g with
  | eps => rintro a p q vs ⟨-, rfl, rfl⟩; exact .nil
  | tok k => rintro a p q vs ⟨hb, e, h, rfl⟩; exact .one (hq.tok hb h)
  | number =>
    rintro a p q vs ⟨hb, n, h, rfl⟩ e he
    simp only [extsL_cons, extsL_nil, List.append_nil] at he
    exact hq.num hb h e (exts_convertNumber n e he)
  | simpleNumber =>
    rintro a p q vs ⟨hb, n, e, h, h1, rfl⟩
    refine .one (hq.num hb h e ?_)
    unfold Number.intoSimple at h1
    split at h1 <;> simp at h1
    obtain ⟨-, rfl⟩ := h1; simp [allExtents]
  | r n => rintro a p q vs ⟨-, h⟩; exact hΦ n a p q vs h
  | seq x y ihx ihy => rintro a p q vs ⟨m, v, w, h1, h2, rfl⟩; exact (ihx _ _ _ _ h1).append (ihy _ _ _ _ h2)
  | alt x y ihx ihy => intro a p q vs h; exact h.elim (ihx _ _ _ _) (ihy _ _ _ _)
  | opt x ih =>
    rintro a p q vs (⟨v, h, rfl⟩ | ⟨-, -, rfl⟩)
    · exact (ih _ _ _ _ h).sub (by simp)
    · simp [Each]
  | many x ih =>
    rintro a p q vs ⟨vss, h, rfl⟩
    exact (Each.flatten (h.all (fun _ _ _ h => ih _ _ _ _ h))).sub (by simp)
  | tailed k s x _ ih =>
    rintro a p q vs ⟨t, h, rfl⟩
    exact (Each.flatten (h.all (fun _ _ _ h => ih _ _ _ _ h) (by simp))).sub (k.out_exts t)
  | tailed1Values s x _ ih =>
    rintro a p q vs ⟨t, h, rfl⟩
    exact (Each.flatten (h.all (fun _ _ _ h => ih _ _ _ _ h))).sub (TailK.out_exts .values t)
  | resume s x _ ih =>
    rintro a p q vs (⟨-, rfl⟩ | ⟨m, w, t, h1, h, rfl⟩)
    · simp [Each]
    · exact (Each.flatten (h.all (fun _ _ _ h => ih _ _ _ _ h))).sub (by simp)
  | implTailed k i s x _ ih =>
    rintro a p q vs ⟨t, h, rfl⟩
    exact (Each.flatten (h.all (fun _ _ _ h => ih _ _ _ _ h) (by simp))).sub (k.out_exts t)
  | nested o c =>
    rintro a p q vs ⟨m, e0, e, h1, -, h2, -, he, rfl⟩
    exact .one (hq.ex h2 he)
  | ext x ih => rintro a p q vs ⟨v, e, h, he, rfl⟩; exact .one (hq.ex (den_btw _ _ _ _ _ h) he)
  | drop x ih => rintro a p q vs ⟨v, h, rfl⟩; exact .nil
  | map f x ih => rintro a p q vs ⟨v, h, rfl⟩; exact (ih _ _ _ _ h).sub (f.app_exts v)
  | build m x ih =>
    rintro a p q vs ⟨v, e, h, he, rfl⟩ e' he'
    rcases m.app_exts e v e' he' with rfl | h'
    · exact hq.ex (den_btw _ _ _ _ _ h) he
    · exact ih _ _ _ _ h e' h'
  | nodeEmpty k x ih =>
    rintro a p q vs ⟨v, e, h, he, rfl⟩ e' he'
    simp at he'
    rcases he' with rfl | h'
    · exact hq.ex (.refl (den_btw _ _ _ _ _ h).1) he
    · exact ih _ _ _ _ h e' h'
  | mapErr e x ih => intro a p q vs h; exact ih _ _ _ _ h
  | peek x ih => rintro a p q vs ⟨-, -, m, h⟩; exact ih _ _ _ _ h
  | amb l x ih => intro a p q vs h; exact ih _ _ _ _ h
  | ifAmbiguous x y ihx ihy =>
    intro a p q vs h
    simp only [den] at h
    split at h
    · exact ihx _ _ _ _ h
    · exact ihy _ _ _ _ h
  | notMaximum x ih => rintro a p q vs ⟨-, h⟩; exact ih _ _ _ _ h

theorem TableR.each {α : Type} {t : (α × G) × List (α × G)} {am p q op payload} (h : TableR toks Φ t am p q op payload) :
    Each Q payload := by
  obtain ⟨g, -, h⟩ := h
  exact den_each hq hΦ g _ _ _ _ h

theorem AttrR.each {R : Pt → Pt → Prop} {am p q e attrs} (h : AttrR toks Φ R am p q e attrs) : Each Q attrs := by
  obtain ⟨m, vss, h, -, -, rfl⟩ := h
  exact Each.flatten (h.all (fun _ _ _ h => den_each hq hΦ (.r .attribute) _ _ _ _ h))

theorem AtomR.each {am p q v} (h : AtomR toks Φ am p q v) : Each Q [v] := by
  obtain ⟨e, attrs, vs, h, rfl⟩ := h
  have h1 := AttrR.each hq hΦ h
  obtain ⟨m, vss, h2, h3, he, -⟩ := h
  have h4 := den_each hq hΦ (.r .expression_atom) _ _ _ _ h3
  have hb := (h2.btw (fun _ _ _ h => den_btw _ _ _ _ _ h)).trans (den_btw _ _ _ _ _ h3)
  intro e' he'
  simp at he'
  rcases he' with rfl | h' | h'
  · exact hq.ex hb he
  · exact h1 e' h'
  · exact h4 e' h'

theorem prefix_each (hs : Src code toks) {am p m q e attrs op payload inner} {o : Option V}
    (h : PrefixR toks Φ am p m e attrs op payload) (hb : Btw toks m q) (ho : Each Q o.toList) (he : ex toks p q = some inner) :
    Each Q [mkAttributed ⟨e.s, inner.e⟩ attrs (op.mk payload inner o)] := by
  have h1 := AttrR.each hq hΦ h
  have hpm := h.btw
  obtain ⟨m', vss, h2, h3, he', -⟩ := h
  have h4 := TableR.each hq hΦ h3
  have h5 := hs.ex_range hpm he'
  have h6 := hs.ex_range (hpm.trans hb) he
  have h7 : (⟨e.s, inner.e⟩ : Extent) = inner := by
    rw [h5.1, ← h6.1]
  rw [h7]
  have h8 := hq.ex (hpm.trans hb) he
  intro x hx
  simp at hx
  rcases hx with rfl | hx | hx
  · exact h8
  · exact h1 x hx
  · rcases op.mk_exts _ _ _ x hx with rfl | h' | h'
    · exact h8
    · exact h4 x h'
    · exact ho x h'

theorem OperandR.each (hs : Src code toks) {a am p q v} (h : OperandR toks Φ a am p q v) : Each Q [v] := by
  induction h with
  | atom h => exact AtomR.each hq hΦ h
  | pre h h' he ih => exact prefix_each hq hΦ hs h h'.btw ih he

theorem OpenRangeR.each (hs : Src code toks) {a p q v} (h : OpenRangeR toks Φ a p q v) : Each Q [v] := by
  induction h with
  | last h hr he => exact prefix_each hq hΦ hs h (.refl h.btw.2.1) (by simp [Each]) he
  | pre h h' he ih => exact prefix_each hq hΦ hs h h'.btw ih he

omit hq hΦ in
theorem postfix_each {v : V} {op : PostfixOp} {payload : List V} {e : Extent} (hv : Each Q [v]) (hp : Each Q payload) (he : Q e) :
    Each Q [op.mk payload e v] := by
  intro e' he'
  simp only [extsL_cons, extsL_nil, List.append_nil] at he'
  rcases op.mk_exts _ _ _ e' he' with rfl | h | h
  · exact he
  · exact hp e' h
  · exact hv e' (by simpa using h)

omit hq hΦ in
theorem infix_each {l : V} {o : Option V} {op : InfixOp} {payload : List V} {e : Extent} (hl : Each Q [l]) (ho : Each Q o.toList)
    (hp : Each Q payload) (he : Q e) : Each Q [op.mk payload e l o] := by
  intro e' he'
  simp only [extsL_cons, extsL_nil, List.append_nil] at he'
  rcases InfixOp.mk_exts _ _ _ _ _ e' he' with rfl | h | h | h
  · exact he
  · exact hp e' h
  · exact hl e' (by simpa using h)
  · exact ho e' h

theorem LeftR.each (hs : Src code toks) {stmt a p q v} (h : LeftR toks Φ stmt a p q v) : Each Q [v] := by
  induction h with
  | operand h => exact OperandR.each hq hΦ hs h
  | post h _ h' he ih => exact postfix_each ih (TableR.each hq hΦ h') (hq.ex (h.btw.trans h'.btw) he)
  | limited h h' he ih => exact postfix_each ih (TableR.each hq hΦ h') (hq.ex (h.btw.trans h'.btw) he)
  | «infix» h _ h' h'' he ih =>
    exact infix_each ih (OperandR.each hq hΦ hs h'') (TableR.each hq hΦ h') (hq.ex (h.btw.trans (h'.btw.trans h''.btw)) he)

theorem ExprR.each (hs : Src code toks) {stmt a p q v} (h : ExprR toks Φ stmt a p q v) : Each Q [v] := by
  cases h with
  | left h => exact LeftR.each hq hΦ hs h
  | openInfix h _ h' hr he =>
    exact infix_each (LeftR.each hq hΦ hs h) (by simp [Each]) (TableR.each hq hΦ h') (hq.ex (h.btw.trans h'.btw) he)
  | openPrefix h => exact OpenRangeR.each hq hΦ hs h

theorem denRule_each (hs : Src code toks) (nt : NT) (a : Amb) (p q : Pt) (vs : List V)
    (h : denRule toks Φ (rules nt) a p q vs) : Each Q vs := by
  generalize rules nt = r at h
  cases r with
  | g g => exact den_each hq hΦ g _ _ _ _ h
  | expr stmt => obtain ⟨v, -, h, rfl⟩ := h; exact ExprR.each hq hΦ hs h

end

theorem each_inductive {code : Text} {toks : List Token} {Q : Extent → Prop} (hs : Src code toks) (hq : Sound toks Q) :
    Inductive toks (fun _ _ _ _ vs => Each Q vs) :=
  fun nt _ _ _ _ _ h => denRule_each hq (fun _ _ _ _ _ h => h.2.2) hs nt _ _ _ _ h

theorem ItemsR.each {toks : List Token} {Q : Extent → Prop} (hq : Sound toks Q) {a p q vs}
    (h : ItemsR toks (Full toks (fun _ _ _ _ vs => Each Q vs)) a p q vs) : Each Q vs := by
  induction h with
  | nil => exact .nil
  | snoc _ _ _ h ih => exact ih.append (den_each hq (fun _ _ _ _ _ h => h.2.2.2.1) itemG _ _ _ _ h)

theorem Sound.true {toks : List Token} : Sound toks (fun _ => True) := ⟨fun _ _ => trivial, fun _ _ _ _ => trivial, fun _ _ => trivial⟩

end Verif
