import Verif.Proofs.ShuntDen
/-!
# The meaning of a rule is monotone in the meaning of the nonterminals
-/

namespace Verif
section
variable {toks : List Token} {α : Type}

theorem Star.mono {R R' : Pt → Pt → α → Prop} (h : ∀ p q v, R p q v → R' p q v) {p q vs} (hs : Star toks R p q vs) :
    Star toks R' p q vs := by
  induction hs with
  | nil h => exact .nil h
  | cons h1 _ ih => exact .cons (h _ _ _ h1) ih

variable {S S' : Pt → Pt → Prop} {R R' : Pt → Pt → α → Prop} (hS : ∀ p q, S p q → S' p q)
  (hR : ∀ p q v, R p q v → R' p q v)
include hS hR

theorem TailR.mono {es er : Bool} {p t q t'} (h : TailR toks es er S R p t q t') : TailR toks es er S' R' p t q t' := by
  induction h with
  | stop h => exact .stop h
  | last h h' => exact .last (hR _ _ _ h) h'
  | more h h' _ ih => exact .more (hR _ _ _ h) (hS _ _ h') ih

theorem ImplR.mono {es er : Bool} {i p t q t'} (h : ImplR toks es er i S R p t q t') : ImplR toks es er i S' R' p t q t' := by
  induction h with
  | stop h => exact .stop h
  | last h h1 h' => exact .last (hR _ _ _ h) h1 h'
  | implicit h h1 h' _ ih => exact .implicit (hR _ _ _ h) h1 h' ih
  | more h h' _ ih => exact .more (hR _ _ _ h) (hS _ _ h') ih

theorem TailR1.mono {es er : Bool} {p q t} (h : TailR1 toks es er S R p q t) : TailR1 toks es er S' R' p q t := by
  cases h with
  | one h h' => exact .one (hR _ _ _ h) h'
  | more h h' h'' => exact .more (hR _ _ _ h) (hS _ _ h') (h''.mono hS hR)

end

section
variable {toks : List Token} {Φ Φ' : NT → Rel} (hΦ : ∀ nt am p q vs, Φ nt am p q vs → Φ' nt am p q vs)
include hΦ

theorem den_mono (g : G) : ∀ a p q vs, den toks Φ g a p q vs → den toks Φ' g a p q vs := by
  induction g with
  | eps | tok | number | simpleNumber | nested => intro a p q vs h; exact h
  | r n => rintro a p q vs ⟨h1, h⟩; exact ⟨h1, hΦ _ _ _ _ _ h⟩
  | seq x y ihx ihy => rintro a p q vs ⟨m, v, w, h1, h2, h3⟩; exact ⟨m, v, w, ihx _ _ _ _ h1, ihy _ _ _ _ h2, h3⟩
  | alt x y ihx ihy => intro a p q vs h; exact h.imp (ihx _ _ _ _) (ihy _ _ _ _)
  | opt x ih => intro a p q vs h; exact h.imp (fun ⟨v, h1, h2⟩ => ⟨v, ih _ _ _ _ h1, h2⟩) id
  | many x ih => rintro a p q vs ⟨vss, h1, h2⟩; exact ⟨vss, h1.mono (fun _ _ _ h => ih _ _ _ _ h), h2⟩
  | tailed k s x ihs ih =>
    rintro a p q vs ⟨t, h1, h2⟩
    exact ⟨t, h1.mono (fun _ _ ⟨w, h⟩ => ⟨w, ihs _ _ _ _ h⟩) (fun _ _ _ h => ih _ _ _ _ h), h2⟩
  | implTailed k i s x ihs ih =>
    rintro a p q vs ⟨t, h1, h2⟩
    exact ⟨t, h1.mono (fun _ _ ⟨w, h⟩ => ⟨w, ihs _ _ _ _ h⟩) (fun _ _ _ h => ih _ _ _ _ h), h2⟩
  | tailed1Values s x ihs ih =>
    rintro a p q vs ⟨t, h1, h2⟩
    exact ⟨t, h1.mono (fun _ _ ⟨w, h⟩ => ⟨w, ihs _ _ _ _ h⟩) (fun _ _ _ h => ih _ _ _ _ h), h2⟩
  | resume s x ihs ih =>
    rintro a p q vs (h | ⟨m, w, t, h0, h1, h2⟩)
    · exact .inl h
    · exact .inr ⟨m, w, t, ihs _ _ _ _ h0,
        h1.mono (fun _ _ ⟨w, h⟩ => ⟨w, ihs _ _ _ _ h⟩) (fun _ _ _ h => ih _ _ _ _ h), h2⟩
  | ext x ih => rintro a p q vs ⟨v, e, h, h'⟩; exact ⟨v, e, ih _ _ _ _ h, h'⟩
  | drop x ih => rintro a p q vs ⟨v, h, h'⟩; exact ⟨v, ih _ _ _ _ h, h'⟩
  | map f x ih => rintro a p q vs ⟨v, h, h'⟩; exact ⟨v, ih _ _ _ _ h, h'⟩
  | build m x ih => rintro a p q vs ⟨v, e, h, h'⟩; exact ⟨v, e, ih _ _ _ _ h, h'⟩
  | nodeEmpty k x ih => rintro a p q vs ⟨v, e, h, h'⟩; exact ⟨v, e, ih _ _ _ _ h, h'⟩
  | mapErr e x ih => intro a p q vs h; exact ih _ _ _ _ h
  | peek x ih => rintro a p q vs ⟨h1, h2, m, h⟩; exact ⟨h1, h2, m, ih _ _ _ _ h⟩
  | amb l x ih => intro a p q vs h; exact ih _ _ _ _ h
  | ifAmbiguous x y ihx ihy =>
    intro a p q vs h
    simp only [den] at h ⊢
    split at h
    · rename_i h'; rw [if_pos h']; exact ihx _ _ _ _ h
    · rename_i h'; rw [if_neg h']; exact ihy _ _ _ _ h
  | notMaximum x ih => rintro a p q vs ⟨h1, h⟩; exact ⟨h1, ih _ _ _ _ h⟩

theorem TableR.mono {β : Type} {t : (β × G) × List (β × G)} {am p q op payload}
    (h : TableR toks Φ t am p q op payload) : TableR toks Φ' t am p q op payload := by
  obtain ⟨g, hg, h⟩ := h
  exact ⟨g, hg, den_mono hΦ g _ _ _ _ h⟩

theorem AttrR.mono {R R' : Pt → Pt → Prop} (hR : ∀ p q, R p q → R' p q) {am p q e attrs}
    (h : AttrR toks Φ R am p q e attrs) : AttrR toks Φ' R' am p q e attrs := by
  obtain ⟨m, vss, h1, h2, h3⟩ := h
  exact ⟨m, vss, h1.mono (fun _ _ _ h => den_mono hΦ _ _ _ _ _ h), hR _ _ h2, h3⟩

theorem PrefixR.mono {am p q e attrs op payload} (h : PrefixR toks Φ am p q e attrs op payload) :
    PrefixR toks Φ' am p q e attrs op payload := AttrR.mono hΦ (fun _ _ h => TableR.mono hΦ h) h

theorem AtomR.mono {am p q v} (h : AtomR toks Φ am p q v) : AtomR toks Φ' am p q v := by
  obtain ⟨e, attrs, vs, h, h'⟩ := h
  exact ⟨e, attrs, vs, AttrR.mono hΦ (fun _ _ h => den_mono hΦ _ _ _ _ _ h) h, h'⟩

theorem OperandR.mono {a am p q v} (h : OperandR toks Φ a am p q v) : OperandR toks Φ' a am p q v := by
  induction h with
  | atom h => exact .atom (AtomR.mono hΦ h)
  | pre h _ he ih => exact .pre (PrefixR.mono hΦ h) ih he

theorem OpenRangeR.mono {a p q v} (h : OpenRangeR toks Φ a p q v) : OpenRangeR toks Φ' a p q v := by
  induction h with
  | last h hr he => exact .last (PrefixR.mono hΦ h) hr he
  | pre h _ he ih => exact .pre (PrefixR.mono hΦ h) ih he

theorem LeftR.mono {stmt a p q v} (h : LeftR toks Φ stmt a p q v) : LeftR toks Φ' stmt a p q v := by
  induction h with
  | operand h => exact .operand (OperandR.mono hΦ h)
  | post _ h1 h2 he ih => exact .post ih h1 (TableR.mono hΦ h2) he
  | limited _ h2 he ih => exact .limited ih (TableR.mono hΦ h2) he
  | «infix» _ h1 h2 h3 he ih => exact .infix ih h1 (TableR.mono hΦ h2) (OperandR.mono hΦ h3) he

theorem ExprR.mono {stmt a p q v} (h : ExprR toks Φ stmt a p q v) : ExprR toks Φ' stmt a p q v := by
  cases h with
  | left h => exact .left (LeftR.mono hΦ h)
  | openInfix h h1 h2 hr he => exact .openInfix (LeftR.mono hΦ h) h1 (TableR.mono hΦ h2) hr he
  | openPrefix h => exact .openPrefix (OpenRangeR.mono hΦ h)

theorem denRule_mono (r : Rule) {a p q vs} (h : denRule toks Φ r a p q vs) : denRule toks Φ' r a p q vs := by
  cases r with
  | g g => exact den_mono hΦ g _ _ _ _ h
  | expr s => obtain ⟨v, h1, h2, h3⟩ := h; exact ⟨v, h1, ExprR.mono hΦ h2, h3⟩

end
end Verif
