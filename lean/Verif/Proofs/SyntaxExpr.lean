import Verif.Proofs.SyntaxDen
/-!
# How expressions are written
-/

namespace Verif
open Verif.Spec

/-- How a prefix operator is written. -/
def PrefixOp.frm : PrefixOp → List Frm
  | .RangeInclusive => one .plain
  | .RangeExclusive => [[.t .DoublePeriod]]
  | .Dereference => [[.t .Asterisk]]
  | .Not => [[.t .Bang]]
  | .Negate => [[.t .Minus]]
  | .Reference => [[.t .Ampersand, .f 0 (.opt [] (.tok [.Mut]) [])]]
  | .Box => [[.t .Box]]

/-- How an infix operator is written. -/
def InfixOp.frm : InfixOp → List Frm
  | .binary b => variantSyntax .plain b
  | .RangeInclusive => one .plain
  | .RangeExclusive => [[.t .DoublePeriod]]

/-- How a postfix operator is written. -/
def PostfixOp.frm : PostfixOp → List Frm
  | .AsType => [[.t .As, .f 0 (.val .single)]]
  | .Ascription => [[.t .Colon, .f 0 (.val .plain)]]
  | .Call => [[.t .LeftParen, .f 0 (.sep true .Comma (.val .plain)), .t .RightParen]]
  | .FieldAccess => [[.t .Period, .f 0 (.val .plain)]]
  | .Slice => [[.t .LeftSquare, .f 0 (.val .plain), .t .RightSquare]]
  | .Try => [[.t .QuestionMark]]

/-- The operators of a table are written so. -/
def writtenTable {α : Type} (f : α → List Frm) (t : (α × G) × List (α × G)) : Bool :=
  (t.1 :: t.2).all fun (op, g) => (g.sty NT.sty).isSome &&
    match g.forms NT.forms with | some xs => Form.allLe xs (f op) | none => false

theorem prefixTable_written : writtenTable PrefixOp.frm prefixTable = true := by decide +kernel
theorem infixTable_written : writtenTable InfixOp.frm infixTable = true := by decide +kernel
theorem postfixTable_written : writtenTable PostfixOp.frm postfixTable = true := by decide +kernel
theorem limitedTable_written : writtenTable PostfixOp.frm limitedTable = true := by decide +kernel

section
variable {toks : List Token}

theorem expr_spells {t : Tag} {k : K} {e : Extent} {form : Frm} {vs : List V} {ts : List Token}
    (ht : [.f 0 (.val .plain)] ∈ variantSyntax .plain t) (hf : form ∈ Spec.forms .plain k)
    (h : Spells toks (.form e form vs) ts) (hx : Extends toks k e ts) :
    Spells toks (.one (.val .plain) (.enm t [.node k e [] vs])) ts :=
  .enm (e := e) ht (.form_one rfl (.node hf h hx))

theorem attributed_spells {e : Extent} {attrs : List V} {v : V} {a b : List Token} (ha : Spells toks (.rep [] (.val .plain) [] attrs) a)
    (h : Spells toks (.one (.val .plain) v) b) (hx : Spans toks e (a ++ b)) :
    Spells toks (.one (.val .plain) (mkAttributed e attrs v)) (a ++ b) := by
  refine .node (form := [.f 0 (.many [] (.val .plain) []), .f 1 (.val .plain)]) (by decide +kernel) ?_ (hx.extends rfl)
  exact .f (vs := [.list attrs, v]) rfl (.many ha) (.form_one rfl h)

theorem intoAttributed_spells {t : Tag} {k : K} {e : Extent} {form : Frm} {vs : List V} {ts : List Token}
    (ht : [.f 0 (.val .plain)] ∈ variantSyntax .plain t) (hf : form ∈ Spec.forms .plain k)
    (h : Spells toks (.form e form vs) ts) (hx : Spans toks e ts) (hk : emptyExtent k = false) :
    Spells toks (.one (.val .plain) (intoAttributed t k e vs)) ts :=
  attributed_spells (a := []) .repNil (expr_spells ht hf h (hx.extends hk)) hx

/-- An operand that may be left out. -/
theorem operand_spells {o : Option V} {ts : List Token} (h : ∀ v, o = some v → Spells toks (.one (.val .plain) v) ts)
    (h' : o = none → ts = []) : Spells toks (.one (.opt [] (.val .plain) []) (.list o.toList)) ts := by
  cases o with
  | none => rw [h' rfl]; exact .absent
  | some v =>
    have := Spells.present (pre := []) (post := []) (a := []) (c := []) rfl (h v rfl) rfl
    simpa using this

theorem present_spells {m : Mode} {v : V} {ts : List Token} (h : Spells toks (.one m v) ts) :
    Spells toks (.one (.opt [] m []) (.list [v])) ts := by
  have := Spells.present (pre := []) (post := []) (a := []) (c := []) rfl h rfl
  simpa using this

variable {p m q : Pt}

theorem Written.tok {k : TK} {vs : List V} (h : Written toks [[.t k]] p q vs) : ∃ e, Path toks p q [.plain k e] := by
  obtain ⟨ts, hp, h⟩ := h.single
  have := h ⟨0, 0⟩
  cases this with
  | t h' => cases h'; exact ⟨_, hp⟩

theorem PrefixOp.mk_spells {op : PrefixOp} {payload : List V} {e : Extent} {o : Option V} {ts : List Token}
    (hp : hasTys payload op.payload = true) (h : Written toks op.frm p m payload)
    (hq : Path toks m q ts) (ho : ∀ v, o = some v → Spells toks (.one (.val .plain) v) ts) (hn : o = none → op.isRange = true ∧ ts = [])
    (hx : ∀ us, Path toks p q us → ∃ attributes, Spans toks e (attributes ++ us)) :
    ∃ us, Path toks p q us ∧ Spells toks (.one (.val .plain) (op.mk payload e o)) us := by
  have h2 := operand_spells ho (fun h => (hn h).2)
  cases op with
  | RangeInclusive =>
    obtain ⟨w, rfl, -⟩ := hasTys_one hp
    obtain ⟨us, hp, h⟩ := h.mode
    refine ⟨_, hp.append hq, expr_spells (form := [.f 0 (.opt [] (.val .plain) []), .f 1 (.val .plain), .f 2 (.opt [] (.val .plain) [])])
      (by decide +kernel) (by decide +kernel) ?_ (.of_prefix rfl (hx _ (hp.append hq)))⟩
    exact .f (a := []) (v := .list []) rfl .absent (.f (v := w) rfl h (.form_one rfl h2))
  | RangeExclusive =>
    obtain ⟨e', hp⟩ := h.tok
    refine ⟨_, hp.append hq, expr_spells (form := [.f 0 (.opt [] (.val .plain) []), .t .DoublePeriod, .f 1 (.opt [] (.val .plain) [])])
      (by decide +kernel) (by decide +kernel) ?_ (.of_prefix rfl (hx _ (hp.append hq)))⟩
    exact .f (a := []) (v := .list []) rfl .absent (.t (.form_one rfl h2))
  | Dereference =>
    obtain ⟨e', hp⟩ := h.tok
    cases o with
    | none => cases (hn rfl).1
    | some v =>
      refine ⟨_, hp.append hq, expr_spells (form := [.t .Asterisk, .f 0 (.val .plain)]) (by decide +kernel) (by decide +kernel) ?_ (.of_prefix rfl (hx _ (hp.append hq)))⟩
      exact .t (.form_one rfl (ho v rfl))
  | Box =>
    obtain ⟨e', hp⟩ := h.tok
    cases o with
    | none => cases (hn rfl).1
    | some v =>
      refine ⟨_, hp.append hq, expr_spells (form := [.t .Box, .f 0 (.val .plain)]) (by decide +kernel) (by decide +kernel) ?_ (.of_prefix rfl (hx _ (hp.append hq)))⟩
      exact .t (.form_one rfl (ho v rfl))
  | Not =>
    obtain ⟨e', hp⟩ := h.tok
    cases o with
    | none => cases (hn rfl).1
    | some v =>
      refine ⟨_, hp.append hq, expr_spells (form := [.f 0 (.val .plain), .f 1 (.val .plain)]) (by decide +kernel) (by decide +kernel) ?_ (.of_prefix rfl (hx _ (hp.append hq)))⟩
      exact .f rfl (.enm (e := e) (form := [.t .Bang]) (by decide +kernel) (.t .done)) (.form_one rfl (ho v rfl))
  | Negate =>
    obtain ⟨e', hp⟩ := h.tok
    cases o with
    | none => cases (hn rfl).1
    | some v =>
      refine ⟨_, hp.append hq, expr_spells (form := [.f 0 (.val .plain), .f 1 (.val .plain)]) (by decide +kernel) (by decide +kernel) ?_ (.of_prefix rfl (hx _ (hp.append hq)))⟩
      exact .f rfl (.enm (e := e) (form := [.t .Minus]) (by decide +kernel) (.t .done)) (.form_one rfl (ho v rfl))
  | Reference =>
    obtain ⟨w, rfl, -⟩ := hasTys_one hp
    obtain ⟨us, hp, h⟩ := h.single
    cases o with
    | none => cases (hn rfl).1
    | some v =>
      refine ⟨_, hp.append hq, expr_spells (form := [.t .Ampersand, .f 0 (.opt [] (.tok [.Mut]) []), .f 1 (.val .plain)])
        (by decide +kernel) (by decide +kernel) ?_ (.of_prefix rfl (hx _ (hp.append hq)))⟩
      have h3 := h e
      cases h3 with
      | t h3 =>
        obtain ⟨x, hx, h3⟩ := h3.form_one_inv
        simp at hx; subst hx
        exact .t (.f rfl h3 (.form_one rfl (ho v rfl)))

theorem InfixOp.mk_spells {op : InfixOp} {payload : List V} {e : Extent} {l : V} {o : Option V} {as bs : List Token} {r : Pt}
    (hp : hasTys payload op.payload = true) (h : Written toks op.frm m q payload)
    (hl : Path toks p m as) (hl' : Spells toks (.one (.val .plain) l) as)
    (hq : Path toks q r bs) (ho : ∀ v, o = some v → Spells toks (.one (.val .plain) v) bs) (hn : o = none → op.isRange = true ∧ bs = [])
    (he : ex toks p r = some e) : ∃ us, Path toks p r us ∧ Spells toks (.one (.val .plain) (op.mk payload e l o)) us := by
  have h2 := operand_spells ho (fun h => (hn h).2)
  cases op with
  | binary b =>
    have := hasTys_nil (show hasTys payload [] = true from hp)
    subst this
    obtain ⟨x, hx, us, hp, h⟩ := h
    cases o with
    | none => cases (hn rfl).1
    | some v =>
      refine ⟨_, hl.append (hp.append hq), intoAttributed_spells (form := [.f 1 (.val .plain), .f 0 (.val .plain), .f 2 (.val .plain)])
        (by decide +kernel) (by decide +kernel) ?_ ((hl.append (hp.append hq)).spans he) rfl⟩
      exact .f rfl hl' (.f rfl (.enm hx (h e)) (.form_one rfl (ho v rfl)))
  | RangeInclusive =>
    obtain ⟨w, rfl, -⟩ := hasTys_one hp
    obtain ⟨us, hp, h⟩ := h.mode
    refine ⟨_, hl.append (hp.append hq), intoAttributed_spells
      (form := [.f 0 (.opt [] (.val .plain) []), .f 1 (.val .plain), .f 2 (.opt [] (.val .plain) [])])
      (by decide +kernel) (by decide +kernel) ?_ ((hl.append (hp.append hq)).spans he) rfl⟩
    exact .f rfl (present_spells hl') (.f (v := w) rfl h (.form_one rfl h2))
  | RangeExclusive =>
    obtain ⟨e', hp⟩ := h.tok
    refine ⟨_, hl.append (hp.append hq), intoAttributed_spells
      (form := [.f 0 (.opt [] (.val .plain) []), .t .DoublePeriod, .f 1 (.opt [] (.val .plain) [])])
      (by decide +kernel) (by decide +kernel) ?_ ((hl.append (hp.append hq)).spans he) rfl⟩
    exact .f rfl (present_spells hl') (.t (.form_one rfl h2))

/-- A struct of an operand and what follows it. -/
theorem postfix_spells {t : Tag} {k : K} {e : Extent} {l : V} {payload : List V} {x : Frm} {as bs : List Token}
    (ht : [.f 0 (.val .plain)] ∈ variantSyntax .plain t) (hf : .f 0 (.val .plain) :: x.map (shiftItem 1) ∈ Spec.forms .plain k)
    (hl : Spells toks (.one (.val .plain) l) as) (h : ∀ e, Spells toks (.form e x payload) bs) (hx : Spans toks e (as ++ bs))
    (hk : emptyExtent k = false) : Spells toks (.one (.val .plain) (intoAttributed t k e (l :: payload))) (as ++ bs) :=
  intoAttributed_spells ht hf (.f rfl hl ((h e).form_right (vs := [l]) rfl)) hx hk

theorem PostfixOp.mk_spells {op : PostfixOp} {payload : List V} {e : Extent} {l : V} {as : List Token}
    (h : Written toks op.frm m q payload)
    (hl : Path toks p m as) (hl' : Spells toks (.one (.val .plain) l) as) (he : ex toks p q = some e) :
    ∃ us, Path toks p q us ∧ Spells toks (.one (.val .plain) (op.mk payload e l)) us := by
  cases op <;> obtain ⟨bs, hp, h⟩ := h.single <;>
    exact ⟨_, hl.append hp, postfix_spells (by decide +kernel) (by decide +kernel) hl' h
      ((hl.append hp).spans he) rfl⟩

end

section
variable {toks : List Token} {Φ : NT → Rel} (hΦ : ∀ nt am p q vs, Φ nt am p q vs → hasS vs nt.sty = true)
  (hW : ∀ nt am p q vs, Φ nt am p q vs → Written toks nt.forms p q vs)
include hΦ hW

theorem TableR.written {α : Type} {f : α → List Frm} {t : (α × G) × List (α × G)} (ht : writtenTable f t = true)
    {am p q op payload} (h : TableR toks Φ t am p q op payload) : Written toks (f op) p q payload := by
  obtain ⟨g, hg, h⟩ := h
  have := List.all_eq_true.mp ht _ hg
  simp only [Bool.and_eq_true, Option.isSome_iff_exists] at this
  obtain ⟨⟨ss, hs⟩, hg'⟩ := this
  split at hg'
  · next xs hx => exact (den_forms hΦ hW g ss hs xs hx _ _ _ _ h).le hg'
  · cases hg'

omit hΦ hW in
theorem ex_start {p m q : Pt} {e e' : Extent} (h : ex toks p m = some e) (h' : ex toks p q = some e') : e.s = e'.s := by
  unfold ex at h h'
  split at h
  · cases h
  · next t ht =>
    rw [ht] at h'
    dsimp only at h h'
    have a : ∀ {m : Pt} {e : Extent}, (if p.off < m.off then
        match toks[m.off - 1]? with
        | none => none
        | some u => some (⟨t.extent.s + p.subw, u.extent.e + m.subw⟩ : Extent)
      else if p.off = m.off then if p.subw < m.subw then some ⟨t.extent.s + p.subw, t.extent.s + m.subw⟩
        else if p.subw = m.subw then some ⟨t.extent.s + p.subw, t.extent.s + p.subw⟩ else none
      else none) = some e → e.s = t.extent.s + p.subw := by
      intro m e h
      repeat' split at h
      all_goals cases h
      all_goals rfl
    rw [a h, a h']

theorem AttrR.spells {R : Pt → Pt → Prop} {am p q e attrs} (h : AttrR toks Φ R am p q e attrs) :
    ∃ m ts, R m q ∧ Path toks p m ts ∧ Spells toks (.rep [] (.val .plain) [] attrs) ts ∧ ex toks p q = some e := by
  obtain ⟨m, vss, h, hr, he, rfl⟩ := h
  obtain ⟨ts, hp, hs⟩ := h.spells (pre := []) (m := .val .plain) (post := []) fun p q v h => by
    have hl := hasS_length (hΦ _ _ _ _ _ h.2)
    have hl' : v.length = 1 := hl.trans (by decide +kernel)
    match v, hl' with
    | [v], _ =>
      obtain ⟨ts, hp, hs⟩ := Written.mode (m := .val .plain) (hW .attribute _ _ _ _ h.2)
      exact ⟨v, [], ts, [], rfl, by simpa using hp, rfl, hs, rfl⟩
  exact ⟨m, ts, hr, hp, hs, he⟩

theorem AtomR.spells {am p q v} (h : AtomR toks Φ am p q v) : ∃ ts, Path toks p q ts ∧ Spells toks (.one (.val .plain) v) ts := by
  obtain ⟨e, attrs, vs, h, rfl⟩ := h
  obtain ⟨m, ts, ⟨-, hr⟩, hp, hs, he⟩ := AttrR.spells hΦ hW h
  have hl' : vs.length = 1 := (hasS_length (hΦ _ _ _ _ _ hr)).trans (by decide +kernel)
  match vs, hl' with
  | [v], _ =>
    obtain ⟨us, hp', hs'⟩ := Written.mode (m := .val .plain) (hW .expression_atom _ _ _ _ hr)
    exact ⟨_, hp.append hp', attributed_spells hs hs' ((hp.append hp').spans he)⟩

theorem PrefixR.spells {am p m q e attrs op payload o ts inner} (h : PrefixR toks Φ am p m e attrs op payload)
    (hq : Path toks m q ts) (ho : ∀ v, o = some v → Spells toks (.one (.val .plain) v) ts)
    (hn : o = none → op.isRange = true ∧ ts = []) (hi : ex toks p q = some inner) :
    ∃ us, Path toks p q us ∧ Spells toks (.one (.val .plain) (mkAttributed ⟨e.s, inner.e⟩ attrs (op.mk payload inner o))) us := by
  obtain ⟨m', as, ht, hp, hs, he⟩ := AttrR.spells hΦ hW h
  have hei : (⟨e.s, inner.e⟩ : Extent) = inner := by rw [ex_start he hi]
  obtain ⟨us, hp', hs'⟩ := PrefixOp.mk_spells (e := inner) (TableR.sty hΦ prefixTable_typed ht)
    (TableR.written hΦ hW prefixTable_written ht) hq ho hn (fun us hu => ⟨as, (hp.append hu).spans hi⟩)
  exact ⟨_, hp.append hp', attributed_spells hs hs' (by rw [hei]; exact (hp.append hp').spans hi)⟩

theorem OperandR.spells {a am p q v} (h : OperandR toks Φ a am p q v) :
    ∃ ts, Path toks p q ts ∧ Spells toks (.one (.val .plain) v) ts := by
  induction h with
  | atom h => exact AtomR.spells hΦ hW h
  | pre h _ hi ih =>
    obtain ⟨ts, hp, hs⟩ := ih
    exact PrefixR.spells hΦ hW (o := some _) h hp (by rintro _ ⟨⟩; exact hs) (by rintro ⟨⟩) hi

theorem OpenRangeR.spells {a p q v} (h : OpenRangeR toks Φ a p q v) :
    ∃ ts, Path toks p q ts ∧ Spells toks (.one (.val .plain) v) ts := by
  induction h with
  | last h hr hi => exact PrefixR.spells hΦ hW (o := none) h .nil (by rintro _ ⟨⟩) (fun _ => ⟨hr, rfl⟩) hi
  | pre h _ hi ih =>
    obtain ⟨ts, hp, hs⟩ := ih
    exact PrefixR.spells hΦ hW (o := some _) h hp (by rintro _ ⟨⟩; exact hs) (by rintro ⟨⟩) hi

theorem LeftR.spells {stmt a p q v} (h : LeftR toks Φ stmt a p q v) :
    ∃ ts, Path toks p q ts ∧ Spells toks (.one (.val .plain) v) ts := by
  induction h with
  | operand h => exact OperandR.spells hΦ hW h
  | post h _ h' he ih =>
    obtain ⟨ts, hp, hs⟩ := ih
    exact PostfixOp.mk_spells (TableR.written hΦ hW postfixTable_written h') hp hs he
  | limited h h' he ih =>
    obtain ⟨ts, hp, hs⟩ := ih
    exact PostfixOp.mk_spells (TableR.written hΦ hW limitedTable_written h') hp hs he
  | «infix» h _ h' h'' he ih =>
    obtain ⟨ts, hp, hs⟩ := ih
    obtain ⟨us, hp', hs'⟩ := OperandR.spells hΦ hW h''
    exact InfixOp.mk_spells (TableR.sty hΦ infixTable_typed h') (TableR.written hΦ hW infixTable_written h') hp hs hp'
      (by rintro _ ⟨⟩; exact hs') (by rintro ⟨⟩) he

theorem ExprR.spells {stmt a p q v} (h : ExprR toks Φ stmt a p q v) :
    ∃ ts, Path toks p q ts ∧ Spells toks (.one (.val .plain) v) ts := by
  cases h with
  | left h => exact LeftR.spells hΦ hW h
  | openInfix h _ h' hr he =>
    obtain ⟨ts, hp, hs⟩ := LeftR.spells hΦ hW h
    exact InfixOp.mk_spells (TableR.sty hΦ infixTable_typed h') (TableR.written hΦ hW infixTable_written h') hp hs .nil
      (by rintro _ ⟨⟩) (fun _ => ⟨hr, rfl⟩) he
  | openPrefix h => exact OpenRangeR.spells hΦ hW h

omit hΦ hW in
theorem forms_ok (nt : NT) : nt.formsOk = true := by
  have h : NT.all.all NT.formsOk = true := by decide +kernel
  exact List.all_eq_true.mp h nt (NT.mem_all nt)

theorem denRule_forms (nt : NT) (a : Amb) (p q : Pt) (vs : List V) (h : denRule toks Φ (rules nt) a p q vs) :
    Written toks nt.forms p q vs := by
  have hok := forms_ok nt
  unfold NT.formsOk at hok
  cases hr : rules nt with
  | g x =>
    rw [hr] at h hok
    obtain ⟨ss, hs, hl⟩ := rules_sty nt x hr
    dsimp only at hok
    split at hok
    · next xs hx => exact (den_forms hΦ hW x ss hs xs hx _ _ _ _ h).le hok
    · cases hok
  | expr s =>
    rw [hr] at h hok
    obtain ⟨v, -, h, rfl⟩ := h
    rw [of_decide_eq_true hok]
    obtain ⟨ts, hp, hs⟩ := ExprR.spells hΦ hW h
    exact .of_mode hp hs

end

/-- Being of the right type and written as the syntax says. -/
def Spelled (toks : List Token) (nt : NT) (_ : Amb) (p q : Pt) (vs : List V) : Prop :=
  hasS vs nt.sty = true ∧ Written toks nt.forms p q vs

theorem spelled_inductive {toks : List Token} : Inductive toks (Spelled toks) :=
  fun nt _ _ _ _ _ h => ⟨denRule_sty (fun _ _ _ _ _ h => h.2.2.1) nt _ _ _ _ h,
    denRule_forms (fun _ _ _ _ _ h => h.2.2.1) (fun _ _ _ _ _ h => h.2.2.2) nt _ _ _ _ h⟩

end Verif
