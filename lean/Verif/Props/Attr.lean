import Verif.Props.Nest
import Verif.Props.Tree
/-!
# Attributes

C42.
-/

namespace Verif.Props
open Verif.Spec

/-- The structs with attributes: `Attributed<T>` for every `T`, and the arms of a `match`. -/
def hasAttributes (k : K) : Bool := k.fields.any (fun f => f.name == "attributes")

/-- Attributes in the order of the source, inside the extent `e`, which starts with the first of them, and before `rest`. -/
structure Annotates (e : Extent) (attrs rest : List V) : Prop where
  ordered : attrs.Pairwise (fun a b => ∀ x ∈ extsL [a], ∀ y ∈ extsL [b], x.e ≤ y.s)
  starts : ∀ a, attrs.head? = some a → ∃ x ∈ extsL [a], x.s = e.s
  inside : ∀ x ∈ extsL attrs, e.s ≤ x.s ∧ x.e ≤ e.e
  before : ∀ x ∈ extsL attrs, ∀ y ∈ extsL rest, x.e ≤ y.s

/-- A prefix operator applied to something. -/
def isPrefixed (k : K) : Bool :=
  k = .Dereference || k = .Reference || k = .ExpressionBox || k = .RangeInclusive || k = .Range || k = .Unary

/-- An attribute starts where its text starts. -/
def Heads (toks : List Token) : NT → Rel
  | .attribute, _, p, _, vs => ∃ a, vs = [a] ∧ ∃ x ∈ extsL [a], x.s = p.pos toks
  | .attribute_literal, _, p, _, vs => ∃ a, vs = [a] ∧ ∃ x ∈ extsL [a], x.s = p.pos toks
  | _, _, _, _, _ => True

def AttrInv (toks : List Token) (nt : NT) (am : Amb) (p q : Pt) (vs : List V) : Prop :=
  Heads toks nt am p q vs ∧ Within toks p q vs

section
variable {code : Text} {toks : List Token} (hs : Src code toks)
include hs

theorem heads_inductive : Inductive toks (Heads toks) := by
  intro nt am p q vs hb h
  cases nt <;> try trivial
  case «attribute» =>
    rcases h with (h | h) | h
    · obtain ⟨_, ⟨hb', e, ht, rfl⟩, rfl⟩ := h
      exact ⟨_, rfl, e, by simp [extsL, V.own], (hs.tok_range hb' ht).1⟩
    · obtain ⟨_, ⟨hb', e, ht, rfl⟩, rfl⟩ := h
      exact ⟨_, rfl, e, by simp [extsL, V.own], (hs.tok_range hb' ht).1⟩
    · obtain ⟨_, ⟨-, -, -, a, rfl, x, hx, hx'⟩, rfl⟩ := h
      refine ⟨_, rfl, x, ?_, hx'⟩
      simp only [extsL, subsL_cons, subsL_nil, List.append_nil, subs_enm, List.filterMap_cons] at hx ⊢
      simpa [V.own] using hx
  case attribute_literal =>
    obtain ⟨v, e, h, he, rfl⟩ := h
    exact ⟨_, rfl, e, by simp [extsL, V.own], (hs.ex_range hb he).1⟩

theorem attrInv_inductive : Inductive toks (AttrInv toks) :=
  (heads_inductive hs).and (fun nt _ _ _ _ _ h => denRule_within hs (fun _ _ _ _ _ h => h.2.2) nt _ _ _ _ h)

/-- Attributes read one after the other. -/
theorem star_attrs {am p m vss} (h : Star toks (den toks (Known (AttrInv toks)) (.r .attribute) am) p m vss) :
    Btw toks p m ∧ Within toks p m vss.flatten ∧
    vss.flatten.Pairwise (fun a b => ∀ x ∈ extsL [a], ∀ y ∈ extsL [b], x.e ≤ y.s) ∧
    ∀ a, vss.flatten.head? = some a → ∃ x ∈ extsL [a], x.s = p.pos toks := by
  induction h with
  | nil h => exact ⟨.refl h, by simp [Within], by simp, by simp⟩
  | @cons p m q v vs h1 h2 ih =>
    obtain ⟨hb, -, -, ⟨a, rfl, x, hx, hx'⟩, hw⟩ := h1
    obtain ⟨ih1, ih2, ih3, ih4⟩ := ih
    refine ⟨hb.trans ih1, ?_, ?_, ?_⟩
    · exact Within.seq hs hb ih1 hw ih2
    · simp only [List.flatten_cons, List.cons_append, List.nil_append, List.pairwise_cons]
      refine ⟨fun b hb' x hx y hy => ?_, ih3⟩
      have h3 := hw x hx
      have h4 := ih2 y (mem_extsL.mpr ⟨b, hb', by simpa using hy⟩)
      omega
    · intro b hb'
      simp at hb'
      subst hb'
      exact ⟨x, hx, hx'⟩

theorem annotates_of {am p m vss e rest} (h : Star toks (den toks (Known (AttrInv toks)) (.r .attribute) am) p m vss)
    (he : e.s = p.pos toks) (hi : ∀ x ∈ extsL vss.flatten, x.e ≤ e.e)
    (hr : ∀ y ∈ extsL rest, m.pos toks ≤ y.s) : Annotates e vss.flatten rest := by
  obtain ⟨h1, h2, h3, h4⟩ := star_attrs hs h
  refine ⟨h3, fun a ha => ?_, fun x hx => ⟨?_, hi x hx⟩, fun x hx y hy => ?_⟩
  · rw [he]; exact h4 a ha
  · have := h2 x hx; omega
  · have := h2 x hx; have := hr y hy; omega

/-- How attributes stand before what they annotate, before the whitespace is attached. -/
def AttrForm (e : Extent) (vs : List V) : Prop :=
  ∃ attrs rest, vs = .list attrs :: rest ∧ ((∀ x ∈ extsL attrs, x.e ≤ e.e) → Annotates e attrs rest ∨
    ∃ t k e' fs, rest = [.enm t [.node k e' [] fs]] ∧ isPrefixed k = true ∧ e'.s = e.s ∧ e'.e = e.e ∧ Annotates e attrs fs)

omit hs in
theorem attr_parts {k : K} {g : G} (hk : hasAttributes k = true) (h : .build (.node k) g ∈ allParts) :
    ∃ g', g = .seq (.many (.r .attribute)) g' ∧ g'.peekFree = true := by
  have hall : allParts.all (fun
    | .build (.node k) g => if hasAttributes k then (match g with
      | .seq (.many (.r .attribute)) g' => g'.peekFree
      | _ => false) else true
    | _ => true) = true := by decide +kernel
  have h1 := List.all_eq_true.mp hall _ h
  simp only [hk, if_true] at h1
  split at h1
  · exact ⟨_, rfl, h1⟩
  · cases h1

omit hs in
theorem prefix_form (op : PrefixOp) (payload : List V) (e : Extent) (o : Option V) :
    ∃ t k fs, op.mk payload e o = .enm t [.node k e [] fs] ∧ isPrefixed k = true ∧
      ∀ y ∈ extsL fs, y ∈ extsL payload ∨ ∃ v, o = some v ∧ y ∈ extsL [v] := by
  cases op <;> refine ⟨_, _, _, rfl, rfl, ?_⟩ <;> intro y hy <;> cases o <;> simp at hy ⊢
  all_goals grind

omit hs in
theorem into_app (v : List V) : Fn.into.app v = v ∨ ∃ w e, v = [w] ∧ Fn.into.app v = [intoExpr e w] := by
  rcases v with _ | ⟨w, _ | ⟨w', v⟩⟩
  · exact .inl rfl
  · cases h : w.extent? with
    | none => exact .inl (by simp [Fn.app, h])
    | some e => exact .inr ⟨w, e, rfl, by simp [Fn.app, h]⟩
  · exact .inl rfl

omit hs in
theorem fieldValue_app (v : List V) : Fn.fieldValue.app v = v ∨
    (∃ a b c, v = [a, b, .list [c]] ∧ Fn.fieldValue.app v = [b, c]) ∨
    ∃ e e' ws vs, v = [.ext e, .node .Ident e' ws vs, .list []] ∧ Fn.fieldValue.app v = [.node .Ident e' ws vs,
      intoExpr e (.enm .Expression_Value [.node .Value e [] [mkPathedIdent e' (.node .Ident e' ws vs), .list []]])] := by
  generalize hf : Fn.fieldValue = f
  unfold Fn.app
  split <;> try (exfalso; exact Fn.noConfusion hf)
  · exact .inr (.inl ⟨_, _, _, rfl, rfl⟩)
  · exact .inr (.inr ⟨_, _, _, _, rfl, rfl⟩)
  · exact .inl rfl

theorem orig_attr {k e vs} (hk : hasAttributes k = true) (h : Orig toks (Known (AttrInv toks)) k e vs) : AttrForm e vs := by
  have hw : ∀ nt am p q vs, Known (AttrInv toks) nt am p q vs → Within toks p q vs := fun _ _ _ _ _ h => h.2.2.2
  have hplain : (∃ g am p q, .build (.node k) g ∈ allParts ∧ den toks (Known (AttrInv toks)) g am p q vs ∧
      ex toks p q = some e) → AttrForm e vs := by
    rintro ⟨g, am, p, q, hg, hd, he⟩
    obtain ⟨g', rfl, hg'⟩ := attr_parts hk hg
    obtain ⟨m, v, w, ⟨vss, h1, rfl⟩, h2, rfl⟩ := hd
    refine ⟨_, w, rfl, fun hi => .inl (annotates_of hs h1 ?_ hi fun y hy => ?_)⟩
    · exact (hs.ex_range ((star_attrs hs h1).1.trans (den_btw _ _ _ _ _ h2)) he).1
    · exact (den_within hs hw g' hg' _ _ _ _ h2 y hy).1
  have hempty : ∀ v, AttrForm e [.list [], v] := fun v =>
    ⟨[], [v], rfl, fun _ => .inl ⟨.nil, by simp, by simp [extsL], by simp [extsL]⟩⟩
  by_cases hk' : k = .AttributedExpression
  · subst hk'
    cases h with
    | @build m g am p q v _ _ _ hg hd he hn =>
      unfold Mk.node? at hn
      split at hn <;> simp at hn
      obtain ⟨rfl, rfl⟩ := hn
      exact hplain ⟨g, am, p, q, hg, hd, he⟩
    | @empty _ g _ _ _ _ _ hg =>
      have hall : allParts.all (fun | .nodeEmpty k _ => k != .AttributedExpression | _ => true) = true := by decide +kernel
      have := List.all_eq_true.mp hall _ hg
      simp at this
    | @fn f g am p q v _ _ _ hg _ hx hn hm =>
      have hall : allParts.all (fun | .map f _ => !f.makes .AttributedExpression || f == .into || f == .fieldValue | _ => true) =
        true := by decide +kernel
      have hf : f = .into ∨ f = .fieldValue := by
        have := List.all_eq_true.mp hall _ hg
        simpa [hm] using this
      rcases hf with rfl | rfl
      · rcases into_app v with hv | ⟨w, e', hv⟩
        · rw [hv] at hx; exact absurd hx hn
        · rw [hv.2] at hx
          simp [intoExpr, mkAttributed] at hx
          rcases hx with ⟨rfl, rfl⟩ | hx
          · exact hempty _
          · rw [hv.1] at hn; simp at hn; exact absurd hx hn
      · rcases fieldValue_app v with hv | ⟨a, b, c, rfl, hv⟩ | ⟨e1, e2, ws, us, rfl, hv⟩
        · rw [hv] at hx; exact absurd hx hn
        · rw [hv] at hx; simp at hx hn; grind
        · rw [hv] at hx
          simp [intoExpr, mkAttributed, mkPathedIdent] at hx hn
          rcases hx with hx | ⟨rfl, rfl⟩ | hx
          · exact absurd hx hn
          · exact hempty _
          · exact absurd hx hn
    | number _ _ hn => have := number_kind _ hn; cases this
    | atom h =>
      obtain ⟨e0, attrs, vs, ⟨m, vss, h1, h2, he, rfl⟩, h3⟩ := h
      simp at h3
      obtain ⟨rfl, rfl⟩ := h3
      refine ⟨_, vs, rfl, fun hi => .inl (annotates_of hs h1 ?_ hi fun y hy => ?_)⟩
      · exact (hs.ex_range ((star_attrs hs h1).1.trans (den_btw _ _ _ _ _ h2)) he).1
      · exact (den_within hs hw _ (by decide +kernel) _ _ _ _ h2 y hy).1
    | @pre a am p m q e0 attrs op payload o inner _ _ _ h1 h2 h3 hn =>
      obtain ⟨t, k, fs, hop, hkp, hfs⟩ := prefix_form op payload inner o
      rcases hn with hn | ⟨t', hn⟩
      · simp [mkAttributed] at hn
        obtain ⟨rfl, rfl⟩ := hn
        have hb1 := h1.btw
        obtain ⟨m0, vss, h4, h5, h6, rfl⟩ := h1
        have hb2 := h5.btw
        have hb0 := (star_attrs hs h4).1
        have hpq : Btw toks p q := by
          rcases h2 with ⟨-, -, rfl⟩ | ⟨v, -, h2⟩
          · exact hb1
          · exact hb1.trans (h2.elim (·.btw) (·.btw))
        have hin := hs.ex_range hpq h3
        have he0 := hs.ex_range hb1 h6
        refine ⟨_, _, rfl, fun hi => .inr ⟨t, k, inner, fs, by rw [hop], hkp, ?_, rfl, annotates_of hs h4 he0.1 hi ?_⟩⟩
        · rw [hin.1, ← he0.1]
        · intro y hy
          rcases hfs y hy with hy | ⟨v, rfl, hy⟩
          · exact (TableR.within hs hw tables_peekFree.1 h5 y hy).1
          · rcases h2 with ⟨h2, -⟩ | ⟨v', h2, h2'⟩
            · cases h2
            · cases h2
              have hm := hs.pos_mono hb2
              have := h2'.elim (fun h => OperandR.within hs hw h y hy) (fun h => OpenRangeR.within hs hw h y hy)
              omega
      · rw [hop] at hn
        simp at hn
        rw [hn.2.1] at hkp
        cases hkp
    | @post _ _ _ _ _ _ op _ _ _ _ _ _ _ hn =>
      rcases hn with hn | ⟨t, hn⟩
      · cases op <;> simp [PostfixOp.mk, intoAttributed, mkAttributed] at hn <;> (rw [hn]; exact hempty _)
      · cases op <;> simp [PostfixOp.mk, intoAttributed, mkAttributed] at hn
    | @inf _ _ _ _ _ _ _ op _ _ _ _ _ _ _ _ _ hn =>
      rcases hn with hn | ⟨t, hn⟩
      · cases op <;> simp [InfixOp.mk, intoAttributed, mkAttributed] at hn <;> (rw [hn]; exact hempty _)
      · cases op <;> simp [InfixOp.mk, intoAttributed, mkAttributed] at hn
  · refine hplain (h.plain ?_)
    have hall : K.all.all (fun k => !hasAttributes k || decide (k = .AttributedExpression) ||
      (!isExprKind k && !isNumberKind k && allParts.all (fun g => !g.odd k))) = true := by decide +kernel
    have := List.all_eq_true.mp hall k (K.mem_all k)
    simpa [hk, hk'] using this

end

theorem _root_.Verif.V.attribute_subs {a : V} (h : a.hasTy (.enm .Attribute) = true) {x : V} (hx : x ∈ a.subs) : ¬ IsEmptyBounds x := by
  rintro ⟨e, ws, rfl⟩
  have := V.hasTy_sub a _ h
  obtain ⟨g, vs, rfl, hg, hv⟩ := hasTy_enm h
  cases g <;> simp [Tag.en] at hg <;> obtain ⟨v, rfl, hv'⟩ := hasTys_one hv
  · cases v <;> simp [V.hasTy] at hv'; simp at hx
  · cases v <;> simp [V.hasTy] at hv'; simp at hx
  · obtain ⟨e', ws', vs, rfl, hvs⟩ := hasTy_node hv'
    obtain ⟨v, rfl, hv''⟩ := hasTys_one hvs
    cases v <;> simp [V.hasTy] at hv''
    simp at hx

/-- The attributes of a struct are in the first field. -/
theorem attributes_first {k : K} (hk : hasAttributes k = true) : ∃ ts, k.fields.map (·.ty) = .vec (.enm .Attribute) :: ts := by
  have hall : K.all.all (fun k => !hasAttributes k || (k.fields.map (·.ty)).head? == some (.vec (.enm .Attribute))) = true := by
    decide +kernel
  have := List.all_eq_true.mp hall k (K.mem_all k)
  simp only [hk, Bool.not_true, Bool.false_or, beq_iff_eq] at this
  cases h : k.fields.map (·.ty) with
  | nil => rw [h] at this; cases this
  | cons t ts => rw [h] at this; simp at this; exact ⟨ts, by rw [this]⟩

theorem Annotates.of_bare {e : Extent} {attrs rest : List V} (h : Annotates e (bareL attrs) (bareL rest)) :
    Annotates e attrs rest := by
  have hb : ∀ a : V, extsL [a.bare] = extsL [a] := fun a => extsL_bareL [a]
  obtain ⟨h1, h2, h3, h4⟩ := h
  rw [extsL_bareL] at h3 h4
  rw [extsL_bareL] at h4
  rw [bareL_map] at h1 h2
  refine ⟨?_, fun a ha => ?_, h3, h4⟩
  · rw [List.pairwise_map] at h1
    simpa only [hb] using h1
  · have := h2 a.bare (by rw [List.head?_map, ha]; rfl)
    rwa [hb] at this

/-- C42: the attributes of every struct that has attributes are in the order of the source, inside the extent of the struct, which
starts with the first of them, and before whatever they annotate.  If they annotate a prefix operator then its extent starts with
the attributes too, and only the operand and the rest of the operator are after them. -/
theorem C42_attributes_first_partial (X : Xid) (cl cp : Bool) (code : Text) (f : File) (h : parseRustFile X cl cp code = .ok f) :
    ∀ k e ws fs, V.node k e ws fs ∈ subsL f.items → hasAttributes k = true →
      ∃ attrs rest, fs = .list attrs :: rest ∧ (Annotates e attrs rest ∨
        ∃ t k' e' ws' fs', rest = [.enm t [.node k' e' ws' fs']] ∧ isPrefixed k' = true ∧ e'.s = e.s ∧ e'.e = e.e ∧
          Annotates e attrs fs') := by
  intro k e ws fs hx hk
  obtain ⟨ts, items, q, hp⟩ := parseRustFile_ok h (Ψ := AttrInv) (fun toks hs => attrInv_inductive hs)
  obtain ⟨attrs0, rest0, hfs, hann⟩ := orig_attr hp.src hk (hp.node hx)
  obtain ⟨a, rest, rfl, ha, hrest⟩ := bareL_eq_cons hfs
  obtain ⟨attrs, rfl, rfl⟩ := V.bare_eq_list ha
  refine ⟨attrs, rest, rfl, ?_⟩
  have hi : ∀ x ∈ extsL (bareL attrs), x.e ≤ e.e := by
    rw [extsL_bareL]
    intro x hx'
    have hty := C44_structs X cl cp code f h k e ws _ hx
    obtain ⟨tys, htys⟩ := attributes_first hk
    rw [htys] at hty
    simp only [hasTys, Bool.and_eq_true, V.hasTy] at hty
    simp only [extsL, List.mem_filterMap] at hx'
    obtain ⟨y, hy, hy'⟩ := hx'
    obtain ⟨a, ha, hya⟩ := mem_subsL.mp hy
    have hk1 : k ≠ .PatternName ∧ k ≠ .StructLiteralField := by
      constructor <;> (rintro rfl; revert hk; decide +kernel)
    exact (C22_children_inside_partial X cl cp code f h k e ws _ hx hk1.1 hk1.2 y (by simp [hy])
      (V.attribute_subs (allTy_mem.mp hty.1 a ha) hya) x hy').2
  subst hrest
  rcases hann hi with h1 | ⟨t, k', e', fs', h1, h2, h3, h4, h5⟩
  · exact .inl h1.of_bare
  · obtain ⟨w, rfl, hw⟩ := bareL_eq_one h1
    obtain ⟨xs, rfl, hxs⟩ := V.bare_eq_enm hw
    obtain ⟨y, rfl, hy⟩ := bareL_eq_one hxs
    obtain ⟨ws', fs'', rfl, rfl⟩ := V.bare_eq_node hy
    exact .inr ⟨t, k', e', ws', fs'', rfl, h2, h3, h4, h5.of_bare⟩

/-- The attributed structs of a file with the number of attributes, where the attributes lie before what is annotated. -/
def annotated (f : File) : List (K × Nat × Bool) :=
  (subsL f.items).filterMap fun
    | .node k _ _ (.list attrs :: rest) => if hasAttributes k then some (k, attrs.length,
        (extsL attrs).all fun x => (extsL rest).all fun y => decide (x.e ≤ y.s)) else none
    | _ => none

/-- Attributes do not lie before what they annotate if this is a prefix operator. -/
theorem C42_false : ∃ f, parseRustFile asciiXid true true c!"fn f() { #[a] -x; }" = .ok f ∧
    decide ((K.AttributedExpression, 1, false) ∈ annotated f) = true :=
  FileResult.of_okWith (by decide +kernel)

/-- C42 is about files with several attributes in a row, on items, arms of a `match` and expressions. -/
example : ∃ f, parseRustFile asciiXid true true
      c!"#[a] /** b */ #[c] fn f() { match x { #[d] #[e] _ => #[g] y } } #[h] struct S { #[i] j: u8 }" = .ok f ∧
    decide (annotated f = [(.AttributedItem, 3, true), (.AttributedExpression, 0, true), (.AttributedExpression, 0, true),
      (.MatchArm, 2, true), (.AttributedExpression, 1, true), (.AttributedItem, 1, true),
      (.AttributedStructDefinitionFieldNamed, 1, true)]) = true :=
  FileResult.of_okWith (by decide +kernel)

end Verif.Props
