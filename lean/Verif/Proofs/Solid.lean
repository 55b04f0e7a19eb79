import Verif.Proofs.Nodes
/-!
# Extents inside extents: the trees

All extents count except those of lists of bounds that are empty, as in `struct S<T: > {}`, and a struct is in order when the
extents below it lie in its own.
-/

namespace Verif
open Spec

/-- A list of bounds without bounds. -/
def V.hollow : V → Bool
  | .node .TraitBounds _ _ [.list []] => true
  | _ => false

/-- The extent of a value, unless it is hollow. -/
def V.firm (v : V) : Option Extent := if v.hollow then none else v.own

/-- All firm extents in a value. -/
def V.solid (v : V) : List Extent := v.subs.filterMap V.firm

/-- All firm extents in values. -/
def solidL (vs : List V) : List Extent := (subsL vs).filterMap V.firm

@[simp] theorem solidL_nil : solidL [] = [] := rfl
@[simp] theorem solidL_cons (v : V) (vs : List V) : solidL (v :: vs) = v.solid ++ solidL vs := by
  simp [solidL, subsL, V.solid]
@[simp] theorem solidL_append (vs ws : List V) : solidL (vs ++ ws) = solidL vs ++ solidL ws := by
  simp [solidL, subsL_append]
@[simp] theorem solid_ext (e : Extent) : (V.ext e).solid = [e] := rfl
@[simp] theorem solid_bool (b : Bool) : (V.bool b).solid = [] := rfl
@[simp] theorem solid_list (vs : List V) : (V.list vs).solid = solidL vs := rfl
@[simp] theorem solid_enm (t : Tag) (vs : List V) : (V.enm t vs).solid = solidL vs := rfl

theorem solid_node_eq (k : K) (e : Extent) (ws : List Ws) (vs : List V) :
    (V.node k e ws vs).solid = if (V.node k e ws vs).hollow then [] else e :: solidL vs := by
  simp only [V.solid, V.subs, List.filterMap_cons, V.firm, V.own]
  split
  · split
    · rename_i h
      unfold V.hollow at h
      split at h
      · rename_i heq
        cases heq
        rfl
      · cases h
    · rename_i h1 h2
      simp [h2] at h1
  · rename_i h
    split at h <;> cases h
    rename_i h
    simp [h]
    rfl

theorem hollow_of_ne {k : K} {e : Extent} {ws : List Ws} {vs : List V} (h : k ≠ .TraitBounds) :
    (V.node k e ws vs).hollow = false := by
  unfold V.hollow
  split
  · rename_i heq; cases heq; exact absurd rfl h
  · rfl

@[simp] theorem solid_node {k : K} {e : Extent} {ws : List Ws} {vs : List V} (h : k ≠ .TraitBounds) :
    (V.node k e ws vs).solid = e :: solidL vs := by
  simp [solid_node_eq, hollow_of_ne h]

theorem solid_node_sub {k : K} {e : Extent} {ws : List Ws} {vs : List V} {x : Extent} (h : x ∈ (V.node k e ws vs).solid) :
    x = e ∨ x ∈ solidL vs := by
  rw [solid_node_eq] at h
  split at h
  · simp at h
  · simpa using h

theorem mem_solidL {vs : List V} {e : Extent} : e ∈ solidL vs ↔ ∃ v ∈ vs, e ∈ v.solid := by
  induction vs with
  | nil => simp
  | cons v vs ih => simp [ih]

theorem V.firm_own {v : V} {e : Extent} (h : v.firm = some e) : v.own = some e := by
  unfold V.firm at h; split at h
  · cases h
  · exact h

theorem solidL_sub {vs : List V} {e : Extent} (h : e ∈ solidL vs) : e ∈ extsL vs := by
  simp only [solidL, extsL, List.mem_filterMap] at *
  obtain ⟨v, hv, h⟩ := h
  exact ⟨v, hv, V.firm_own h⟩

@[simp] theorem solid_mkAttributed (e : Extent) (as : List V) (v : V) :
    (mkAttributed e as v).solid = e :: (solidL as ++ v.solid) := by
  simp [mkAttributed]

/-! ## Structs in order -/

/-- The extents below a struct lie in its own. -/
def NodeOk (k : K) (e : Extent) (fs : List V) : Prop :=
  k = .PatternName ∨ k = .StructLiteralField ∨ ∀ x ∈ solidL fs, e.s ≤ x.s ∧ x.e ≤ e.e

/-- All structs in the value are in order. -/
def V.nest (v : V) : Prop := ∀ k e ws fs, V.node k e ws fs ∈ v.subs → NodeOk k e fs

/-- All structs in the values are in order. -/
def nestL (vs : List V) : Prop := ∀ k e ws fs, V.node k e ws fs ∈ subsL vs → NodeOk k e fs

@[simp] theorem nestL_nil : nestL [] := by simp [nestL]
@[simp] theorem nestL_append {vs ws : List V} : nestL (vs ++ ws) ↔ nestL vs ∧ nestL ws := by
  simp only [nestL, subsL_append, List.mem_append]
  exact ⟨fun h => ⟨fun k e ws fs hx => h k e ws fs (.inl hx), fun k e ws fs hx => h k e ws fs (.inr hx)⟩,
    fun h k e ws fs hx => hx.elim (h.1 k e ws fs) (h.2 k e ws fs)⟩
@[simp] theorem nestL_cons {v : V} {vs : List V} : nestL (v :: vs) ↔ v.nest ∧ nestL vs := by
  have := @nestL_append [v] vs
  simpa [nestL, V.nest, subsL_single] using this
@[simp] theorem nest_ext {e : Extent} : (V.ext e).nest := by intro k e ws fs h; simp at h
@[simp] theorem nest_bool {b : Bool} : (V.bool b).nest := by intro k e ws fs h; simp at h
@[simp] theorem nest_list {vs : List V} : (V.list vs).nest ↔ nestL vs := by
  simp [V.nest, nestL]
@[simp] theorem nest_enm {t : Tag} {vs : List V} : (V.enm t vs).nest ↔ nestL vs := by
  simp [V.nest, nestL]
@[simp] theorem nest_node {k : K} {e : Extent} {ws : List Ws} {vs : List V} :
    (V.node k e ws vs).nest ↔ NodeOk k e vs ∧ nestL vs := by
  simp only [V.nest, nestL, V.subs, List.mem_cons, V.node.injEq]
  constructor
  · intro h
    exact ⟨h k e ws vs (.inl ⟨rfl, rfl, rfl, rfl⟩), fun k e ws fs hx => h k e ws fs (.inr hx)⟩
  · rintro ⟨h1, h2⟩ k' e' ws' fs' (⟨rfl, rfl, rfl, rfl⟩ | h)
    · exact h1
    · exact h2 _ _ _ _ h

theorem mem_nestL {vs : List V} : nestL vs ↔ ∀ v ∈ vs, v.nest := by
  induction vs with
  | nil => simp
  | cons v vs ih => simp [ih]

@[simp] theorem nest_mkAttributed {e : Extent} {as : List V} {v : V} :
    (mkAttributed e as v).nest ↔ (∀ x ∈ solidL as ++ v.solid, e.s ≤ x.s ∧ x.e ≤ e.e) ∧ nestL as ∧ v.nest := by
  simp [mkAttributed, NodeOk]

theorem NodeOk.of {k : K} {e : Extent} {fs : List V} (h : ∀ x ∈ solidL fs, e.s ≤ x.s ∧ x.e ≤ e.e) : NodeOk k e fs :=
  .inr (.inr h)

/-- A kind of struct whose extent holds the extents below it, and which is never hollow. -/
def K.plain : K → Bool
  | .PatternName | .StructLiteralField | .TraitBounds => false
  | _ => true

theorem nest_root {k : K} {e : Extent} {ws : List Ws} {vs : List V} (hk : k.plain = true) (h : (V.node k e ws vs).nest) :
    (V.node k e ws vs).solid = e :: solidL vs ∧ ∀ x ∈ solidL vs, e.s ≤ x.s ∧ x.e ≤ e.e := by
  have h1 := (nest_node.mp h).1
  refine ⟨solid_node (by rintro rfl; cases hk), ?_⟩
  rcases h1 with rfl | rfl | h1
  · cases hk
  · cases hk
  · exact h1

/-! ## Closures -/

/-- The closures are used on values of the right kinds. -/
def Fn.fits : Fn → List STy → Bool
  | .copyExtent _, [.ty (.node k)] => k.plain
  | .copyExtent _, _ => false
  | .into, [.tags ts] => ts.all fun t => match t.payload with | [.node k] => k.plain | _ => false
  | .into, _ => false
  | .fieldValue, _ => false
  | _, _ => true

/-- The closures take extents from the values, and leave structs in order. -/
theorem Fn.app_solid {f : Fn} {ss : List STy} (hf : f.fits ss = true) {vs : List V} (hv : hasS vs ss = true) (hn : nestL vs) :
    (∀ e ∈ solidL (f.app vs), e ∈ solidL vs) ∧ nestL (f.app vs) := by
  cases f
  case copyExtent k =>
    match ss, hf with
    | [.ty (.node k')], hf =>
      obtain ⟨v, rfl, hv'⟩ := hasS_one hv
      rw [STy.has_ty] at hv'
      obtain ⟨e, ws, fs, rfl, -⟩ := hasTy_node hv'
      have h1 := nest_root hf (nestL_cons.mp hn).1
      simp only [Fn.app, V.extent?]
      constructor
      · intro x hx
        simp only [solidL_cons, solidL_nil, List.append_nil] at hx ⊢
        rcases solid_node_sub hx with rfl | hx
        · rw [h1.1]; simp
        · simpa using hx
      · simp only [nestL_cons, nest_node, nestL_nil, and_true] at hn ⊢
        refine ⟨.of ?_, hn⟩
        intro x hx
        simp only [solidL_cons, solidL_nil, List.append_nil, h1.1, List.mem_cons] at hx
        rcases hx with rfl | hx
        · omega
        · exact h1.2 x hx
  case into =>
    match ss, hf with
    | [.tags ts], hf =>
      obtain ⟨v, rfl, hv'⟩ := hasS_one hv
      obtain ⟨t, vs, rfl, ht, hvs⟩ := STy.has_tags hv'
      have h0 := List.all_eq_true.mp hf t ht
      split at h0
      · rename_i k hp
        rw [hp] at hvs
        obtain ⟨v, rfl, hw⟩ := hasTys_one hvs
        obtain ⟨e, ws, fs, rfl, -⟩ := hasTy_node hw
        have hn' : (V.node k e ws fs).nest := by simpa using hn
        have h1 := nest_root h0 hn'
        simp only [Fn.app, V.extent?, intoExpr]
        constructor
        · intro x hx
          simp [h1.1] at hx ⊢
          exact hx
        · simp only [nestL_cons, nest_mkAttributed, nestL_nil, and_true, true_and]
          refine ⟨?_, by simpa using hn⟩
          intro x hx
          simp [h1.1] at hx
          rcases hx with rfl | hx
          · omega
          · exact h1.2 x hx
      · cases h0
  case fieldValue => cases hf
  all_goals
    unfold Fn.app
    split <;> first
      | (rename_i heq; cases heq; done)
      | skip
    all_goals first
      | exact ⟨fun _ h => h, hn⟩
      | (simp [mkIdent, NodeOk] at hn ⊢; done)
      | (simp at hn ⊢; exact hn)
      | (simp at hn ⊢; grind)
      | skip

/-- What is built has no other extents than the given one, and is in order if that holds the others. -/
theorem Mk.app_solid (m : Mk) (e0 : Extent) (vs : List V) :
    (∀ e ∈ solidL (m.app e0 vs), e = e0 ∨ e ∈ solidL vs) ∧
      ((∀ x ∈ solidL vs, e0.s ≤ x.s ∧ x.e ≤ e0.e) → nestL vs → nestL (m.app e0 vs)) := by
  unfold Mk.app
  split
  · constructor
    · intro e he
      simp only [solidL_cons, solidL_nil, List.append_nil] at he
      exact solid_node_sub he
    · intro h hn; simpa using ⟨.of h, hn⟩
  · constructor
    · intro e he; simpa using he
    · intro h hn; simp at h hn ⊢; exact ⟨.of h, hn⟩
  · constructor
    · intro e he; simpa using he
    · intro h hn; simp at h hn ⊢; exact ⟨.of h, hn⟩
  · exact ⟨fun e he => .inr he, fun _ h => h⟩
  · constructor
    · intro e he; simp at he ⊢; grind
    · intro h hn; simp at h hn ⊢; exact ⟨hn.2, .of (by simp; exact fun x hx => h x (.inl hx)), hn.1⟩
  · exact ⟨fun e he => .inr he, fun _ h => h⟩
  · constructor
    · intro e he; simpa using he
    · intro h hn; simpa using hn

theorem intoExpression_solid {v w : V} (h : intoExpression v = some w) : w.solid = v.solid ∧ (v.nest → w.nest) := by
  unfold intoExpression at h
  split at h <;> simp at h
  subst h; simp

theorem TailK.out_solid (k : TailK) (t : P.Tailed (List V)) :
    (∀ e ∈ solidL (k.out t), e ∈ solidL t.values.flatten) ∧ (nestL t.values.flatten → nestL (k.out t)) := by
  unfold TailK.out
  split
  · simp
  · split
    · rename_i e' h'
      split
      · simp
      · cases hl : t.values.flatten.getLast? with
        | none => rw [hl] at h'; cases h'
        | some w =>
          rw [hl] at h'
          have h1 := intoExpression_solid h'
          have h2 := List.mem_of_getLast? hl
          constructor
          · intro e he
            simp only [solidL_cons, solid_list, solidL_nil, List.append_nil, List.mem_append] at he
            rcases he with he | he
            · obtain ⟨v, hv, he⟩ := mem_solidL.mp he
              exact mem_solidL.mpr ⟨v, List.dropLast_subset _ hv, he⟩
            · exact mem_solidL.mpr ⟨w, h2, h1.1 ▸ he⟩
          · intro hn
            have hn' := mem_nestL.mp hn
            simp only [nestL_cons, nest_list, nestL_nil, and_true]
            exact ⟨mem_nestL.mpr fun v hv => hn' v (List.dropLast_subset _ hv), h1.2 (hn' w h2)⟩
    · simp
  · split <;> simp

theorem PrefixOp.mk_solid (op : PrefixOp) (payload : List V) (e0 : Extent) (o : Option V) :
    (∀ e ∈ (op.mk payload e0 o).solid, e = e0 ∨ e ∈ solidL payload ∨ e ∈ solidL o.toList) ∧
      ((∀ x ∈ solidL payload ++ solidL o.toList, e0.s ≤ x.s ∧ x.e ≤ e0.e) → nestL payload → nestL o.toList →
        (op.mk payload e0 o).nest) := by
  cases op <;> simp [PrefixOp.mk, NodeOk] <;> grind

theorem InfixOp.mk_solid (op : InfixOp) (payload : List V) (e0 : Extent) (l : V) (o : Option V) :
    (∀ e ∈ (op.mk payload e0 l o).solid, e = e0 ∨ e ∈ solidL payload ∨ e ∈ l.solid ∨ e ∈ solidL o.toList) ∧
      ((∀ x ∈ solidL payload ++ l.solid ++ solidL o.toList, e0.s ≤ x.s ∧ x.e ≤ e0.e) → nestL payload → l.nest →
        nestL o.toList → (op.mk payload e0 l o).nest) := by
  cases op <;> simp [InfixOp.mk, intoAttributed, NodeOk] <;> grind

theorem PostfixOp.mk_solid (op : PostfixOp) (payload : List V) (e0 : Extent) (l : V) :
    (∀ e ∈ (op.mk payload e0 l).solid, e = e0 ∨ e ∈ solidL payload ∨ e ∈ l.solid) ∧
      ((∀ x ∈ solidL payload ++ l.solid, e0.s ≤ x.s ∧ x.e ≤ e0.e) → nestL payload → l.nest →
        (op.mk payload e0 l).nest) := by
  cases op <;> simp [PostfixOp.mk, intoAttributed, NodeOk] <;> grind

theorem solid_convertNumber (n : Number) : ∀ e ∈ (convertNumber n).solid, e ∈ allExtents (.number n) := by
  intro e he
  exact exts_convertNumber n e (by simpa using solidL_sub (vs := [convertNumber n]) (by simpa using he))

theorem nest_convertNumber {n : Number} (h : ∀ e ∈ allExtents (.number n), n.extent.s ≤ e.s ∧ e.e ≤ n.extent.e) :
    (convertNumber n).nest := by
  have h1 : ∀ o : Option Extent, (optExt o).nest := by intro o; cases o <;> simp [optExt]
  have h2 : ∀ o : Option Extent, (optExt o).solid = o.toList := by intro o; cases o <;> simp [optExt]
  have h3 : ∀ x, x = n.integral ∨ x ∈ n.fractional.toList ∨ x ∈ n.exponent.toList ∨ x ∈ n.type_suffix.toList →
      n.extent.s ≤ x.s ∧ x.e ≤ n.extent.e := by
    intro x hx
    apply h
    simp only [allExtents, List.mem_cons, List.mem_append]
    grind
  unfold convertNumber
  split <;>
    simp only [nest_node, nest_enm, nestL_cons, nestL_nil, nest_list, nest_ext, h1, NodeOk, reduceCtorEq, false_or, solidL_cons,
      solidL_nil, solid_list, solid_enm, solid_ext, h2, List.append_nil, List.nil_append, and_true, true_and, List.mem_append,
      List.mem_singleton, List.mem_cons, ne_eq, not_false_eq_true, solid_node] <;>
    grind

end Verif
