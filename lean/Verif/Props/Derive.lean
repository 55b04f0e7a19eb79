import Verif.Derive
import Verif.Props.Slice
import Verif.Props.Tree
/-!
# Property theorems about the methods of the tree (C58)
-/

namespace Verif.Props
open Verif Verif.Spec

/-! ## Names -/

/-- Reading a name in snake case back. -/
def camelCase : Text → Text
  | '_' :: c :: cs => c.toUpper :: camelCase cs
  | c :: cs => c :: camelCase cs
  | [] => []

theorem toUpper_toLower {c : Char} (h : c.isLower = false) : c.toLower.toUpper = c := by
  simp only [Char.isLower, Char.toLower, Char.toUpper, Bool.and_eq_false_iff, decide_eq_false_iff_not] at h ⊢
  by_cases h1 : c.val ≥ 'A'.val ∧ c.val ≤ 'Z'.val
  · have h2 : c.val.toNat ≥ 65 ∧ c.val.toNat ≤ 90 := h1
    have h2' : c.toNat ≥ 65 ∧ c.toNat ≤ 90 := h2
    have h4 : 'a'.val - 'A'.val = 32 := by decide
    have h5 : 'A'.val - 'a'.val = 4294967264 := by decide
    have h3 : 'a'.val ≤ c.val + ('a'.val - 'A'.val) ∧ c.val + ('a'.val - 'A'.val) ≤ 'z'.val := by
      rw [h4, UInt32.le_iff_toNat_le, UInt32.le_iff_toNat_le, UInt32.toNat_add]
      simp
      omega
    simp only [h1, and_self, ↓reduceDIte, h3]
    apply Char.ext
    apply UInt32.toNat_inj.mp
    show (c.val + ('a'.val - 'A'.val) + ('A'.val - 'a'.val)).toNat = c.val.toNat
    rw [h4, h5, UInt32.toNat_add, UInt32.toNat_add]
    simp
    omega
  · simp only [h1, ↓reduceDIte]
    rw [dif_neg (fun h' => h.elim (fun x => x h'.1) (fun x => x h'.2))]

theorem camelCase_snakeCase : ∀ s : Text, camelCase (snakeCase s) = s
  | [] => rfl
  | c :: s => by
    have ih := camelCase_snakeCase s
    unfold snakeCase at ih ⊢
    rw [List.flatMap_cons]
    generalize List.flatMap _ s = t at ih ⊢
    subst ih
    by_cases hc : c.isLower = true
    · rw [if_pos hc]
      have : c ≠ '_' := by rintro rfl; exact absurd hc (by decide)
      rw [List.singleton_append, camelCase.eq_def]
      split <;> simp_all
    · rw [if_neg hc]
      simp only [List.cons_append, List.nil_append, camelCase]
      rw [toUpper_toLower (by simpa using hc)]

/-- Different names stay different in snake case, whatever the names are. -/
theorem C58_names_differ (a b : Text) (h : snakeCase a = snakeCase b) : a = b := by
  rw [← camelCase_snakeCase a, h, camelCase_snakeCase b]

example : snakeCase c!"ExternCrate" = c!"_extern_crate" ∧ snakeCase c!"AsIf" ≠ snakeCase c!"Asif" := by decide

theorem mem_variants (t : Tag) : t ∈ t.en.variants := by cases t <;> decide
theorem en_of_variants {t : Tag} {n : En} (h : t ∈ n.variants) : t.en = n := by
  revert t
  cases n <;> decide
theorem names_inj (n : En) : (n.variants.map Tag.name).Nodup := by cases n <;> decide
theorem payload_one {n : En} (h : n.decompose = true) : ∀ t ∈ n.variants, t.payload.length = 1 := by
  revert h
  cases n <;> decide
theorem payload_extent {n : En} (h : n.hasExtent = true) : ∀ t ∈ n.variants, ∃ ty, t.payload = [ty] ∧ ty.hasExtent = true := by
  have : ∀ t ∈ n.variants, t.payload.length = 1 ∧ t.payload.all Ty.hasExtent = true := by
    revert h
    cases n <;> decide
  intro t ht
  obtain ⟨h1, h2⟩ := this t ht
  obtain ⟨ty, hty⟩ := List.length_eq_one_iff.mp h1
  exact ⟨ty, hty, by simpa [hty] using h2⟩

theorem lookup_own {n : En} (hn : n.decompose = true) {u : Tag} (hu : u ∈ n.variants) (stem : Text) :
    n.lookup stem (u.method stem) = some u := by
  unfold En.lookup
  rw [if_pos hn]
  rcases hf : n.variants.find? (fun t => t.method stem == u.method stem) with _ | t
  · have := List.find?_eq_none.mp hf u hu
    simp at this
  · have h1 : t.method stem = u.method stem := by simpa using List.find?_some hf
    have h2 : t.name = u.name := C58_names_differ _ _ (List.append_cancel_left h1)
    have h3 := List.mem_of_find?_eq_some hf
    obtain ⟨i, hi⟩ := List.mem_iff_getElem?.mp h3
    obtain ⟨j, hj⟩ := List.mem_iff_getElem?.mp hu
    have e1 : (n.variants.map Tag.name)[i]? = some u.name := by simp [hi, h2]
    have e2 : (n.variants.map Tag.name)[j]? = some u.name := by simp [hj]
    have := (List.getElem?_inj (List.getElem?_eq_some_iff.mp e1).1 (names_inj n)).mp (e1.trans e2.symm)
    subst this
    rw [hi] at hj
    exact hf ▸ hj

/-! ## The theorems -/

/-- For every variant of an enum there is a method `is_…`; it tells whether a value is of that variant. -/
theorem C58_is (t u : Tag) (vs : List V) (hd : t.en.decompose = true) (hu : u.en = t.en) :
    (V.enm t vs).callIs (u.method c!"is") = some (decide (t = u)) := by
  have := lookup_own hd (hu ▸ mem_variants u) c!"is"
  simp only [V.callIs, this, Option.map_some]
  rfl

/-- A value of the type of an enum is of one variant and has one payload, of the type declared.  The methods `as_…` and `into_…` of that
variant give the payload, those of the others nothing. -/
theorem C58_get (v : V) (n : En) (hv : v.hasTy (.enm n) = true) (hd : n.decompose = true) :
    ∃ t x ty, t.en = n ∧ v = .enm t [x] ∧ t.payload = [ty] ∧ x.hasTy ty = true ∧
      ∀ u : Tag, u.en = n → ∀ stem, v.callGet stem (u.method stem) = some (if u = t then some x else none) := by
  cases v <;> simp [V.hasTy] at hv
  rename_i t vs
  obtain ⟨rfl, hv⟩ := hv
  obtain ⟨ty, hty⟩ := List.length_eq_one_iff.mp (payload_one hd t (mem_variants t))
  rw [hty] at hv
  rcases vs with _ | ⟨x, _ | ⟨y, vs⟩⟩ <;> simp [hasTys] at hv
  refine ⟨t, x, ty, rfl, rfl, hty, hv, fun u hu stem => ?_⟩
  have := lookup_own hd (hu ▸ mem_variants u) stem
  simp only [V.callGet, this, Option.map_some]
  by_cases h : u = t
  · simp [h]
  · simp [h, Ne.symm h]

/-- Every value of a type that has an extent has one: the first of all extents in it, which is that of the outermost struct. -/
theorem C58_extent : ∀ (v : V) (ty : Ty), v.hasTy ty = true → ty.hasExtent = true → ∃ e, v.extent? = some e ∧ v.exts.head? = some e
  | .ext e, _, _, _ => ⟨e, rfl, rfl⟩
  | .bool _, ty, hv, he => by cases ty <;> simp [V.hasTy, Ty.hasExtent] at hv he
  | .list _, ty, hv, he => by cases ty <;> simp [V.hasTy, Ty.hasExtent] at hv he
  | .node k e ws vs, _, _, _ => ⟨e, rfl, by simp⟩
  | .enm t [], ty, hv, he => by
    cases ty <;> simp [V.hasTy] at hv
    obtain ⟨rfl, hv⟩ := hv
    obtain ⟨ty, h1, h2⟩ := payload_extent he t (mem_variants t)
    simp [h1, hasTys] at hv
  | .enm t (v :: vs), ty, hv, he => by
    cases ty <;> simp [V.hasTy] at hv
    obtain ⟨rfl, hv⟩ := hv
    obtain ⟨ty, h1, h2⟩ := payload_extent he t (mem_variants t)
    simp [h1, hasTys] at hv
    obtain ⟨e, h3, h4⟩ := C58_extent v ty hv.1 h2
    refine ⟨e, h3, ?_⟩
    simp [h4]

mutual
theorem _root_.Verif.V.hasTy_enm : ∀ (v : V) (t : Ty), v.hasTy t = true → ∀ g fs, V.enm g fs ∈ v.subs → (V.enm g fs).hasTy (.enm g.en) = true
  | .ext _, _, _, _, _, h => by simp at h
  | .bool _, _, _, _, _, h => by simp at h
  | .list vs, t, ht, g, fs, h => by
    simp at h
    cases t <;> simp [V.hasTy] at ht
    · exact allTy_enm vs _ ht.2 g fs h
    · exact allTy_enm vs _ ht g fs h
  | .enm g' vs, t, ht, g, fs, h => by
    simp at h
    cases t <;> simp [V.hasTy] at ht
    rcases h with ⟨rfl, rfl⟩ | h
    · simp [V.hasTy, ht.2]
    · exact hasTys_enm vs _ ht.2 g fs h
  | .node k' e' ws' vs, t, ht, g, fs, h => by
    simp at h
    cases t <;> simp [V.hasTy] at ht
    exact hasTys_enm vs _ ht.2 g fs h
theorem _root_.Verif.allTy_enm : ∀ (vs : List V) (t : Ty), allTy vs t = true → ∀ g fs, V.enm g fs ∈ subsL vs → (V.enm g fs).hasTy (.enm g.en) = true
  | [], _, _, _, _, h => by simp at h
  | v :: vs, t, ht, g, fs, h => by
    simp [allTy] at h ht
    exact h.elim (V.hasTy_enm v t ht.1 g fs) (allTy_enm vs t ht.2 g fs)
theorem _root_.Verif.hasTys_enm : ∀ (vs : List V) (ts : List Ty), hasTys vs ts = true → ∀ g fs, V.enm g fs ∈ subsL vs →
    (V.enm g fs).hasTy (.enm g.en) = true
  | [], _, _, _, _, h => by simp at h
  | v :: vs, [], ht, g, fs, h => by simp [hasTys] at ht
  | v :: vs, t :: ts, ht, g, fs, h => by
    simp [hasTys] at h ht
    exact h.elim (V.hasTy_enm v t ht.1 g fs) (hasTys_enm vs ts ht.2 g fs)
end

mutual
theorem _root_.Verif.V.subs_trans : ∀ (w v x : V), v ∈ w.subs → x ∈ v.subs → x ∈ w.subs
  | .ext _, v, x, h, hx => by simp at h; subst h; exact hx
  | .bool _, v, x, h, hx => by simp at h; subst h; exact hx
  | .list vs, v, x, h, hx => by
    simp only [V.subs, List.mem_cons] at h
    rcases h with rfl | h
    · exact hx
    · simp only [V.subs, List.mem_cons]
      exact .inr (subsL_trans vs v x h hx)
  | .enm _ vs, v, x, h, hx => by
    simp only [V.subs, List.mem_cons] at h
    rcases h with rfl | h
    · exact hx
    · simp only [V.subs, List.mem_cons]
      exact .inr (subsL_trans vs v x h hx)
  | .node _ _ _ vs, v, x, h, hx => by
    simp only [V.subs, List.mem_cons] at h
    rcases h with rfl | h
    · exact hx
    · simp only [V.subs, List.mem_cons]
      exact .inr (subsL_trans vs v x h hx)
theorem _root_.Verif.subsL_trans : ∀ (ws : List V) (v x : V), v ∈ subsL ws → x ∈ v.subs → x ∈ subsL ws
  | [], v, x, h, hx => by simp at h
  | w :: ws, v, x, h, hx => by
    simp only [subsL, List.mem_append] at h ⊢
    exact h.imp (fun h => V.subs_trans w v x h hx) (fun h => subsL_trans ws v x h hx)
end

/-- The same for every enum in a file that is parsed. -/
theorem C58_parsed_get (X : Xid) (cl cp : Bool) (code : Text) (f : File) (h : parseRustFile X cl cp code = .ok f)
    (t : Tag) (vs : List V) (hv : V.enm t vs ∈ subsL f.items) (hd : t.en.decompose = true) :
    ∃ x ty, vs = [x] ∧ t.payload = [ty] ∧ x.hasTy ty = true ∧
      ∀ u : Tag, u.en = t.en →
        (V.enm t vs).callIs (u.method c!"is") = some (decide (t = u)) ∧
        (V.enm t vs).callGet c!"as" (u.method c!"as") = some (if u = t then some x else none) ∧
        (V.enm t vs).callGet c!"into" (u.method c!"into") = some (if u = t then some x else none) := by
  have hty := allTy_enm _ _ (allTy_mem.mpr (C44_conforms X cl cp code f h)) t vs hv
  obtain ⟨t', x, ty, -, he, h2, h3, h4⟩ := C58_get _ _ hty hd
  cases he
  exact ⟨x, ty, rfl, h2, h3, fun u hu => ⟨C58_is t u _ hd hu, h4 u hu _, h4 u hu _⟩⟩

/-- Indexing the text with an enum or a struct of a file that is parsed: there is an extent, the first one in the value, and the result
is what indexing with that extent gives.  It does not panic if white space is ASCII (C19). -/
theorem C58_index (X : Xid) (cl cp : Bool) (code : Text) (f : File) (h : parseRustFile X cl cp code = .ok f) (v : V)
    (hv : v ∈ subsL f.items) (hk : (∃ k e ws vs, v = .node k e ws vs) ∨ (∃ t vs, v = .enm t vs ∧ t.en.hasExtent = true)) :
    ∃ e, v.exts.head? = some e ∧ e ∈ extsL f.items ∧ v.index code = sliceText code e ∧
      ∀ ts, lex X cl code = .ok ts → AsciiWhitespace code ts → (v.index code).isSome = true := by
  have key : ∃ e, v.extent? = some e ∧ v.exts.head? = some e := by
    rcases hk with ⟨k, e, ws, vs, rfl⟩ | ⟨t, vs, rfl, hd⟩
    · exact ⟨e, rfl, by simp⟩
    · exact C58_extent _ _ (allTy_enm _ _ (allTy_mem.mpr (C44_conforms X cl cp code f h)) t vs hv) hd
  obtain ⟨e, h1, h2⟩ := key
  have h3 : e ∈ extsL f.items := by
    obtain ⟨y, hy, hye⟩ := List.mem_filterMap.mp (List.mem_of_head? h2)
    exact List.mem_filterMap.mpr ⟨y, subsL_trans _ _ _ hv hy, hye⟩
  have h4 : v.index code = sliceText code e := by simp [V.index, h1]
  refine ⟨e, h2, h3, h4, fun ts hts ha => ?_⟩
  rw [h4]
  exact (C19_slices_partial X cl cp code f h ts hts ha).1 e h3

/-- The enums of a file, for the example. -/
def enumsOf (f : File) : List V := (subsL f.items).filter fun | .enm _ _ => true | _ => false

example : ∃ f, parseRustFile asciiXid true true c!"fn f() { 1 + a } struct S;" = .ok f ∧
    decide (((enumsOf f).filterMap (V.callIs c!"is_function") = [true, false]) ∧
      ((enumsOf f).filterMap (V.callIs c!"is_binary")).count true = 1 ∧
      (enumsOf f).filterMap (V.callIs c!"is_functions") = [] ∧
      ((enumsOf f).filterMap fun v => (v.callGet c!"as" c!"as_struct").bind fun p => p.bind (V.index c!"fn f() { 1 + a } struct S;")) = [c!"struct S;"] ∧
      ((enumsOf f).filterMap (V.index c!"fn f() { 1 + a } struct S;")).head? = some c!"fn f() { 1 + a }") = true :=
  FileResult.of_okWith (by decide +kernel)

end Verif.Props
