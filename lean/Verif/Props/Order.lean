import Verif.Proofs.Order
import Verif.Props.Lex
import Verif.Props.Parse
import Verif.Props.Derive
/-!
# C80: the tree is in source order
-/

namespace Verif.Props
open Verif Verif.Spec

theorem convertNumber_tidy {n : Number}
    (h : (n.integral :: (n.fractional.toList ++ n.exponent.toList ++ n.type_suffix.toList)).Pairwise (fun a b => a.s ≤ a.e ∧ a.e ≤ b.s))
    (hin : ∀ x ∈ n.integral :: (n.fractional.toList ++ n.exponent.toList ++ n.type_suffix.toList), n.extent.s ≤ x.s) :
    Tidy [convertNumber n] := by
  have hopt : ∀ o : Option Extent, Tidy [optExt o] := by
    intro o
    cases o with
    | none => exact Tidy.list.mpr ⟨sorted_nil, .nil⟩
    | some e => exact Tidy.list.mpr ⟨sorted_one _, .ext e⟩
  have hext : ∀ o : Option Extent, (optExt o).exts = o.toList := by intro o; cases o <;> rfl
  have hs : Sorted [.ext n.integral, optExt n.fractional, optExt n.exponent, optExt n.type_suffix] := by
    simp only [List.pairwise_cons, List.pairwise_append, List.mem_append] at h
    simp only [sorted_cons, hext, exts_ext, extsL_cons, extsL_nil, List.mem_append, sorted_nil, List.append_nil, List.not_mem_nil]
    obtain ⟨h1, ⟨-, -, h2⟩, -, h3⟩ := h
    refine ⟨fun x hx y hy => ?_, fun x hx y hy => ?_, fun x hx y hy => ?_, by simp⟩
    · simp only [List.mem_singleton] at hx
      subst hx
      refine (h1 y ?_).2
      rcases hy with hy | hy | hy
      · exact .inl (.inl hy)
      · exact .inl (.inr hy)
      · exact .inr hy
    · rcases hy with hy | hy
      · exact (h2 x hx y hy).2
      · exact (h3 x (.inl hx) y hy).2
    · exact (h3 x (.inr hx) y hy).2
  have ht : Tidy [.ext n.integral, optExt n.fractional, optExt n.exponent, optExt n.type_suffix] :=
    Tidy.cons.mpr ⟨.ext _, Tidy.cons.mpr ⟨hopt _, Tidy.cons.mpr ⟨hopt _, hopt _⟩⟩⟩
  have hl : ∀ y ∈ extsL [.ext n.integral, optExt n.fractional, optExt n.exponent, optExt n.type_suffix], n.extent.s ≤ y.s := by
    intro y hy
    simp only [hext, exts_ext, extsL_cons, extsL_nil, List.append_nil] at hy
    exact hin y (by simpa using hy)
  unfold convertNumber
  refine .node (.inr (sorted_cons.mpr ⟨by simp, sorted_one _⟩)) (Tidy.cons.mpr ⟨Tidy.list.mpr ⟨sorted_nil, .nil⟩, ?_⟩) ?_
  · split <;> exact Tidy.enm.mpr ⟨sorted_one _, .node (.inr hs) ht hl⟩
  · intro y hy
    simp only [extsL_cons, exts_list, extsL_nil, List.nil_append, List.append_nil] at hy
    split at hy <;> simp only [exts_enm, exts_node, extsL_cons _ [], extsL_nil, List.append_nil, List.mem_cons] at hy <;>
      exact hy.elim (fun h => by rw [h]; exact Nat.le_refl _) (hl y)

theorem numbers_of_lex {X : Xid} {cl : Bool} {code : Text} {ts : List Token} (h : lex X cl code = .ok ts) : Numbers (significant ts) := by
  intro n hn
  obtain ⟨_, _, _, _, -, -, -, -, -, -, hp, hin, -⟩ := C12_number_parts X cl code n (yields_of_lex h (List.mem_filter.mp hn).1)
  exact convertNumber_tidy hp (fun x hx => (hin x hx).1)

theorem sorted_bareL (vs : List V) : Sorted (bareL vs) ↔ Sorted vs := by
  induction vs with
  | nil => rfl
  | cons v vs ih =>
    have h1 : v.bare.exts = v.exts := by
      have := extsL_bareL [v]
      simpa [bareL] using this
    simp only [bareL, sorted_cons, ih, extsL_bareL, h1]

theorem kids_bare (v : V) : kids v.bare = bareL (kids v) := by cases v <;> rfl

theorem unsorted_bare (v : V) (h : unsorted v.bare = true) : unsorted v = true := by
  cases v with
  | node k e ws vs =>
    simp only [V.bare] at h
    generalize hx : V.node k e [] (bareL vs) = x at h
    unfold unsorted at h
    split at h
    · simp only [V.node.injEq] at hx
      obtain ⟨rfl, rfl, -, hx⟩ := hx
      obtain ⟨a, vs, rfl, rfl, hx1⟩ := bareL_eq_cons hx
      obtain ⟨b, rfl, hb⟩ := bareL_eq_one hx1
      obtain ⟨l, rfl, hl⟩ := V.bare_eq_list hb
      obtain ⟨c, l, rfl, rfl, hl⟩ := bareL_eq_cons hl
      rfl
    · simp only [V.node.injEq] at hx
      obtain ⟨rfl, rfl, -, hx⟩ := hx
      obtain ⟨a, vs, rfl, rfl, hx2⟩ := bareL_eq_cons hx
      obtain ⟨a', vs, rfl, rfl, hx3⟩ := bareL_eq_cons hx2
      obtain ⟨a'', vs, rfl, rfl, hx4⟩ := bareL_eq_cons hx3
      obtain ⟨d, vs, rfl, hd, hx5⟩ := bareL_eq_cons hx4
      obtain ⟨b, rfl, hb⟩ := bareL_eq_one hx5
      obtain ⟨l, rfl, hl⟩ := V.bare_eq_list hd
      obtain ⟨c, l, rfl, rfl, hl⟩ := bareL_eq_cons hl
      obtain ⟨l', rfl, hl'⟩ := V.bare_eq_enm hb
      rfl
    · simp only [V.node.injEq] at hx
      obtain ⟨rfl, rfl, -, hx⟩ := hx
      obtain ⟨a, vs, rfl, ha, hx6⟩ := bareL_eq_cons hx
      obtain ⟨b, rfl, hb⟩ := bareL_eq_one hx6
      cases a <;> simp only [V.bare, V.node.injEq, reduceCtorEq] at ha
      cases b <;> simp only [V.bare, V.node.injEq, reduceCtorEq] at hb
      obtain ⟨-, rfl, -⟩ := ha
      obtain ⟨-, rfl, -⟩ := hb
      exact h
    · simp only [V.node.injEq] at hx
      obtain ⟨rfl, rfl, -, hx⟩ := hx
      obtain ⟨d, vs, rfl, hd, hx7⟩ := bareL_eq_cons hx
      obtain ⟨b, rfl, hb⟩ := bareL_eq_one hx7
      obtain ⟨l, rfl, hl⟩ := V.bare_eq_list hd
      obtain ⟨c, l, rfl, rfl, hl⟩ := bareL_eq_cons hl
      obtain ⟨l', rfl, hl'⟩ := V.bare_eq_enm hb
      exact h
    · cases h
  | _ => simp [V.bare, unsorted] at h

theorem file_tidy {X : Xid} {cl cp : Bool} {code : Text} {f : File} (h : parseRustFile X cl cp code = .ok f) :
    Sorted f.items ∧ Tidy f.items := by
  obtain ⟨ts, items, q, hp⟩ := parseRustFile_ok h (Ψ := fun toks nt _ p q vs => Neat toks nt p q vs) (fun _ hs => neat_inductive hs)
  have hv : ValidPt (significant ts) .zero := ValidPt.of_none hp.src.eof.pos
  have hr := (items_row hp.src (numbers_of_lex hp.lexed) hp.run hv).2
  refine ⟨by rw [← sorted_bareL, hp.bare]; exact hr.sorted, fun x hx => ?_⟩
  obtain ⟨h1, h2⟩ := hr.tidy _ (hp.sub hx)
  refine ⟨?_, ?_⟩
  · rcases h1 with h1 | h1
    · exact .inl (unsorted_bare x h1)
    · rw [kids_bare, sorted_bareL] at h1
      exact .inr h1
  · unfold Leads at h2 ⊢
    rwa [own_bare, kids_bare, extsL_bareL] at h2

/-- The items of an accepted program are in source order, and so are the elements of every list in it, and the fields of every variant and of
every struct but the few that `unsorted` names. -/
theorem C80_source_order (X : Xid) (cl cp : Bool) (code : Text) (f : File) (h : parseRustFile X cl cp code = .ok f) :
    Sorted f.items ∧ ∀ x ∈ subsL f.items, unsorted x = true ∨ Sorted (kids x) :=
  ⟨(file_tidy h).1, fun x hx => ((file_tidy h).2 x hx).1⟩

/-- Every struct starts no later than everything in it; there is no exception. -/
theorem C80_begins (X : Xid) (cl cp : Bool) (code : Text) (f : File) (h : parseRustFile X cl cp code = .ok f) :
    ∀ k e ws fs, V.node k e ws fs ∈ subsL f.items → ∀ y ∈ extsL fs, e.s ≤ y.s :=
  fun _ e _ _ hx => ((file_tidy h).2 _ hx).2 e rfl

theorem preorder (v : V) (ht : Tidy [v]) (hu : ∀ x ∈ v.subs, unsorted x = false) (hw : ∀ x ∈ v.exts, x.s ≤ x.e) :
    v.exts.Pairwise (fun x y => x.s ≤ y.s) := by
  refine V.rec (motive_1 := fun v => Tidy [v] → (∀ x ∈ v.subs, unsorted x = false) → (∀ x ∈ v.exts, x.s ≤ x.e) →
      v.exts.Pairwise (fun x y => x.s ≤ y.s))
    (motive_2 := fun vs => Sorted vs → Tidy vs → (∀ x ∈ subsL vs, unsorted x = false) → (∀ x ∈ extsL vs, x.s ≤ x.e) →
      (extsL vs).Pairwise (fun x y => x.s ≤ y.s)) ?_ ?_ ?_ ?_ ?_ ?_ ?_ v ht hu hw
  · intro e _ _ _; simp
  · intro b _ _ _; simp
  · intro vs ih ht hu hw
    rw [Tidy.list] at ht
    exact ih ht.1 ht.2 (fun x hx => hu x (by simp [hx])) hw
  · intro t vs ih ht hu hw
    rw [Tidy.enm] at ht
    exact ih ht.1 ht.2 (fun x hx => hu x (by simp [hx])) hw
  · intro k e ws vs ih ht hu hw
    have h1 := (ht (.node k e ws vs) (by simp)).1.resolve_left (by rw [hu _ (by simp)]; simp)
    have h2 := Tidy.of_node ht
    rw [exts_node, List.pairwise_cons]
    exact ⟨h2.2, ih h1 h2.1 (fun x hx => hu x (by simp [hx])) (fun x hx => hw x (by simp [hx]))⟩
  · intro _ _ _ _; simp
  · intro v vs ih ih' hs ht hu hw
    obtain ⟨h1, h2⟩ := sorted_cons.mp hs
    obtain ⟨h3, h4⟩ := Tidy.cons.mp ht
    rw [extsL_cons, List.pairwise_append]
    refine ⟨ih h3 (fun x hx => hu x (by simp [hx])) (fun x hx => hw x (by simp [hx])),
      ih' h2 h4 (fun x hx => hu x (by simp [hx])) (fun x hx => hw x (by simp [hx])), fun x hx y hy => ?_⟩
    have := h1 x hx y hy
    have := hw x (by simp [hx])
    omega

/-- Whoever goes through the tree, or a part of it, fields in the order of their declaration and structs before what is in them, meets extents that
never start earlier than the one before, as long as none of the exceptions is met. -/
theorem C80_preorder (X : Xid) (cl cp : Bool) (code : Text) (f : File) (h : parseRustFile X cl cp code = .ok f) :
    ∀ v ∈ subsL f.items, (∀ x ∈ subsL [v], unsorted x = false) → (extsL [v]).Pairwise (fun x y => x.s ≤ y.s) := by
  intro v hv hu
  rw [subsL_single] at hu
  have hsub : ∀ x ∈ v.subs, x ∈ subsL f.items := fun x hx => subsL_trans _ _ _ hv hx
  have := preorder v (fun x hx => (file_tidy h).2 x (hsub x (by rwa [subsL_single] at hx))) hu (fun x hx => by
    obtain ⟨y, hy, hyx⟩ := List.mem_filterMap.mp hx
    exact (C18_file_extents X cl cp code f h x (List.mem_filterMap.mpr ⟨y, hsub y hy, hyx⟩)).1)
  simpa using this

/-- C80_preorder applies to whole functions. -/
example : ∃ f, parseRustFile asciiXid true true c!"fn f<T: A>(a: u8) -> u8 { let x = 1.5 + a[2](b, -c); match x { A => d, _ => {} } }" = .ok f ∧
    (decide (40 ≤ (extsL f.items).length) && (subsL f.items).all fun x => !unsorted x) = true :=
  FileResult.of_okWith (by decide +kernel)

/-- Lists are always in source order, whatever they belong to. -/
theorem C80_lists (X : Xid) (cl cp : Bool) (code : Text) (f : File) (h : parseRustFile X cl cp code = .ok f) :
    ∀ vs, V.list vs ∈ subsL f.items → Sorted vs := by
  intro vs hv
  exact ((C80_source_order X cl cp code f h).2 _ hv).resolve_left (by simp [unsorted])

theorem sorted_unique {vs : List V} (h : Sorted vs) {i j : Nat} {a b : V} (hi : vs[i]? = some a) (hj : vs[j]? = some b) {pos : Nat}
    {x y : Extent} (hx : x ∈ extsL [a]) (hy : y ∈ extsL [b]) (hxp : x.s ≤ pos ∧ pos < x.e) (hyp : y.s ≤ pos ∧ pos < y.e) : i = j := by
  have h := List.pairwise_iff_getElem.mp h
  obtain ⟨hi', rfl⟩ := List.getElem?_eq_some_iff.mp hi
  obtain ⟨hj', rfl⟩ := List.getElem?_eq_some_iff.mp hj
  rcases Nat.lt_trichotomy i j with hij | hij | hij
  · have := h i j hi' hj' hij x hx y hy
    omega
  · exact hij
  · have := h j i hj' hi' hij y hy x hx
    omega

/-- Whoever looks for a place of the text from above has never two ways down: the place is inside at most one of the items, and inside at most
one of the elements of a list or the fields of a variant or struct that is not one of the exceptions. -/
theorem C80_one_way_down (X : Xid) (cl cp : Bool) (code : Text) (f : File) (h : parseRustFile X cl cp code = .ok f) (pos : Nat)
    (i j : Nat) (a b : V) (x y : Extent) (hx : x ∈ extsL [a]) (hy : y ∈ extsL [b]) (hxp : x.s ≤ pos ∧ pos < x.e)
    (hyp : y.s ≤ pos ∧ pos < y.e) :
    (f.items[i]? = some a → f.items[j]? = some b → i = j) ∧
    ∀ v ∈ subsL f.items, unsorted v = false → (kids v)[i]? = some a → (kids v)[j]? = some b → i = j := by
  obtain ⟨h1, h2⟩ := C80_source_order X cl cp code f h
  exact ⟨fun hi hj => sorted_unique h1 hi hj hx hy hxp hyp,
    fun v hv hu hi hj => sorted_unique ((h2 v hv).resolve_left (by simp [hu])) hi hj hx hy hxp hyp⟩

/-- The place of `b` in two items: it is inside the second, and there inside the header. -/
example : ∃ f, parseRustFile asciiXid true true c!"mod a; fn b() {}" = .ok f ∧
    (((f.items.map fun v => (extsL [v]).any fun e => decide (e.s ≤ 10 ∧ 10 < e.e)) == [false, true]) &&
      (subsL f.items).any fun v => !unsorted v && ((kids v).map fun w => (extsL [w]).any fun e => decide (e.s ≤ 10 ∧ 10 < e.e)) == [true, false]) = true :=
  FileResult.of_okWith (by decide +kernel)

instance (vs : List V) : Decidable (Sorted vs) := by unfold Sorted; infer_instance

/-- Each of the exceptions occurs. -/
theorem C80_exceptions : ∃ f, parseRustFile asciiXid true true
      c!"struct S<T>(T) where T: U; fn f() { async move { }; S { x }; #[a] -x; }" = .ok f ∧
    ([K.AsyncBlock, .Struct, .StructLiteralField, .AttributedExpression].all fun k => (subsL f.items).any fun x =>
      (match x with | .node k' _ _ _ => k == k' | _ => false) && !decide (Sorted (kids x))) = true :=
  FileResult.of_okWith (by decide +kernel)

/-- The same structs written otherwise are no exceptions. -/
example : ∃ f, parseRustFile asciiXid true true
      c!"struct S<T>(T); pub struct R<T> where T: U { a: T } fn f() { async { }; S { x: y }; #[a] x; -x; }" = .ok f ∧
    ((subsL f.items).all (fun x => !unsorted x) && ([K.AsyncBlock, .Struct, .StructLiteralField, .AttributedExpression].all fun k =>
      (subsL f.items).any fun x => match x with | .node k' _ _ _ => k == k' | _ => false)) = true :=
  FileResult.of_okWith (by decide +kernel)

/-- C80 for a program with lists, fields and operators. -/
example : ∃ f, parseRustFile asciiXid true true
      c!"fn f<'a, T: A + B>(self, a: u8, b: [u8; 3]) -> u8 where T: C { let x = 1.5e3f64 + a[2](b, c); #[a] match x { A | B if c => d, _ => {} } } mod m { use a; use b; }" = .ok f ∧
    (decide (60 ≤ (extsL f.items).length) && decide (5 ≤ ((subsL f.items).filter fun x => match x with | .list vs => decide (2 ≤ vs.length) | _ => false).length) &&
      decide (10 ≤ ((subsL f.items).filter fun x => !unsorted x && decide (2 ≤ ((kids x).filter fun v => extsL [v] != []).length)).length)) = true :=
  FileResult.of_okWith (by decide +kernel)

end Verif.Props
