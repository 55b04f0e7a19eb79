import Verif.Proofs.Nest
import Verif.Props.Comb
/-!
# Extents inside extents

C22.
-/

namespace Verif.Props
open Verif.Spec

/-- A list of bounds without bounds, as after the colon in `struct S<T: > {}`. -/
def IsEmptyBounds (x : V) : Prop := ∃ e ws, x = .node .TraitBounds e ws [.list []]

theorem V.bare_own (v : V) : v.bare.own = v.own := by cases v <;> rfl

theorem bare_hollow {v : V} (h : v.bare.hollow = true) : IsEmptyBounds v := by
  unfold V.hollow at h
  split at h
  · next e ws heq =>
    obtain ⟨ws', vs, rfl, h1⟩ := V.bare_eq_node heq
    obtain ⟨w, rfl, h2⟩ := bareL_eq_one h1
    obtain ⟨xs, rfl, h3⟩ := V.bare_eq_list h2
    rw [bareL_eq_nil h3]
    exact ⟨e, ws', rfl⟩
  · cases h

/-- C22: the extent of every struct in a file holds the extents of everything below it.  Left out are pattern names and fields of
struct literals, whose extents are always empty, and, among what is below, empty lists of bounds. -/
theorem C22_children_inside_partial (X : Xid) (cl cp : Bool) (code : Text) (f : File) (h : parseRustFile X cl cp code = .ok f) :
    ∀ k e ws fs, V.node k e ws fs ∈ subsL f.items → k ≠ .PatternName → k ≠ .StructLiteralField →
      ∀ x ∈ subsL fs, ¬ IsEmptyBounds x → ∀ e', x.own = some e' → e.s ≤ e'.s ∧ e'.e ≤ e.e := by
  intro k e ws fs hn hk1 hk2 x hx hne e' he'
  obtain ⟨ts, items, q, hp⟩ := parseRustFile_ok h (Ψ := Fits) (fun _ hs => fits_inductive hs)
  have h1 := ItemsR.nest (Src.of_extract (extract_ok hp.lexed)) hp.run
  have h2 : V.node k e [] (bareL fs) ∈ subsL items := hp.sub hn
  rcases h1 _ _ _ _ h2 with h3 | h3 | h3
  · exact absurd h3 hk1
  · exact absurd h3 hk2
  · refine h3 e' (List.mem_filterMap.mpr ⟨x.bare, bareL_subs _ _ hx, ?_⟩)
    unfold V.firm
    rw [if_neg (fun h => hne (bare_hollow h)), V.bare_own, he']

/-- Some value below a struct that satisfies `p` has an extent that does not lie in the extent of the struct. -/
def sticksOut (p : K → V → Bool) (vs : List V) : Bool :=
  (subsL vs).any fun
    | .node k e _ fs => (subsL fs).any fun x => p k x && (match x.own with
      | some e' => decide (e'.s < e.s) || decide (e.e < e'.e)
      | none => false)
    | _ => false

/-- Not so for pattern names and fields of struct literals, … -/
theorem C22_false_empty : ∃ f, parseRustFile asciiXid true true c!"fn f(a @ _: u8) { S { b: a } }" = .ok f ∧
    (sticksOut (fun k _ => k == .PatternName) f.items && sticksOut (fun k _ => k == .StructLiteralField) f.items) = true :=
  FileResult.of_okWith (by decide +kernel)

/-- … and an empty list of bounds may lie after the end of the declaration that it belongs to. -/
theorem C22_false_bounds : ∃ f, parseRustFile asciiXid true true c!"struct S<T: > { a: T }" = .ok f ∧
    sticksOut (fun k x => k == .GenericDeclarationType && match x with | .node .TraitBounds .. => true | _ => false) f.items = true :=
  FileResult.of_okWith (by decide +kernel)

/-- C22 applies to a file with split tokens after whitespace, where extents end in the wrong place but not outside. -/
example : ∃ f, parseRustFile asciiXid true true c!"fn f(a: V<V<u8 >>) -> u8 { let b = || 1 + 2; c<d>>e }" = .ok f ∧
    (decide (20 ≤ (extsL f.items).length) && !sticksOut (fun k _ => k != .PatternName) f.items) = true :=
  FileResult.of_okWith (by decide +kernel)

end Verif.Props
