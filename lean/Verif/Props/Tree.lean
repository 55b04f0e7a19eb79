import Verif.Proofs.Nodes
import Verif.Props.Comb
/-!
# The structure of the tree

C44.
-/

namespace Verif.Props
open Verif.Spec

/-- C44: every item of a file that is parsed conforms to the declarations of the structs and enums. -/
theorem C44_conforms (X : Xid) (cl cp : Bool) (code : Text) (f : File) (h : parseRustFile X cl cp code = .ok f) :
    ∀ v ∈ f.items, v.hasTy (.node .AttributedItem) = true := by
  obtain ⟨ts, items, q, hp⟩ := parseRustFile_ok h (Ψ := fun _ nt _ _ _ vs => hasS vs nt.sty = true)
    (fun toks _ => typed_inductive)
  have h1 := hp.run.typed
  rw [← hp.bare, bareL_allTy] at h1
  exact allTy_mem.mp h1

mutual
theorem _root_.Verif.V.hasTy_sub : ∀ (v : V) (t : Ty), v.hasTy t = true → ∀ k e ws fs, V.node k e ws fs ∈ v.subs →
    hasTys fs (k.fields.map (·.ty)) = true
  | .ext _, _, _, _, _, _, _, h => by simp at h
  | .bool _, _, _, _, _, _, _, h => by simp at h
  | .list vs, t, ht, k, e, ws, fs, h => by
    simp at h
    cases t <;> simp [V.hasTy] at ht
    · exact allTy_sub vs _ ht.2 k e ws fs h
    · exact allTy_sub vs _ ht k e ws fs h
  | .enm g vs, t, ht, k, e, ws, fs, h => by
    simp at h
    cases t <;> simp [V.hasTy] at ht
    exact hasTys_sub vs _ ht.2 k e ws fs h
  | .node k' e' ws' vs, t, ht, k, e, ws, fs, h => by
    simp at h
    cases t <;> simp [V.hasTy] at ht
    rcases h with ⟨rfl, rfl, rfl, rfl⟩ | h
    · exact ht.2
    · exact hasTys_sub vs _ ht.2 k e ws fs h
theorem _root_.Verif.allTy_sub : ∀ (vs : List V) (t : Ty), allTy vs t = true → ∀ k e ws fs, V.node k e ws fs ∈ subsL vs →
    hasTys fs (k.fields.map (·.ty)) = true
  | [], _, _, _, _, _, _, h => by simp at h
  | v :: vs, t, ht, k, e, ws, fs, h => by
    simp [allTy] at h ht
    exact h.elim (V.hasTy_sub v t ht.1 k e ws fs) (allTy_sub vs t ht.2 k e ws fs)
theorem _root_.Verif.hasTys_sub : ∀ (vs : List V) (ts : List Ty), hasTys vs ts = true → ∀ k e ws fs, V.node k e ws fs ∈ subsL vs →
    hasTys fs (k.fields.map (·.ty)) = true
  | [], _, _, _, _, _, _, h => by simp at h
  | v :: vs, [], ht, k, e, ws, fs, h => by simp [hasTys] at ht
  | v :: vs, t :: ts, ht, k, e, ws, fs, h => by
    simp [hasTys] at h ht
    exact h.elim (V.hasTy_sub v t ht.1 k e ws fs) (hasTys_sub vs ts ht.2 k e ws fs)
end

/-- C44 for the structs at any depth: the fields are those declared, and of the types declared. -/
theorem C44_structs (X : Xid) (cl cp : Bool) (code : Text) (f : File) (h : parseRustFile X cl cp code = .ok f) :
    ∀ k e ws fs, V.node k e ws fs ∈ subsL f.items → hasTys fs (k.fields.map (·.ty)) = true :=
  allTy_sub _ _ (allTy_mem.mpr (C44_conforms X cl cp code f h))

/-- The structs of a file. -/
def kinds (f : File) : List K := (subsL f.items).filterMap fun | .node k _ _ _ => some k | _ => none

/-- C44 is about files with many kinds of structs. -/
example : ∃ f, parseRustFile asciiXid true true c!"struct S<T: A>(u8, T); impl X for S { fn f(&self) { if a { b } } }" = .ok f ∧
    decide (30 ≤ (kinds f).length ∧ 20 ≤ (kinds f).eraseDups.length ∧ f.items.length = 2) = true :=
  FileResult.of_okWith (by decide +kernel)

/-- There are values that do not conform. -/
example : (V.node .Parenthetical ⟨0, 1⟩ [] []).hasTy (.node .Parenthetical) = false := rfl

end Verif.Props
