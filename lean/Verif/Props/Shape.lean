import Verif.Proofs.Shape
import Verif.Props.Parse
/-!
# Property theorem: layout does not change the tree (C41)
-/

namespace Verif
open Verif.Spec

/-! ## The loop over the items -/

/-- Both succeed with trees of the same shape, or both fail in the same way at the start of corresponding tokens. -/
inductive ParseResult.Sim (toks toks' : List Token) : ParseResult (List V) → ParseResult (List V) → Prop
  | ok {vs ws} : Likes vs ws → Sim toks toks' (.ok vs) (.ok ws)
  | err {i : Nat} {t t' : Token} {errs} : toks[i]? = some t → toks'[i]? = some t' → Sim toks toks' (.err t.extent.s errs) (.err t'.extent.s errs)
  | panic : Sim toks toks' .panic .panic
  | hang : Sim toks toks' .hang .hang

theorem parseItems_sim {toks toks' : List Token} (h : SameKinds toks toks') (clear : Bool) (n : Nat) (fails : PFailures) (a : Amb)
    (pt : Pt) : ∀ {items items'}, Likes items items' →
    ParseResult.Sim toks toks' (parseItems toks clear n fails a pt items) (parseItems toks' clear n fails a pt items') := by
  induction n generalizing fails a pt with
  | zero => intro _ _ _; exact .hang
  | succ n ih =>
    intro items items' hi
    unfold parseItems
    have h0 := h.get pt.off
    generalize toks[pt.off]? = x at h0
    generalize toks'[pt.off]? = y at h0
    cases h0 with
    | none => exact .ok hi
    | some ht =>
      dsimp only
      rw [ht.eof]
      split
      · exact .ok hi
      · have h1 : P.Sim Likes (parseItem toks) (parseItem toks') := by
          unfold parseItem
          have h2 : evalFuel toks = evalFuel toks' := by simp [evalFuel, h.length]
          rw [← h2]
          exact evalG_sim h (eval_sim h _) itemG
        rcases (h1 a pt).elim with ⟨p', v, w, a', l, hr, h1, h2⟩ | ⟨p', e, a', l, h1, h2⟩ | ⟨a', l, h1, h2⟩ | ⟨a', l, h1, h2⟩ <;>
          simp only [h1, h2]
        · split
          · refine ih _ _ _ ?_
            unfold Likes at *
            simp [hi, hr]
          · exact .panic
        · have h3 := h.get ((fails.addAll l).add p' e).point.off
          generalize hx : toks[((fails.addAll l).add p' e).point.off]? = x at h3
          generalize hy : toks'[((fails.addAll l).add p' e).point.off]? = y at h3
          cases h3 with
          | none => exact .panic
          | some h3 => exact .err hx hy
        · exact .panic
        · exact .hang

theorem parseTokens_sim {toks toks' : List Token} (h : SameKinds toks toks') (clear : Bool) :
    ParseResult.Sim toks toks' (parseTokens toks clear) (parseTokens toks' clear) := by
  unfold parseTokens
  rw [h.length]
  exact parseItems_sim h clear _ _ _ _ rfl

mutual
theorem shape_bare : ∀ v : V, shape v.bare = shape v
  | .ext _ => rfl
  | .bool _ => rfl
  | .list vs => by simp [V.bare, shapes_bareL vs]
  | .enm _ vs => by simp [V.bare, shapes_bareL vs]
  | .node _ _ _ vs => by simp [V.bare, shapes_bareL vs]
theorem shapes_bareL : ∀ vs : List V, shapes (bareL vs) = shapes vs
  | [] => rfl
  | v :: vs => by simp [bareL, shape_bare v, shapes_bareL vs]
end

end Verif

namespace Verif.Props
open Verif Verif.Spec

/-- The outcomes for two texts whose significant tokens are `toks` and `toks'`: two trees of the same shape, or two syntax
errors of the same kinds, at the start of corresponding tokens. -/
def SameOutcome (toks toks' : List Token) : FileResult → FileResult → Prop
  | .ok f, .ok f' => shapes f.items = shapes f'.items
  | .parseErr loc errs, .parseErr loc' errs' =>
    errs = errs' ∧ ∃ (i : Nat) (t t' : Token), toks[i]? = some t ∧ toks'[i]? = some t' ∧ loc = t.extent.s ∧ loc' = t'.extent.s
  | _, _ => False

/-- Two texts whose tokens, without whitespace and comments, are of the same kinds in the same order are both accepted, with
trees of the same shape, or both rejected, for the same reasons and at the same token. -/
theorem C41_layout (X X' : Xid) (cl cl' cp : Bool) (code code' : Text) (ts ts' : List Token)
    (h : lex X cl code = .ok ts) (h' : lex X' cl' code' = .ok ts')
    (hk : SameKinds (ts.filter fun t => !isTrivia t) (ts'.filter fun t => !isTrivia t)) :
    SameOutcome (ts.filter fun t => !isTrivia t) (ts'.filter fun t => !isTrivia t)
      (parseRustFile X cl cp code) (parseRustFile X' cl' cp code') := by
  have hs := parseTokens_sim hk cp
  rw [← significant_eq, ← significant_eq] at *
  rcases parseRustFile_cases X cl cp code (Ψ := fun _ _ _ _ _ _ => True) (fun _ _ => true_inductive) with
    ⟨d, hd, -⟩ | ⟨us, loc, errs, hl, hp, hr⟩ | ⟨f, us, items, q, hr, hp, hf⟩
  · rw [h] at hd; cases hd
  · rw [h] at hl; cases hl
    rcases parseRustFile_cases X' cl' cp code' (Ψ := fun _ _ _ _ _ _ => True) (fun _ _ => true_inductive) with
      ⟨d, hd, -⟩ | ⟨us, loc', errs', hl, hp', hr'⟩ | ⟨f, us, items, q, hr', hp', hf⟩
    · rw [h'] at hd; cases hd
    · rw [h'] at hl; cases hl
      rw [hp, hp'] at hs
      rw [hr, hr']
      cases hs with
      | err h1 h2 => exact ⟨rfl, _, _, _, h1, h2, rfl, rfl⟩
    · have hl := hf.lexed
      rw [h'] at hl; cases hl
      rw [hp, hp'] at hs
      cases hs
  · have hl := hf.lexed
    rw [h] at hl; cases hl
    rcases parseRustFile_cases X' cl' cp code' (Ψ := fun _ _ _ _ _ _ => True) (fun _ _ => true_inductive) with
      ⟨d, hd, -⟩ | ⟨us, loc', errs', hl, hp', hr'⟩ | ⟨f', us, items', q', hr', hp', hf'⟩
    · rw [h'] at hd; cases hd
    · rw [h'] at hl; cases hl
      rw [hp, hp'] at hs
      cases hs
    · have hl := hf'.lexed
      rw [h'] at hl; cases hl
      rw [hp, hp'] at hs
      rw [hr, hr']
      cases hs with
      | ok hs =>
        show shapes f.items = shapes f'.items
        rw [← shapes_bareL, hf.took.bare, shapes_bareL, hs, ← shapes_bareL, ← hf'.took.bare, shapes_bareL]

instance : DecidableRel SameKind := fun t t' => by
  unfold SameKind; split <;> infer_instance

/-- A decision procedure for the examples. -/
def sameKinds : List Token → List Token → Bool
  | [], [] => true
  | t :: ts, t' :: ts' => decide (SameKind t t') && sameKinds ts ts'
  | _, _ => false

theorem sameKinds_iff {ts ts' : List Token} (h : sameKinds ts ts' = true) : SameKinds ts ts' := by
  induction ts generalizing ts' with
  | nil => cases ts' <;> simp [sameKinds] at h; exact .nil
  | cons t ts ih =>
    cases ts' with
    | nil => simp [sameKinds] at h
    | cons t' ts' => simp [sameKinds] at h; exact .cons h.1 (ih h.2)

/-- For the examples. -/
def LexResult.okWith (r : LexResult) (p : List Token → Bool) : Bool := match r with | .ok ts => p ts | _ => false

theorem LexResult.of_okWith {r : LexResult} {p : List Token → Bool} (h : LexResult.okWith r p = true) :
    ∃ ts, r = .ok ts ∧ p ts = true := by
  cases r <;> simp_all [LexResult.okWith]

/-- The hypotheses are met by two ways to lay out a function, with different names and numbers. -/
example : ∃ ts ts', lex asciiXid true c!"fn a(b:c)->Vec<Vec<d>>{b+1.0}" = .ok ts ∧
    lex asciiXid true c!"fn f (x : t)  -> A < B < g >> {\n  // comment\n  y + 22.5 }\n" = .ok ts' ∧
    SameKinds (ts.filter fun t => !isTrivia t) (ts'.filter fun t => !isTrivia t) := by
  obtain ⟨ts, h1, h⟩ := LexResult.of_okWith (r := lex asciiXid true c!"fn a(b:c)->Vec<Vec<d>>{b+1.0}")
    (p := fun ts => LexResult.okWith
      (lex asciiXid true c!"fn f (x : t)  -> A < B < g >> {\n  // comment\n  y + 22.5 }\n") fun ts' =>
        sameKinds (ts.filter fun t => !isTrivia t) (ts'.filter fun t => !isTrivia t)) (by decide +kernel)
  obtain ⟨ts', h2, h⟩ := LexResult.of_okWith h
  exact ⟨ts, ts', h1, h2, sameKinds_iff h⟩

end Verif.Props
