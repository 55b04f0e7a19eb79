import Verif.Proofs.Invert
import Verif.Props.Comb
/-!
# Property theorems about parentheses and blocks (C30, C31)

`eval toks n nt` is the parser function `nt` of `src/parser`, `n` is fuel for the recursion (`Proofs/Terminate.lean` shows
that there is enough of it).
-/

namespace Verif.Props
open Verif Verif.Spec

/-- The parser of one token. -/
abbrev tokenP (toks : List Token) (k : TK) : P Extent := token toks (convTK k) (.Expected k)

theorem tok_failsInPlace (toks : List Token) (rec : NT → P (List V)) (k : TK) :
    FailsInPlace (evalG toks rec (.tok k)) := by
  intro a pt q e a' l h
  have h : P.map _ (tokenP toks k) a pt = _ := h
  unfold P.map at h
  split at h
  · cases h
  · next hp => cases h; exact token_failsInPlace toks _ _ _ _ _ _ _ _ hp
  · cases h
  · cases h

theorem tok_succeeds {toks : List Token} {rec : NT → P (List V)} {k : TK} {a pt vs a' q}
    (h : Succeeds (evalG toks rec (.tok k)) a pt vs a' q) : ∃ e, Succeeds (tokenP toks k) a pt e a' q ∧ vs = [.ext e] :=
  Succeeds.map_iff h

theorem token_keeps {α : Type} {toks : List Token} {conv : Token → Option α} {e : PErr} {a pt v a' q}
    (h : Succeeds (token toks conv e) a pt v a' q) : a' = a := by
  obtain ⟨l, h⟩ := h
  unfold token at h
  dsimp only at h
  repeat' split at h
  all_goals cases h
  all_goals rfl

theorem Stops.sep_congr {α β γ : Type} {sep : P β} {sep' : P γ} {f : P α} {c a p q}
    (h : ∀ a p q, Fails sep a p q → Fails sep' a p q) (hs : Stops sep f c a p q) : Stops sep' f c a p q := by
  unfold Stops at *
  split at hs
  · next hc => rw [if_pos hc]; exact h _ _ _ hs
  · next hc => rw [if_neg hc]; exact hs

theorem tok_fails {toks : List Token} {rec : NT → P (List V)} {k : TK} {a pt q}
    (h : Fails (evalG toks rec (.tok k)) a pt q) : Fails (tokenP toks k) a pt q := by
  obtain ⟨e, a', l, h⟩ := h
  have h : P.map _ (tokenP toks k) a pt = _ := h
  unfold P.map at h
  split at h
  · cases h
  · next hp => cases h; exact ⟨_, _, _, hp⟩
  · cases h
  · cases h

/-- The same pieces, with other separators that are read at the same places. -/
theorem Reads.sep_congr {α β γ : Type} {sep : P β} {sep' : P γ} {f : P α} {a p c a' q}
    (h : ∀ a p v a' q, Succeeds sep a p v a' q → ∃ w, Succeeds sep' a p w a' q) (hr : Reads sep f a p c a' q) :
    Reads sep' f a p c a' q := by
  induction hr with
  | nil => exact .nil
  | element hv _ ih => exact .element hv ih
  | separator hv _ ih => obtain ⟨w, hw⟩ := h _ _ _ _ _ hv; exact .separator hw ih

/-! ## C30 -/

/-- A parenthesised list: an opening parenthesis, expressions separated by commas, a closing parenthesis.  It is a
parenthetical if it is one expression without a comma, else a tuple of all the expressions in order. -/
theorem C30_paren_or_tuple (toks : List Token) (n : Nat) (a a' : Amb) (p q : Pt) (vs : List V)
    (h : Succeeds (eval toks n .expr_tuple_or_parenthetical) a p vs a' q) :
    ∃ e eo ec p1 p2 p3 b c members,
      Succeeds (tokenP toks .LeftParen) a p eo a p1 ∧
      Reads (tokenP toks .Comma) (eval toks (n - 1) .expression) .Unambiguous p1 c b p2 ∧ alternating c = true ∧
      Stops (tokenP toks .Comma) (eval toks (n - 1) .expression) c b p2 p3 ∧
      Succeeds (tokenP toks .RightParen) a p3 ec a' q ∧ ex toks p q = some e ∧
      elements c = members.map ([·]) ∧
      (∀ m, c = [.element [m]] → vs = [.enm .Expression_Parenthetical [.node .Parenthetical e [] [m]]]) ∧
      ((∀ m, c ≠ [.element [m]]) → vs = [.enm .Expression_Tuple [.node .Tuple e [] [.list members]]]) := by
  obtain ⟨n, rfl, h1⟩ := eval_g (g := Rules.rule_expr_tuple_or_parenthetical) rfl h
  obtain ⟨v, e, h2, he, rfl⟩ := evalG_build h1
  obtain ⟨b1, p1, v1, w1, h3, h4, rfl⟩ := evalG_seq h2
  obtain ⟨b2, p2, v2, w2, h5, h6, rfl⟩ := evalG_seq h4
  obtain ⟨rfl, _, h3⟩ := evalG_drop h3
  obtain ⟨eo, h3, -⟩ := tok_succeeds h3
  obtain ⟨rfl, _, h6⟩ := evalG_drop h6
  obtain ⟨ec, h6, -⟩ := tok_succeeds h6
  obtain ⟨rfl, b3, h5⟩ := evalG_amb h5
  obtain ⟨t, ⟨l, h7⟩, rfl⟩ := Succeeds.map_iff h5
  obtain ⟨c, b4, m, hr, hs, halt, hv, hc, hl, -⟩ := C32_zero_or_more _ _ _ _ _ _ t (by rw [h7])
  obtain ⟨xs, hx⟩ := hr.singles (fun a p v a' q h => eval_expression_single (nt := .expression) rfl h)
  obtain rfl := token_keeps h3
  refine ⟨e, eo, ec, p1, m, p2, b4, c, xs, h3, Reads.sep_congr ?_ hr, halt, Stops.sep_congr ?_ hs, h6, he, hx, ?_, ?_⟩
  · intro a p v a' q h
    obtain ⟨w, h, -⟩ := tok_succeeds h
    exact ⟨w, h⟩
  · exact fun _ _ _ => tok_fails
  · rintro x rfl
    have h1 : t.values = [[x]] := hv
    have h2 : t.separatorCount = 0 := hc
    simp [TailK.out, h1, h2, Mk.app]
  · intro hne
    have h1 : ¬ (t.values.length = 1 ∧ t.separatorCount = 0) := by
      rintro ⟨h1, h2⟩
      rw [hv, hx] at h1
      rw [hc] at h2
      match c, halt, hx with
      | [], _, hx =>
        cases xs with
        | nil => simp at h1
        | cons => simp [elements] at hx
      | [.element y], _, hx =>
        obtain ⟨x, rfl⟩ : ∃ x, y = [x] := by
          cases xs with
          | nil => simp at h1
          | cons x xs => simp [elements] at hx; exact ⟨x, hx.1⟩
        exact hne x rfl
      | .element _ :: .separator :: c, _, _ => simp [separators] at h2
    have h2 : TailK.out .paren t = [.enm .Expression_Tuple [.list xs]] := by
      show (if _ then _ else _) = _
      rw [if_neg h1, hv, hx, flatten_singles]
    rw [h2]
    rfl

/-- The parenthesised forms in a file: whether it is a parenthetical, and the number of members. -/
def parens (f : File) : List (Bool × Nat) :=
  (subsL f.items).filterMap fun
    | .node .Parenthetical _ _ vs => some (true, vs.length)
    | .node .Tuple _ _ [.list vs] => some (false, vs.length)
    | _ => none

example : ∃ f, parseRustFile asciiXid true true c!"fn f() { (a); (a,); (a, b); (a, b,); (); }" = .ok f ∧
    decide (parens f = [(true, 1), (false, 1), (false, 2), (false, 2), (false, 0)]) = true :=
  FileResult.of_okWith (by decide +kernel)

/-! ## C31 -/

/-- A statement that is complete without a semicolon: an item, or an expression like a block, loop, `if` or `match`. -/
def complete : List V → Bool
  | [.enm .Statement_Item _] => true
  | [.enm .Statement_Expression [e]] => mayTerminateAttributed e
  | _ => false

theorem complete_eq : Impl.app .statement = complete := by
  funext vs
  unfold Impl.app complete
  split <;> first | rfl | (split <;> simp_all)

/-- An unfinished last element is the last of the elements. -/
theorem endsOpen_last {impl : List V → Bool} {c : List (Piece (List V))} {xs : List V} (hx : elements c = xs.map ([·]))
    (h : endsOpen impl c = true) : trailing c = false ∧ ∃ x, xs.getLast? = some x ∧ impl [x] = false := by
  unfold endsOpen at h
  split at h
  · next v hl =>
    obtain ⟨c', rfl⟩ := List.getLast?_eq_some_iff.mp hl
    have h1 : elements (c' ++ [.element v]) = elements c' ++ [v] := by simp [elements]
    rw [h1] at hx
    cases hlast : xs.getLast? with
    | none =>
      rw [List.getLast?_eq_none_iff] at hlast
      subst hlast
      simp at hx
    | some x =>
      obtain ⟨ys, rfl⟩ := List.getLast?_eq_some_iff.mp hlast
      rw [List.map_append] at hx
      obtain ⟨-, h2⟩ := List.append_inj' hx rfl
      simp at h2
      subst h2
      exact ⟨by simp [trailing], x, rfl, by simpa using h⟩
  · cases h

theorem intoExpression_eq {v x : V} (h : intoExpression v = some x) : v = .enm .Statement_Expression [x] := by
  unfold intoExpression at h
  split at h <;> simp at h
  rw [h]

/-- What a block consists of: statements, separated by semicolons where they are not complete.  They are all kept in order; the
value of the block is its last statement if that is an expression and no semicolon was read last, where an unfinished last
statement does not count.  What is missing: the value should only depend on a semicolon *after* the last statement
(`C31_false`). -/
theorem C31_block_partial (toks : List Token) (n : Nat) (a a' : Amb) (p q : Pt) (vs : List V)
    (h : Succeeds (eval toks n .block) a p vs a' q) :
    ∃ e eo ec p1 p2 p3 b b' c all statements value,
      Succeeds (tokenP toks .LeftCurly) a p eo a p1 ∧
      Reads (tokenP toks .Semicolon) (eval toks (n - 1) .statement) a p1 c b p2 ∧ alternatingImpl complete c = true ∧
      (if endsOpen complete c then Fails (tokenP toks .Semicolon) b p2 p3
        else Fails (eval toks (n - 1) .statement) b p2 p3) ∧
      Succeeds (tokenP toks .RightCurly) b' p3 ec a' q ∧ ex toks p q = some e ∧
      vs = [.node .Block e [] [.list statements, .list value]] ∧
      elements c = all.map ([·]) ∧
      -- nothing is lost
      all = statements ++ value.map (fun v => .enm .Statement_Expression [v]) ∧ value.length ≤ 1 ∧
      -- a value is a last expression without semicolon
      (∀ v, value = [v] → trailing c = false ∧ all.getLast? = some (.enm .Statement_Expression [v])) ∧
      -- a last expression without semicolon is a value if it is complete or there is no semicolon before it
      (∀ v, all.getLast? = some (.enm .Statement_Expression [v]) → trailing c = false →
        (complete [.enm .Statement_Expression [v]] = true ∨ trailing c.dropLast = false) → value = [v]) := by
  obtain ⟨n, rfl, h1⟩ := eval_g (g := Rules.rule_block) rfl h
  obtain ⟨v, e, h2, he, rfl⟩ := evalG_build h1
  obtain ⟨b1, p1, v1, w1, h3, h4, rfl⟩ := evalG_seq h2
  obtain ⟨b2, p2, v2, w2, h5, h6, rfl⟩ := evalG_seq h4
  obtain ⟨rfl, _, h3⟩ := evalG_drop h3
  obtain ⟨eo, h3, -⟩ := tok_succeeds h3
  obtain ⟨rfl, _, h6⟩ := evalG_drop h6
  obtain ⟨ec, h6, -⟩ := tok_succeeds h6
  obtain rfl := token_keeps h3
  obtain ⟨t, ⟨l, h7⟩, rfl⟩ := Succeeds.map_iff h5
  obtain ⟨c, b4, m, hr, halt, hst, hv, hl⟩ :=
    C32_implicit_partial _ _ _ (tok_failsInPlace toks (eval toks n) .Semicolon) _ _ _ _ t (by rw [h7])
  rw [complete_eq] at halt hst hl
  obtain ⟨xs, hx⟩ := hr.singles (fun a p v a' q h => by
    obtain ⟨t, w, rfl⟩ := eval_statement_single h; exact ⟨_, rfl⟩)
  have hxs : t.values.flatten = xs := by rw [hv, hx, flatten_singles]
  have main : ∃ statements value, TailK.out .block t = [.list statements, .list value] ∧
      xs = statements ++ value.map (fun v => .enm .Statement_Expression [v]) ∧ value.length ≤ 1 ∧
      (∀ v, value = [v] → trailing c = false ∧ xs.getLast? = some (.enm .Statement_Expression [v])) ∧
      (∀ v, xs.getLast? = some (.enm .Statement_Expression [v]) → trailing c = false →
        (complete [.enm .Statement_Expression [v]] = true ∨ trailing c.dropLast = false) → value = [v]) := by
    simp only [TailK.out, hxs]
    split
    · next x hb =>
      cases hlast : xs.getLast? with
      | none => rw [hlast] at hb; cases hb
      | some y =>
        rw [hlast] at hb
        obtain rfl := intoExpression_eq hb
        split
        · next ht =>
          refine ⟨xs, [], rfl, by simp, by simp, by simp, ?_⟩
          intro v hl' htr hor
          simp only [Option.some.injEq, V.enm.injEq, List.cons.injEq, and_true, true_and] at hl'
          subst hl'
          exfalso
          rw [hl] at ht
          cases ho : endsOpen complete c with
          | false => rw [ho] at ht; simp [htr] at ht
          | true =>
            obtain ⟨-, x', hx', hi⟩ := endsOpen_last hx ho
            rw [hlast] at hx'
            cases hx'
            rw [ho] at ht
            rcases hor with h | h
            · rw [h] at hi; cases hi
            · simp [h] at ht
        · next ht =>
          have ht : t.lastHadSeparator = false := by simpa using ht
          obtain ⟨ys, rfl⟩ := List.getLast?_eq_some_iff.mp hlast
          refine ⟨ys, [x], by simp, by simp, by simp, ?_, ?_⟩
          · intro v hv'
            simp only [List.cons.injEq, and_true] at hv'
            subst hv'
            refine ⟨?_, rfl⟩
            cases ho : endsOpen complete c with
            | true => exact (endsOpen_last hx ho).1
            | false => rw [ht, ho] at hl; simpa using hl.symm
          · intro v hl' _ _
            simp only [Option.some.injEq, V.enm.injEq, List.cons.injEq, and_true, true_and] at hl'
            rw [hl']
    · next hb =>
      refine ⟨xs, [], rfl, by simp, by simp, by simp, ?_⟩
      intro v hl' _ _
      rw [hl'] at hb
      simp [intoExpression] at hb
  obtain ⟨sts, value, ho, h8, h9, h10, h11⟩ := main
  refine ⟨e, eo, ec, p1, m, p2, b4, b2, c, xs, sts, value, h3, Reads.sep_congr ?_ hr, halt, ?_, h6, he, ?_, hx, h8, h9, h10,
    h11⟩
  · intro a p v a' q h
    obtain ⟨w, h, -⟩ := tok_succeeds h
    exact ⟨w, h⟩
  · split
    · next hc => rw [if_pos hc] at hst; exact tok_fails hst
    · next hc => rw [if_neg hc] at hst; exact hst
  · rw [ho]; rfl

/-- The blocks of a file: the number of statements and whether there is a value. -/
def blocks (f : File) : List (Nat × Nat) :=
  (subsL f.items).filterMap fun
    | .node .Block _ _ [.list vs, .list e] => some (vs.length, e.length)
    | _ => none

/-- The negation: the last statement of `{ a; b }` is an expression without semicolon, and not the value. -/
theorem C31_false : ∃ f, parseRustFile asciiXid true true c!"fn f() { a; b }" = .ok f ∧
    decide (blocks f = [(2, 0)]) = true := FileResult.of_okWith (by decide +kernel)

example : ∃ f, parseRustFile asciiXid true true
      c!"fn f() { { b } { b; } { if a {} } { if a {} b } { a; if a {} } { a; b; } {} }" = .ok f ∧
    decide ((blocks f).filter (· ≠ (0, 0)) = [(6, 1), (0, 1), (1, 0), (0, 1), (1, 1), (1, 1), (2, 0)]) = true :=
  FileResult.of_okWith (by decide +kernel)

end Verif.Props
