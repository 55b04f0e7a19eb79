import Verif.Spec.Statement
import Verif.Props.Expr
import Verif.Proofs.SyntaxDen
/-!
# Where statements end

C46.
-/

namespace Verif.Props
open Verif.Spec

theorem mayTerminate_endsInBrace (v : V) (h : endsInBrace v = true) : mayTerminateAttributed v = true := by
  unfold endsInBrace at h
  split at h
  · next t vs heq =>
    unfold expressionOf at heq
    split at heq
    · cases heq
      simp only [mayTerminateAttributed, mayTerminate]
      simp only [Bool.or_eq_true, List.contains_iff_mem, List.mem_cons, List.not_mem_nil, or_false] at h
      rcases h with h | h
      · rcases h with h | h | h | h | h | h | h | h | h <;> subst h <;> rfl
      · split at h
        · rfl
        · cases h
    · cases heq
  · cases h

theorem leftOperand_inf {op : InfixOp} {payload : List V} {e : Extent} {l l' : V} {r : Option V}
    (h : leftOperand (op.mk payload e l r) = some l') : l' = l := by
  cases op with
  | binary b =>
    cases r <;> simp [InfixOp.mk, intoAttributed, mkAttributed, leftOperand, expressionOf] at h
    exact h.symm
  | RangeExclusive => simp [InfixOp.mk, intoAttributed, mkAttributed, leftOperand, expressionOf] at h; exact h.symm
  | RangeInclusive => simp [InfixOp.mk, intoAttributed, mkAttributed, leftOperand, expressionOf] at h; exact h.symm

theorem leftOperand_post {op : PostfixOp} {payload : List V} {e : Extent} {l l' : V}
    (h : leftOperand (op.mk payload e l) = some l') : l' = l := by
  cases op <;> simp [PostfixOp.mk, intoAttributed, mkAttributed, leftOperand, expressionOf] at h <;> exact h.symm

theorem leftOperand_compound {v l : V} (h : leftOperand v = some l) : isCompound v = true := by
  unfold leftOperand at h
  split at h
  · next heq =>
    unfold expressionOf at heq
    split at heq
    · cases heq
      split at h <;> cases h <;> rfl
    · cases heq
  · cases h

theorem _root_.Verif.Spec.Unextended.of_none {v : V} (h : isCompound v = false) : Unextended v := by
  intro w l hw hl hb
  cases hw with
  | refl => rw [leftOperand_compound hl] at h; cases h
  | step h' => rw [leftOperand_compound h'] at h; cases h

theorem _root_.Verif.Spec.Unextended.step {v l : V} (hl : Unextended l) (h : ∀ l', leftOperand v = some l' → l' = l)
    (hb : endsInBrace l = true → isDotOrTry v = true) : Unextended v := by
  intro w l' hw hl' hb'
  cases hw with
  | refl => cases h _ hl'; exact hb hb'
  | step h' hw => cases h _ h'; exact hl w l' hw hl' hb'

section
variable {toks : List Token}

theorem unextended_left {a p q v} (h : LeftR toks (Known (Base toks)) true a p q v) : Unextended v := by
  induction h with
  | operand h => exact .of_none (operand_notCompound h)
  | post _ hm _ _ ih =>
    refine ih.step (fun _ h => leftOperand_post h) fun hb => ?_
    rw [mayTerminate_endsInBrace _ hb] at hm; cases hm rfl
  | limited _ ht _ ih =>
    refine ih.step (fun _ h => leftOperand_post h) fun hb => ?_
    obtain ⟨g, hg, -⟩ := ht
    simp only [limitedTable, List.mem_cons, List.not_mem_nil, or_false, Prod.mk.injEq] at hg
    rcases hg with ⟨rfl, -⟩ | ⟨rfl, -⟩ <;> rfl
  | «infix» _ hm _ _ _ ih =>
    refine ih.step (fun _ h => leftOperand_inf h) fun hb => ?_
    rw [mayTerminate_endsInBrace _ hb] at hm; cases hm rfl

theorem unextended_expr {a p q v} (h : ExprR toks (Known (Base toks)) true a p q v) : Unextended v := by
  cases h with
  | left h => exact unextended_left h
  | openInfix h hm _ _ _ =>
    refine (unextended_left h).step (fun _ h => leftOperand_inf h) fun hb => ?_
    rw [mayTerminate_endsInBrace _ hb] at hm; cases hm rfl
  | openPrefix h => exact .of_none (openRange_notCompound h)

/-- What is known of statements. -/
def Ends (nt : NT) (vs : List V) : Prop :=
  (nt = .statement_expression → ∀ v ∈ vs, Unextended v) ∧
  (nt = .statement → ∀ x, .enm .Statement_Expression [x] ∈ vs → Unextended x)

theorem ends_inductive {code : Text} (hs : Src code toks) :
    Inductive toks (fun nt am p q vs => Base toks nt am p q vs ∧ Ends nt vs) := by
  intro nt am p q vs hb h
  have hbase : denRule toks (Known (Base toks)) (rules nt) am p q vs :=
    denRule_mono (Known.mono fun _ _ _ _ _ h => h.1) _ h
  refine ⟨base_inductive hs _ _ _ _ _ hb hbase, ?_, ?_⟩
  · rintro rfl v hv
    obtain ⟨w, -, hx, rfl⟩ := hbase
    simp only [List.mem_singleton] at hv
    subst hv
    exact unextended_expr hx
  · rintro rfl x hx
    have h : den toks _ Rules.rule_statement am p q vs := h
    rcases h with (⟨_, _, rfl⟩ | ⟨_, hk, rfl⟩) | ⟨_, _, rfl⟩
    · simp [Fn.app] at hx
    · simp [Fn.app] at hx
      subst hx
      exact hk.2.2.2.2.1 rfl x (List.mem_singleton.mpr rfl)
    · simp [Fn.app] at hx

theorem implR_values {α : Type} {es er : Bool} {impl : α → Bool} {S : Pt → Pt → Prop} {R : Pt → Pt → α → Prop} {p t q t'}
    (h : ImplR toks es er impl S R p t q t') : ∀ v ∈ t'.values, v ∈ t.values ∨ ∃ p q, R p q v := by
  induction h with
  | stop => exact fun v h => .inl h
  | last hr =>
    intro v hv
    simp only [List.mem_append, List.mem_singleton] at hv
    rcases hv with hv | rfl
    · exact .inl hv
    · exact .inr ⟨_, _, hr⟩
  | implicit hr _ _ _ ih | more hr _ _ ih =>
    intro v hv
    rcases ih v hv with h | h
    · simp only [List.mem_append, List.mem_singleton] at h
      rcases h with h | rfl
      · exact .inl h
      · exact .inr ⟨_, _, hr⟩
    · exact .inr h

end

theorem block_parts {g : G} (h : .build (.node .Block) g ∈ allParts) :
    g = G.seq (.drop (.tok .LeftCurly)) (.seq (.implTailed .block .statement (.tok .Semicolon) (.r .statement))
      (.drop (.tok .RightCurly))) := by
  have hall : allParts.all (fun
    | .build (.node .Block) g => g = G.seq (.drop (.tok .LeftCurly))
        (.seq (.implTailed .block .statement (.tok .Semicolon) (.r .statement)) (.drop (.tok .RightCurly)))
    | _ => true) = true := by decide +kernel
  have := List.all_eq_true.mp hall _ h
  simpa using this

/-! ## Whitespace does not matter -/

theorem expressionOf_bare (v : V) : expressionOf v.bare = (expressionOf v).map V.bare := by
  unfold expressionOf
  split
  · next h =>
    obtain ⟨ws, vs, rfl, h1⟩ := V.bare_eq_node h
    obtain ⟨a, as, rfl, h2, h3⟩ := bareL_eq_cons h1
    obtain ⟨b, rfl, h4⟩ := bareL_eq_one h3
    simp [h4]
  · next h =>
    split
    · exact (h _ _ _ _ rfl).elim
    · rfl

theorem leftOperand_bare {v l : V} (h : leftOperand v = some l) : leftOperand v.bare = some l.bare := by
  unfold leftOperand at h ⊢
  rw [expressionOf_bare]
  split at h
  · next heq =>
    rw [heq]
    split at h <;> cases h <;> simp [V.bare, bareL]
  · cases h

theorem endsInBrace_bare {v : V} (h : endsInBrace v = true) : endsInBrace v.bare = true := by
  unfold endsInBrace at h ⊢
  rw [expressionOf_bare]
  split at h
  · next heq =>
    rw [heq]
    simp only [Option.map_some, V.bare, Bool.or_eq_true] at h ⊢
    refine h.imp id fun h => ?_
    split at h
    · simp [V.bare, bareL]
    · cases h
  · cases h

theorem isDotOrTry_bare {v : V} (h : isDotOrTry v.bare = true) : isDotOrTry v = true := by
  unfold isDotOrTry at h ⊢
  rw [expressionOf_bare] at h
  cases hv : expressionOf v with
  | none => rw [hv] at h; cases h
  | some x =>
    rw [hv] at h
    simp only [Option.map_some] at h
    split at h
    · next h' => obtain ⟨vs, rfl, -⟩ := V.bare_eq_enm (Option.some.inj h'); rfl
    · next h' => obtain ⟨vs, rfl, -⟩ := V.bare_eq_enm (Option.some.inj h'); rfl
    · cases h

theorem OnLeft.bare {x v : V} (h : OnLeft x v) : OnLeft x.bare v.bare := by
  induction h with
  | refl => exact .refl
  | step h _ ih => exact .step (leftOperand_bare h) ih

theorem unextended_bare {x : V} (h : Unextended x.bare) : Unextended x := fun _ _ hv hl hb =>
  isDotOrTry_bare (h _ _ (OnLeft.bare hv) (leftOperand_bare hl) (endsInBrace_bare hb))

/-- C46: in a block of a file that is parsed, an expression that ends in a brace where a statement may start also ends there: no
operator, call or index continues it, only `.` and `?` do. -/
theorem C46_statements_end (X : Xid) (cl cp : Bool) (code : Text) (f : File) (h : parseRustFile X cl cp code = .ok f)
    (e : Extent) (ws : List Ws) (fs : List V) (hx : .node .Block e ws fs ∈ subsL f.items) :
    ∃ statements value, fs = [.list statements, .list value] ∧
      (∀ x, .enm .Statement_Expression [x] ∈ statements → Unextended x) ∧ ∀ x ∈ value, Unextended x := by
  obtain ⟨ts, items, q, hp⟩ := parseRustFile_ok h
    (Ψ := fun toks nt am p q vs => Base toks nt am p q vs ∧ Ends nt vs) fun toks src => ends_inductive src
  obtain ⟨g, am, p, q, hg, hd, -⟩ := (hp.node hx).plain (by decide +kernel)
  rw [block_parts hg] at hd
  obtain ⟨_, _, _, ⟨_, -, rfl⟩, ⟨_, _, _, ⟨t, hi, rfl⟩, ⟨_, -, rfl⟩, rfl⟩, hf⟩ := hd
  obtain ⟨ss, es, ho, -, ha⟩ := block_out t
  rw [ho, List.nil_append, List.append_nil] at hf
  have hall : ∀ x, .enm .Statement_Expression [x] ∈ t.values.flatten → Unextended x := by
    intro x hx
    obtain ⟨vs, hv, hx⟩ := List.mem_flatten.mp hx
    rcases implR_values hi vs hv with h | ⟨_, _, h⟩
    · cases h
    · exact h.2.2.2.2.2 rfl x hx
  obtain ⟨a, _, rfl, h1, h2⟩ := bareL_eq_cons hf
  obtain ⟨b, rfl, h3⟩ := bareL_eq_one h2
  obtain ⟨ss, rfl, rfl⟩ := V.bare_eq_list h1
  obtain ⟨es, rfl, rfl⟩ := V.bare_eq_list h3
  refine ⟨ss, es, rfl, fun x hx => unextended_bare (hall _ ?_), fun x hx => unextended_bare (hall _ ?_)⟩
  · rw [← ha, bareL_map]
    exact List.mem_append_left _ (List.mem_map.mpr ⟨_, hx, by simp [V.bare, bareL]⟩)
  · rw [← ha, bareL_map, bareL_map]
    exact List.mem_append_right _ (List.mem_map_of_mem (List.mem_map_of_mem hx))

/-- The tags along the left edge of an expression, with what ends in a brace. -/
def leftEdge : Nat → V → List (Option Tag × Bool)
  | 0, _ => []
  | n + 1, v =>
    ((match expressionOf v with | some (.enm t _) => some t | _ => none), endsInBrace v) ::
      match leftOperand v with
      | some l => leftEdge n l
      | none => []

/-- The left edges of the statements of a file. -/
def leftEdges (f : File) : List (List (Option Tag × Bool)) :=
  (subsL f.items).filterMap fun
    | .enm .Statement_Expression [x] => some (leftEdge 9 x)
    | _ => none

/-- `if a {} - b` are two statements; a method may be called and the result of that be added to; within parentheses
the `if` is an operand. -/
example : ∃ f, parseRustFile asciiXid true true
      c!"fn f() { if a {} - b; match x {}.g() + 1; (1); (if a {}) - b; { if a {} - b } c }" = .ok f ∧
    decide (leftEdges f = [
      [(some .Expression_If, true)], [(some .Expression_Unary, false)],
      [(some .Expression_Binary, false), (some .Expression_Call, false), (some .Expression_FieldAccess, false),
        (some .Expression_Match, true)],
      [(some .Expression_Parenthetical, false)],
      [(some .Expression_Binary, false), (some .Expression_Parenthetical, false)],
      [(some .Expression_Block, true)], [(some .Expression_If, true)]]) = true :=
  FileResult.of_okWith (by decide +kernel)

/-- Where no statement may start the same tokens are one expression. -/
example : ∃ f, parseRustFile asciiXid true true c!"fn f() { let x = if a {} - b; }" = .ok f ∧
    (subsL f.items).any (fun v => (leftOperand v).any endsInBrace && !isDotOrTry v) = true :=
  FileResult.of_okWith (by decide +kernel)

end Verif.Props
