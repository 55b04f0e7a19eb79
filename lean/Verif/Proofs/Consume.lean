import Verif.Proofs.ShuntDen
/-!
# Which parsers consume something
-/

namespace Verif

/-- The nonterminals that can succeed without consuming anything. -/
def NT.nullable : NT → Bool
  | .function_qualifiers | .trait_bounds | .statement | .statement_empty | .enum_variant_body => true
  | _ => false

/-- The grammar expressions that can succeed without consuming anything. -/
def G.null : G → Bool
  | .eps => true
  | .tok _ | .number | .simpleNumber | .nested _ _ => false
  | .r n => n.nullable
  | .seq a b => a.null && b.null
  | .alt a b | .ifAmbiguous a b => a.null || b.null
  | .opt _ | .many _ | .tailed .. | .resume .. | .implTailed .. | .peek _ => true
  | .tailed1Values _ a => a.null
  | .ext a | .drop a | .map _ a | .build _ a | .nodeEmpty _ a | .mapErr _ a | .amb _ a | .notMaximum a => a.null

/-- The same for rules. -/
def Rule.null (r : Rule) : Bool :=
  match r with
  | .g x => x.null
  | .expr _ => false

theorem rules_null : ∀ nt, (rules nt).null = true → nt.nullable = true := by
  have h : NT.all.all (fun nt => !(rules nt).null || nt.nullable) = true := by decide +kernel
  intro nt hn
  have := List.all_eq_true.mp h nt (NT.mem_all nt)
  simpa [hn] using this

section
variable {toks : List Token} {Φ : NT → Rel}

theorem TokStep.lt {α : Type} {conv : Token → Option α} {p q : Pt} {v : α} (hp : ValidPt toks p)
    (h : TokStep toks conv p q v) : p.key < q.key := by
  have := hp.subw_le
  cases h <;> simp [Pt.key, Pt.advanceBy, Pt.subw] at * <;> omega

theorem den_lt (hΦ : ∀ nt am p q vs, Φ nt am p q vs → nt.nullable = false → p.key < q.key) (g : G) :
    g.null = false → ∀ a p q vs, den toks Φ g a p q vs → p.key < q.key := by
  induction g with
  | eps => simp [G.null]
  | tok k => rintro - a p q vs ⟨h, e, h', -⟩; exact h'.lt h.left
  | number => rintro - a p q vs ⟨h, e, h', -⟩; exact h'.lt h.left
  | simpleNumber => rintro - a p q vs ⟨h, n, e, h', -⟩; exact h'.lt h.left
  | r n => rintro hn a p q vs ⟨h, h'⟩; exact hΦ n a p q vs h' hn
  | seq x y ihx ihy =>
    rintro hn a p q vs ⟨m, v, w, h, h', -⟩
    have h1 := (den_btw _ _ _ _ _ h).le
    have h2 := (den_btw _ _ _ _ _ h').le
    simp only [G.null, Bool.and_eq_false_iff] at hn
    rcases hn with hn | hn
    · have := ihx hn _ _ _ _ h; omega
    · have := ihy hn _ _ _ _ h'; omega
  | alt x y ihx ihy =>
    intro hn a p q vs h
    simp only [G.null, Bool.or_eq_false_iff] at hn
    rcases h with h | h
    · exact ihx hn.1 _ _ _ _ h
    · exact ihy hn.2 _ _ _ _ h
  | opt => simp [G.null]
  | many => simp [G.null]
  | tailed => simp [G.null]
  | tailed1Values s x ihs ihx =>
    rintro hn a p q vs ⟨t, h, -⟩
    cases h with
    | one h h' => have := ihx hn _ _ _ _ h; have := h'.1.le; omega
    | more h h' h'' =>
      obtain ⟨w, h'⟩ := h'
      have := ihx hn _ _ _ _ h
      have := (den_btw _ _ _ _ _ h').le
      have := (h''.btw (fun _ _ ⟨_, h⟩ => den_btw _ _ _ _ _ h) (fun _ _ _ h => den_btw _ _ _ _ _ h)).le
      omega
  | resume => simp [G.null]
  | implTailed => simp [G.null]
  | nested o c =>
    rintro hn a p q vs ⟨m, e0, e, h, h1, h2, -⟩
    have := h1.lt h.left; have := h2.le; omega
  | ext x ih => rintro hn a p q vs ⟨v, e, h, -⟩; exact ih hn _ _ _ _ h
  | drop x ih => rintro hn a p q vs ⟨v, h, -⟩; exact ih hn _ _ _ _ h
  | map f x ih => rintro hn a p q vs ⟨v, h, -⟩; exact ih hn _ _ _ _ h
  | build m x ih => rintro hn a p q vs ⟨v, e, h, -⟩; exact ih hn _ _ _ _ h
  | nodeEmpty k x ih => rintro hn a p q vs ⟨v, e, h, -⟩; exact ih hn _ _ _ _ h
  | mapErr e x ih => intro hn a p q vs h; exact ih hn _ _ _ _ h
  | peek => simp [G.null]
  | amb l x ih => intro hn a p q vs h; exact ih hn _ _ _ _ h
  | ifAmbiguous x y ihx ihy =>
    intro hn a p q vs h
    simp only [G.null, Bool.or_eq_false_iff] at hn
    unfold den at h
    split at h
    · exact ihx hn.1 _ _ _ _ h
    · exact ihy hn.2 _ _ _ _ h
  | notMaximum x ih => rintro hn a p q vs ⟨-, h⟩; exact ih hn _ _ _ _ h

theorem TableR.lt {α : Type} (hΦ : ∀ nt am p q vs, Φ nt am p q vs → nt.nullable = false → p.key < q.key)
    {t : (α × G) × List (α × G)} (ht : ∀ x ∈ t.1 :: t.2, x.2.null = false) {am p q op payload}
    (h : TableR toks Φ t am p q op payload) : p.key < q.key := by
  obtain ⟨g, hg, h⟩ := h
  exact den_lt hΦ g (ht _ hg) _ _ _ _ h

theorem prefixTable_null : ∀ x ∈ prefixTable.1 :: prefixTable.2, x.2.null = false := by decide +kernel
theorem infixTable_null : ∀ x ∈ infixTable.1 :: infixTable.2, x.2.null = false := by decide +kernel
theorem postfixTable_null : ∀ x ∈ postfixTable.1 :: postfixTable.2, x.2.null = false := by decide +kernel
theorem limitedTable_null : ∀ x ∈ limitedTable.1 :: limitedTable.2, x.2.null = false := by decide +kernel

section expr
variable (hΦ : ∀ nt am p q vs, Φ nt am p q vs → nt.nullable = false → p.key < q.key)
include hΦ

theorem AttrR.lt {R : Pt → Pt → Prop} (hR : ∀ p q, R p q → p.key < q.key) {am p q e attrs}
    (h : AttrR toks Φ R am p q e attrs) : p.key < q.key := by
  obtain ⟨m, vss, h, h', -⟩ := h
  have := (h.btw (fun _ _ _ h => den_btw _ _ _ _ _ h)).le
  have := hR _ _ h'
  omega

theorem PrefixR.lt {am p q e attrs op payload} (h : PrefixR toks Φ am p q e attrs op payload) : p.key < q.key :=
  AttrR.lt hΦ (fun _ _ h => TableR.lt hΦ prefixTable_null h) h

theorem AtomR.lt {am p q v} (h : AtomR toks Φ am p q v) : p.key < q.key := by
  obtain ⟨e, attrs, vs, h, -⟩ := h
  exact AttrR.lt hΦ (fun _ _ h => den_lt hΦ (.r .expression_atom) rfl _ _ _ _ h) h

theorem OperandR.lt {a am p q v} (h : OperandR toks Φ a am p q v) : p.key < q.key := by
  cases h with
  | atom h => exact AtomR.lt hΦ h
  | pre h h' _ => have := PrefixR.lt hΦ h; have := h'.btw.le; omega

theorem OpenRangeR.lt {a p q v} (h : OpenRangeR toks Φ a p q v) : p.key < q.key := by
  cases h with
  | last h => exact PrefixR.lt hΦ h
  | pre h h' _ => have := PrefixR.lt hΦ h; have := h'.btw.le; omega

theorem LeftR.lt {stmt a p q v} (h : LeftR toks Φ stmt a p q v) : p.key < q.key := by
  induction h with
  | operand h => exact OperandR.lt hΦ h
  | post _ _ h _ ih => have := h.btw.le; omega
  | limited _ h _ ih => have := h.btw.le; omega
  | «infix» _ _ h h' _ ih => have := h.btw.le; have := h'.btw.le; omega

theorem ExprR.lt {stmt a p q v} (h : ExprR toks Φ stmt a p q v) : p.key < q.key := by
  cases h with
  | left h => exact LeftR.lt hΦ h
  | openInfix h _ h' => have := LeftR.lt hΦ h; have := h'.btw.le; omega
  | openPrefix h => exact OpenRangeR.lt hΦ h

theorem denRule_lt (r : Rule) (hr : r.null = false) (a : Amb) (p q : Pt) (vs : List V)
    (h : denRule toks Φ r a p q vs) : p.key < q.key := by
  cases r with
  | g g => exact den_lt hΦ g hr a p q vs h
  | expr stmt => obtain ⟨v, -, h, -⟩ := h; exact ExprR.lt hΦ h

end expr

/-- What is consumed: something by every nonterminal that is not nullable, and by a statement that needs no semicolon. -/
def Consumes (nt : NT) (_am : Amb) (p q : Pt) (vs : List V) : Prop :=
  (nt.nullable = false → p.key < q.key) ∧ (nt = .statement → Impl.statement.app vs = true → p.key < q.key)

theorem den_statement (hΦ : ∀ nt am p q vs, Φ nt am p q vs → nt.nullable = false → p.key < q.key)
    {am : Amb} {p q : Pt} {vs : List V} (h : den toks Φ Rules.rule_statement am p q vs)
    (hi : Impl.statement.app vs = true) : p.key < q.key := by
  have h : den toks Φ (.alt (.alt (.map (.wrap .Statement_Item) (.attributed .AttributedItem (.r .item)))
      (.map (.wrap .Statement_Expression) (.r .statement_expression)))
      (.map (.wrap .Statement_Empty) (.r .statement_empty))) am p q vs := h
  rcases h with (⟨v, h1, rfl⟩ | ⟨v, h1, rfl⟩) | ⟨v, h1, rfl⟩
  · exact den_lt hΦ _ (by rfl) _ _ _ _ h1
  · exact den_lt hΦ _ (by rfl) _ _ _ _ h1
  · simp [Fn.app, Impl.app] at hi

/-- The parser does as any `Φ` says that is closed under the rules, given what is known of consumption. -/
theorem eval_run_of_closed (ht : EofLast toks)
    (hc : ∀ nt am p q vs, Btw toks p q →
      denRule toks (fun nt am p q vs => Consumes nt am p q vs ∧ Φ nt am p q vs) (rules nt) am p q vs →
      Φ nt am p q vs) (n : Nat) :
    RecOK toks (fun nt am p q vs => Consumes nt am p q vs ∧ Φ nt am p q vs) (eval toks n) := by
  have hΦ : ∀ nt am p q vs, (Consumes nt am p q vs ∧ Φ nt am p q vs) → nt.nullable = false → p.key < q.key :=
    fun _ _ _ _ _ h => h.1.1
  refine eval_run ht ?_ (fun h => TableR.lt hΦ infixTable_null h) n
  intro nt am p q vs hb h
  refine ⟨⟨fun hn => denRule_lt hΦ _ ?_ _ _ _ _ h, ?_⟩, hc nt am p q vs hb h⟩
  · cases hr : (rules nt).null with
    | false => rfl
    | true => rw [rules_null nt hr] at hn; simp at hn
  · rintro rfl hi
    exact den_statement hΦ h hi

theorem eval_consumes (ht : EofLast toks) (n : Nat) :
    RecOK toks (fun nt am p q vs => Consumes nt am p q vs) (eval toks n) := by
  refine ⟨?_, eval_early toks n⟩
  intro nt a pt hv
  exact ((eval_run_of_closed (Φ := fun _ _ _ _ _ => True) ht (fun _ _ _ _ _ _ _ => trivial) n).run nt a pt hv).mono
    fun _ _ _ _ h => h.1

end
end Verif
