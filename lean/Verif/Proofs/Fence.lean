import Verif.Proofs.Stay
/-!
# Where items end
-/

namespace Verif

/-- The tokens of an item: `s` is the first wall at the depth of its start, and `E` the end of the item if it is complete. -/
structure Fence (toks : List Token) (N l i s E : Nat) : Prop where
  zone : Zone toks N l i s
  level : depth toks s = depth toks i
  first : ∀ x, i ≤ x → x < s → depth toks x = depth toks i → ∀ t k, toks[x]? = some t → t.kind? = some k → k.wall l = false
  final : (l = 2 ∧ ∃ t m, toks[s]? = some t ∧ t.kind? = some .LeftCurly ∧ Shut toks .LeftCurly s m ∧ Zone toks N 0 (s + 1) m ∧ E = m + 1) ∨
    ((∃ t k, toks[s]? = some t ∧ t.kind? = some k ∧ k ≠ .LeftCurly) ∧ E = s + 1)

theorem Fence.lt {toks N l i s E} (h : Fence toks N l i s E) : s < E := by
  rcases h.final with ⟨_, t, m, -, -, h1, -, rfl⟩ | ⟨-, rfl⟩
  · have := h1.lt; omega
  · omega

/-- States of a parser of an item: not yet at its end, in the final braces, or at the end. -/
inductive FSt | o (st : Bool) | fin | done
deriving DecidableEq

/-- At the end of an item. -/
def Done (toks : List Token) (l i E : Nat) (q : Pt) : Prop :=
  In i E q ∧ q.sub = none ∧ ∃ t p, q.off = p + 1 ∧ i ≤ p ∧ toks[p]? = some t ∧
    (t.kind? = some .Semicolon ∨ l = 2 ∧ t.kind? = some .RightCurly)

/-- What holds in a state. -/
def FSt.J (toks : List Token) (N l i s E : Nat) : FSt → Pt → Prop
  | .o st => InSt toks N i s st
  | .fin => InSt toks N i E true
  | .done => Done toks l i E

/-- The parser functions of items and of their last parts: those before braces or a semicolon (2), or only before a semicolon (1). -/
def NT.fenced (l : Nat) : NT → Bool
  | .function | .block | .extern_crate | .extern_block | .item_macro_call | .item_macro_call_args | .item_macro_call_paren
  | .item_macro_call_square | .item_macro_call_curly | .«module» | .module_body_or_not | .module_body | .p_enum | .p_impl | .p_struct
  | .struct_defn_body | .struct_defn_body_brace | .struct_defn_body_brace_only | .struct_defn_body_tuple | .p_trait | .p_union
  | .type_alias => l == 2
  | .p_const | .p_static | .p_use => l == 1
  | _ => false

/-- Whether a grammar expression, from a state, ends in a state. -/
def G.fence (l : Nat) : G → FSt → Option FSt
  | .tok k, .o false =>
    if k = .Semicolon then some .done
    else if k = .LeftCurly ∧ l = 2 then some .fin
    else ((G.tok k).stay NT.lvl l false).map .o
  | .tok k, .fin => if k = .RightCurly ∧ l = 2 then some .done else Option.none
  | .r n, .o false => if l ≤ n.lvl then some (.o false) else if n.fenced l then some .done else Option.none
  | .nested o c, .o false =>
    if o = .LeftCurly ∧ c = .RightCurly ∧ l = 2 then some .fin else ((G.nested o c).stay NT.lvl l false).map .o
  | .seq a b, s => (a.fence l s).bind (b.fence l)
  | .alt a b, s => if a.fence l s = b.fence l s then a.fence l s else Option.none
  | .ext a, s | .drop a, s | .map _ a, s | .build _ a, s => a.fence l s
  | g, .o st => (g.stay NT.lvl l st).map .o
  | g, .fin => if g.stay NT.lvl 0 false = some false then some .fin else Option.none
  | _, .done => Option.none

theorem rules_fence : ∀ l, l = 1 ∨ l = 2 → ∀ nt : NT, nt.fenced l = true → ∃ g, rules nt = .g g ∧ g.fence l (.o false) = some .done := by
  have h : [1, 2].all (fun l => NT.all.all fun nt => !nt.fenced l || match rules nt with
    | .g g => decide (g.fence l (.o false) = some .done)
    | .expr _ => false) = true := by decide +kernel
  intro l hl nt hn
  have := List.all_eq_true.mp (List.all_eq_true.mp h l (by simp [hl])) nt (NT.mem_all nt)
  rw [hn] at this
  revert this
  cases rules nt <;> simp

section
variable {toks : List Token} {N : Nat}

attribute [local irreducible] G.stay NT.lvl

/-- A grammar expression that ends an item. -/
theorem evalG_fence (hc : AllClosed toks N) {rec : NT → P (List V)}
    (hr : ∀ (n : NT) j m, Zone toks N n.lvl j m → Stays j m (rec n)) {l i s E : Nat} (hl : l = 1 ∨ l = 2) (hf : Fence toks N l i s E)
    (hr' : ∀ n : NT, n.fenced l = true → Keeps i (E - 1) (In i s) (Done toks l i E) (rec n)) (g : G) : ∀ st st',
      g.fence l st = some st' → Keeps i (E - 1) (st.J toks N l i s E) (st'.J toks N l i s E) (evalG toks rec g) := by
  have hlt := hf.lt
  have stayO : ∀ {g : G} {st st'}, (g.stay NT.lvl l st).map FSt.o = some st' →
      Keeps i (E - 1) ((FSt.o st).J toks N l i s E) (st'.J toks N l i s E) (evalG toks rec g) := by
    intro g st st' h
    cases h1 : g.stay NT.lvl l st with
    | none => rw [h1] at h; cases h
    | some x =>
      rw [h1] at h; cases h
      exact (evalG_stay hc hr g l i s st x hf.zone h1).up (by omega)
  have stayF : ∀ {g : G} {st'}, (if g.stay NT.lvl 0 false = some false then some FSt.fin else none) = some st' →
      Keeps i (E - 1) (FSt.fin.J toks N l i s E) (st'.J toks N l i s E) (evalG toks rec g) := by
    intro g st' h
    split at h
    · rename_i h1; cases h
      exact Stays.inside fun j m hz => evalG_stay hc hr g 0 j m false false hz h1
    · cases h
  have opn : ∀ {err}, l = 2 → Keeps i (E - 1) (In i s) (Opened toks N i E .LeftCurly) (token toks (convTK .LeftCurly) err) := by
    intro err h2
    refine (Keeps.openTok rfl ?_).up (k := s) (by omega)
    intro p t h3 h4 h5 h6
    rcases Nat.lt_or_eq_of_le h4 with h7 | rfl
    · obtain ⟨m, h8, h9, h10⟩ := hf.zone.open hc h3 h7 h5 h6 rfl
      exact ⟨m, by omega, h9, h10⟩
    · rcases hf.final with ⟨_, t', m, -, -, h8, h9, rfl⟩ | ⟨⟨t', k, h8, h9, h10⟩, -⟩
      · exact ⟨m, by omega, h8, h9⟩
      · rw [h5] at h8; cases h8; rw [h6] at h9; cases h9; exact absurd rfl h10
  induction g with
  | tok k =>
    intro st st' h
    refine Keeps.map ?_
    rcases st with (_ | _) | _ | _
    · simp only [G.fence] at h
      split at h
      · rename_i hk
        subst hk; cases h
        intro a pt hp
        have hp : In i s pt := hp
        rcases tok_cases (toks := toks) (k := .Semicolon) (.inl ⟨1, rfl⟩) (.Expected .Semicolon) a pt with
          ⟨e, h⟩ | h | ⟨v, t, h, ht, h1⟩ <;> rw [h]
        · exact ⟨by simp, fun q e h => by cases h; exact ⟨hp.1, by have := hp.2; omega⟩, by simp⟩
        · exact ⟨by simp, by simp, by simp⟩
        · refine ⟨by simp, by simp, fun q' v' h => ?_⟩
          cases h
          have := hp.1; have := hp.2
          exact ⟨⟨by simp only; omega, by simp only; omega⟩, rfl, t, pt.off, rfl, hp.1, ht, .inl h1⟩
      · split at h
        · rename_i hk
          obtain ⟨rfl, h2⟩ := hk
          cases h
          exact (opn h2).mono fun q hq => hq.inside rfl
        · cases h1 : (G.tok k).stay NT.lvl l false with
          | none => rw [h1] at h; cases h
          | some x =>
            rw [h1] at h; cases h
            exact (stay_tok hc hf.zone h1).up (by omega)
    · simp only [G.fence] at h
      cases h1 : (G.tok k).stay NT.lvl l true with
      | none => rw [h1] at h; cases h
      | some x =>
        rw [h1] at h; cases h
        exact (stay_tok hc hf.zone h1).up (by omega)
    · simp only [G.fence] at h
      split at h
      · rename_i hk
        obtain ⟨rfl, h2⟩ := hk
        cases h
        exact (Keeps.closeTok rfl).mono fun q hq => ⟨hq.1, hq.2.1, by
          obtain ⟨t, p, h3, h4, h5, h6⟩ := hq.2.2
          exact ⟨t, p, h3, h4, h5, .inr ⟨h2, h6⟩⟩⟩
      · cases h
    · simp [G.fence] at h
  | r n =>
    intro st st' h
    rcases st with (_ | _) | _ | _
    · simp only [G.fence] at h
      split at h
      · rename_i h1
        cases h
        exact (hr n i s (hf.zone.mono h1)).up (by omega)
      · split at h
        · rename_i h1; cases h; exact hr' n h1
        · cases h
    · exact stayO h
    · exact stayF h
    · simp [G.fence] at h
  | nested o c =>
    intro st st' h
    rcases st with (_ | _) | _ | _
    · simp only [G.fence] at h
      split at h
      · rename_i h1
        obtain ⟨rfl, rfl, h2⟩ := h1
        cases h
        exact .bind (opn h2) fun _ => .map (Keeps.nested (o := .LeftCurly) rfl)
      · exact stayO h
    · exact stayO h
    · exact stayF h
    · simp [G.fence] at h
  | seq a b iha ihb =>
    intro st st' h
    simp only [G.fence] at h
    cases h1 : a.fence l st with
    | none => rw [h1] at h; cases h
    | some x => rw [h1] at h; exact .bind (iha st x h1) fun _ => .map (ihb x st' h)
  | alt a b iha ihb =>
    intro st st' h
    simp only [G.fence] at h
    split at h
    · rename_i h1; exact .orElse (iha st st' h) (ihb st st' (h1 ▸ h))
    · cases h
  | ext a ih => intro st st' h; exact .map (.spanned (ih st st' h))
  | drop a ih => intro st st' h; exact .map (ih st st' h)
  | map f a ih => intro st st' h; exact .map (ih st st' h)
  | build m a ih => intro st st' h; exact .map (.spanned (ih st st' h))
  | _ =>
    intro st st' h
    rcases st with _ | _ | _
    · exact stayO h
    · exact stayF h
    · simp [G.fence] at h

/-- The parser functions of items do not look beyond the end of an item. -/
theorem eval_fence (hc : AllClosed toks N) {l i s E : Nat} (hl : l = 1 ∨ l = 2) (hf : Fence toks N l i s E) (n : Nat) :
    ∀ nt : NT, nt.fenced l = true → Keeps i (E - 1) (In i s) (Done toks l i E) (eval toks n nt) := by
  induction n with
  | zero => intro nt _; exact .hang
  | succ n ih =>
    intro nt hn
    obtain ⟨g, h1, h2⟩ := rules_fence l hl nt hn
    unfold eval
    rw [h1]
    exact evalG_fence hc (eval_stay hc n) hl hf ih g _ _ h2

end

end Verif
