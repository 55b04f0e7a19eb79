import Verif.Proofs.Balanced
import Verif.Proofs.Symbolic
/-!
# What a result of a parser says about its parts
-/

namespace Verif
open Spec

namespace Inv
variable {α β : Type} {a a2 : Amb} {pt q : Pt} {l : Log} {e : PErr}

theorem bind_ok {p : P α} {f : α → P β} {w : β} (h : p.bind f a pt = ⟨.ok q w, a2, l⟩) :
    ∃ m v a1 l1 l2, p a pt = ⟨.ok m v, a1, l1⟩ ∧ f v a1 m = ⟨.ok q w, a2, l2⟩ ∧ l = l1 ++ l2 := by
  unfold P.bind at h
  rcases hr : p a pt with ⟨⟨m, v⟩ | ⟨m, e⟩ | _ | _, a1, l1⟩ <;> rw [hr] at h <;> dsimp only at h <;> try (cases h; done)
  rcases hs : f v a1 m with ⟨o, a', l'⟩
  rw [hs] at h
  cases h
  exact ⟨m, v, a1, l1, l', rfl, hs, rfl⟩

theorem bind_fail {p : P α} {f : α → P β} (h : p.bind f a pt = ⟨.fail q e, a2, l⟩) :
    p a pt = ⟨.fail q e, a2, l⟩ ∨
      ∃ m v a1 l1 l2, p a pt = ⟨.ok m v, a1, l1⟩ ∧ f v a1 m = ⟨.fail q e, a2, l2⟩ ∧ l = l1 ++ l2 := by
  unfold P.bind at h
  rcases hr : p a pt with ⟨⟨m, v⟩ | ⟨m, e⟩ | _ | _, a1, l1⟩ <;> rw [hr] at h <;> dsimp only at h <;> try (cases h; done)
  · rcases hs : f v a1 m with ⟨o, a', l'⟩
    rw [hs] at h
    cases h
    exact .inr ⟨m, v, a1, l1, l', rfl, hs, rfl⟩
  · cases h; exact .inl rfl

theorem map_ok {p : P α} {f : α → β} {w : β} (h : p.map f a pt = ⟨.ok q w, a2, l⟩) : ∃ v, p a pt = ⟨.ok q v, a2, l⟩ ∧ w = f v := by
  unfold P.map at h
  rcases hr : p a pt with ⟨⟨m, v⟩ | ⟨m, e⟩ | _ | _, a1, l1⟩ <;> rw [hr] at h <;> dsimp only at h <;> try (cases h; done)
  cases h; exact ⟨v, rfl, rfl⟩

theorem map_fail {p : P α} {f : α → β} (h : p.map f a pt = ⟨.fail q e, a2, l⟩) : p a pt = ⟨.fail q e, a2, l⟩ := by
  unfold P.map at h
  rcases hr : p a pt with ⟨⟨m, v⟩ | ⟨m, e⟩ | _ | _, a1, l1⟩ <;> rw [hr] at h <;> dsimp only at h <;> try (cases h; done)
  cases h; rfl

theorem spanned_ok {toks : List Token} {p : P α} {w : Extent × α} (h : P.spanned toks p a pt = ⟨.ok q w, a2, l⟩) :
    ∃ v, p a pt = ⟨.ok q v, a2, l⟩ := by
  unfold P.spanned at h
  rcases hr : p a pt with ⟨⟨m, v⟩ | ⟨m, e⟩ | _ | _, a1, l1⟩ <;> rw [hr] at h <;> dsimp only at h <;> try (cases h; done)
  split at h <;> cases h
  exact ⟨v, rfl⟩

theorem spanned_fail {toks : List Token} {p : P α} (h : P.spanned toks p a pt = ⟨.fail q e, a2, l⟩) :
    p a pt = ⟨.fail q e, a2, l⟩ := by
  unfold P.spanned at h
  rcases hr : p a pt with ⟨⟨m, v⟩ | ⟨m, e⟩ | _ | _, a1, l1⟩ <;> rw [hr] at h <;> dsimp only at h <;> try (cases h; done)
  · split at h <;> cases h
  · cases h; rfl

theorem orElse_ok {p p' : P α} {w : α} (h : p.orElse p' a pt = ⟨.ok q w, a2, l⟩) :
    p a pt = ⟨.ok q w, a2, l⟩ ∨ ∃ m e a1 l1 l2, p a pt = ⟨.fail m e, a1, l1⟩ ∧ p' a1 pt = ⟨.ok q w, a2, l2⟩ ∧
      l = l1 ++ l2 ++ [(m, e)] := by
  unfold P.orElse at h
  rcases hr : p a pt with ⟨⟨m, v⟩ | ⟨m, e⟩ | _ | _, a1, l1⟩ <;> rw [hr] at h <;> dsimp only at h
  · exact .inl h
  · rcases hs : p' a1 pt with ⟨o, a', l'⟩
    rw [hs] at h
    cases h
    exact .inr ⟨m, e, a1, l1, l', rfl, hs, rfl⟩
  · cases h
  · cases h

theorem orElse_fail {p p' : P α} (h : p.orElse p' a pt = ⟨.fail q e, a2, l⟩) :
    ∃ m e' a1 l1 l2, p a pt = ⟨.fail m e', a1, l1⟩ ∧ p' a1 pt = ⟨.fail q e, a2, l2⟩ ∧ l = l1 ++ l2 ++ [(m, e')] := by
  unfold P.orElse at h
  rcases hr : p a pt with ⟨⟨m, v⟩ | ⟨m, e⟩ | _ | _, a1, l1⟩ <;> rw [hr] at h <;> dsimp only at h <;> try (cases h; done)
  rcases hs : p' a1 pt with ⟨o, a', l'⟩
  rw [hs] at h
  cases h
  exact ⟨m, e, a1, l1, l', rfl, hs, rfl⟩

end Inv

section
variable {toks : List Token} {rec : NT → P (List V)} {am a2 : Amb} {pt q : Pt} {l : Log} {e : PErr} {w : List V}

theorem build_ok {m : Mk} {g : G} (h : evalG toks rec (.build m g) am pt = ⟨.ok q w, a2, l⟩) :
    ∃ v, evalG toks rec g am pt = ⟨.ok q v, a2, l⟩ := by
  obtain ⟨v, h1, -⟩ := Inv.map_ok h
  exact Inv.spanned_ok h1

theorem build_fail {m : Mk} {g : G} (h : evalG toks rec (.build m g) am pt = ⟨.fail q e, a2, l⟩) :
    evalG toks rec g am pt = ⟨.fail q e, a2, l⟩ := Inv.spanned_fail (Inv.map_fail h)

theorem seq_ok {x y : G} (h : evalG toks rec (.seq x y) am pt = ⟨.ok q w, a2, l⟩) :
    ∃ m v v' a1 l1 l2, evalG toks rec x am pt = ⟨.ok m v, a1, l1⟩ ∧ evalG toks rec y a1 m = ⟨.ok q v', a2, l2⟩ ∧ l = l1 ++ l2 := by
  obtain ⟨m, v, a1, l1, l2, h1, h2, h3⟩ := Inv.bind_ok h
  obtain ⟨v', h2, -⟩ := Inv.map_ok h2
  exact ⟨m, v, v', a1, l1, l2, h1, h2, h3⟩

theorem seq_fail {x y : G} (h : evalG toks rec (.seq x y) am pt = ⟨.fail q e, a2, l⟩) :
    evalG toks rec x am pt = ⟨.fail q e, a2, l⟩ ∨
    ∃ m v a1 l1 l2, evalG toks rec x am pt = ⟨.ok m v, a1, l1⟩ ∧ evalG toks rec y a1 m = ⟨.fail q e, a2, l2⟩ ∧ l = l1 ++ l2 := by
  rcases Inv.bind_fail h with h1 | ⟨m, v, a1, l1, l2, h1, h2, h3⟩
  · exact .inl h1
  · exact .inr ⟨m, v, a1, l1, l2, h1, Inv.map_fail h2, h3⟩

theorem opt_fail {g : G} (h : evalG toks rec (.opt g) am pt = ⟨.fail q e, a2, l⟩) : False := by
  have h := Inv.map_fail h
  unfold P.optional at h
  rcases hr : evalG toks rec g am pt with ⟨⟨m, v⟩ | ⟨m, e⟩ | _ | _, a1, l1⟩ <;> rw [hr] at h <;> cases h

/-- The alternatives of `alts`, the last one first. -/
def altsR (g0 : G) : List G → G
  | [] => g0
  | g :: gs => .alt (altsR g0 gs) g

theorem altsR_amb {g0 : G} : ∀ {gs : List G}, (∀ g ∈ gs ++ [g0], ∀ p e a l, evalG toks rec g am pt = ⟨.fail p e, a, l⟩ → a = am) →
    ∀ {q e a l}, evalG toks rec (altsR g0 gs) am pt = ⟨.fail q e, a, l⟩ → a = am := by
  intro gs
  induction gs with
  | nil => intro ha q e a l h; exact ha g0 (by simp) _ _ _ _ h
  | cons g gs ih =>
    intro ha q e a l h
    obtain ⟨m, e', a1, l1, l2, h1, h2, rfl⟩ := Inv.orElse_fail h
    have := ih (fun g' hg' => ha g' (by simp at hg' ⊢; grind)) h1
    subst this
    exact ha g (by simp) _ _ _ _ h2

theorem altsR_fail {g0 : G} : ∀ {gs : List G}, (∀ g ∈ gs ++ [g0], ∀ p e a l, evalG toks rec g am pt = ⟨.fail p e, a, l⟩ → a = am) →
    ∀ {q e a2 l}, evalG toks rec (altsR g0 gs) am pt = ⟨.fail q e, a2, l⟩ →
    (∀ g ∈ gs ++ [g0], ∃ p e' l', evalG toks rec g am pt = ⟨.fail p e', am, l'⟩) ∧
    ∀ x ∈ (q, e) :: l, ∃ g ∈ gs ++ [g0], ∃ p e' l', evalG toks rec g am pt = ⟨.fail p e', am, l'⟩ ∧ (x = (p, e') ∨ x ∈ l') := by
  intro gs
  induction gs with
  | nil =>
    intro ha q e a2 l h
    have := ha g0 (by simp) _ _ _ _ h
    subst this
    refine ⟨fun g hg => by simp at hg; subst hg; exact ⟨q, e, l, h⟩, fun x hx => ⟨g0, by simp, q, e, l, h, by simpa using hx⟩⟩
  | cons g gs ih =>
    intro ha q e a2 l h
    obtain ⟨m, e', a1, l1, l2, h1, h2, rfl⟩ := Inv.orElse_fail h
    obtain ⟨h3, h4⟩ := ih (fun g' hg' => ha g' (by simp at hg' ⊢; grind)) h1
    have e1 : a1 = am := altsR_amb (fun g' hg' => ha g' (by simp at hg' ⊢; grind)) h1
    subst e1
    have e2 := ha g (by simp) _ _ _ _ h2
    subst e2
    refine ⟨fun g' hg' => ?_, fun x hx => ?_⟩
    · simp only [List.cons_append, List.mem_cons] at hg'
      rcases hg' with rfl | hg'
      · exact ⟨q, e, l2, h2⟩
      · exact h3 g' hg'
    · have hx' : x ∈ (m, e') :: l1 ∨ x ∈ (q, e) :: l2 := by simp at hx ⊢; grind
      rcases hx' with hx' | hx'
      · obtain ⟨g', hg', h5⟩ := h4 x hx'
        exact ⟨g', by simp at hg' ⊢; grind, h5⟩
      · exact ⟨g, by simp, q, e, l2, h2, by simpa using hx'⟩

theorem altsR_ok {g0 : G} : ∀ {gs : List G}, (∀ g ∈ gs ++ [g0], ∀ p e a l, evalG toks rec g am pt = ⟨.fail p e, a, l⟩ → a = am) →
    ∀ {q w a2 l}, evalG toks rec (altsR g0 gs) am pt = ⟨.ok q w, a2, l⟩ →
    ∃ post g pre lg, gs ++ [g0] = post ++ g :: pre ∧ evalG toks rec g am pt = ⟨.ok q w, a2, lg⟩ ∧
      ∀ x ∈ l, x ∈ lg ∨ ∃ g' ∈ pre, ∃ p e' l', evalG toks rec g' am pt = ⟨.fail p e', am, l'⟩ ∧ (x = (p, e') ∨ x ∈ l') := by
  intro gs
  induction gs with
  | nil => intro ha q w a2 l h; exact ⟨[], g0, [], l, rfl, h, fun x hx => .inl hx⟩
  | cons g gs ih =>
    intro ha q w a2 l h
    have ha' : ∀ g ∈ gs ++ [g0], ∀ p e a l, evalG toks rec g am pt = ⟨.fail p e, a, l⟩ → a = am :=
      fun g' hg' => ha g' (by simp at hg' ⊢; grind)
    rcases Inv.orElse_ok h with h1 | ⟨m, e', a1, l1, l2, h1, h2, rfl⟩
    · obtain ⟨post, g', pre, lg, h3, h4⟩ := ih ha' h1
      exact ⟨g :: post, g', pre, lg, by simp [h3], h4⟩
    · obtain ⟨h3, h4⟩ := altsR_fail ha' h1
      have e1 : a1 = am := altsR_amb ha' h1
      subst e1
      refine ⟨[], g, gs ++ [g0], l2, rfl, h2, fun x hx => ?_⟩
      have hx' : x ∈ (m, e') :: l1 ∨ x ∈ l2 := by simp at hx ⊢; grind
      rcases hx' with hx' | hx'
      · exact .inr (h4 x hx')
      · exact .inl hx'

end

end Verif
