import Verif.Eval
import Verif.Spec.Comb
/-!
# What a success of a grammar expression consists of
-/

namespace Verif
open Verif.Spec

section
variable {α β : Type} {p : P α} {f : α → β} {a a' : Amb} {pt q : Pt} {l : Log}

theorem P.map_ok {w : β} (h : p.map f a pt = ⟨.ok q w, a', l⟩) : ∃ v, p a pt = ⟨.ok q v, a', l⟩ ∧ w = f v := by
  unfold P.map at h
  split at h <;> simp at h
  next hp => obtain ⟨⟨rfl, rfl⟩, rfl, rfl⟩ := h; exact ⟨_, hp, rfl⟩

theorem P.bind_ok {f : α → P β} {w : β} (h : p.bind f a pt = ⟨.ok q w, a', l⟩) :
    ∃ m v b l1 l2, p a pt = ⟨.ok m v, b, l1⟩ ∧ f v b m = ⟨.ok q w, a', l2⟩ := by
  unfold P.bind at h
  split at h
  · next m v b l1 hp =>
    dsimp only at h
    refine ⟨_, _, _, _, (f v b m).log, hp, ?_⟩
    generalize f v b m = r at h ⊢
    obtain ⟨o, b, l'⟩ := r
    simp at h
    obtain ⟨rfl, rfl, -⟩ := h
    rfl
  all_goals simp at h

theorem P.orElse_ok {p p' : P α} {w : α} (h : p.orElse p' a pt = ⟨.ok q w, a', l⟩) :
    p a pt = ⟨.ok q w, a', l⟩ ∨ ∃ b m l1, Fails p a pt m ∧ p' b pt = ⟨.ok q w, a', l1⟩ := by
  unfold P.orElse at h
  split at h
  · next m e b l1 hp =>
    dsimp only at h
    refine .inr ⟨b, m, (p' b pt).log, ⟨_, _, _, hp⟩, ?_⟩
    generalize p' b pt = r at h ⊢
    obtain ⟨o, b, l'⟩ := r
    simp at h
    obtain ⟨rfl, rfl, -⟩ := h
    rfl
  · exact .inl h

theorem P.spanned_ok {toks : List Token} {w : Extent × α} (h : P.spanned toks p a pt = ⟨.ok q w, a', l⟩) :
    p a pt = ⟨.ok q w.2, a', l⟩ ∧ ex toks pt q = some w.1 := by
  unfold P.spanned at h
  split at h
  · next hp =>
    split at h <;> simp at h
    next he => obtain ⟨⟨rfl, rfl⟩, rfl, rfl⟩ := h; exact ⟨hp, he⟩
  all_goals simp at h

theorem P.setAmbiguityLevel_ok {level : Amb} {w : α} (h : P.setAmbiguityLevel level p a pt = ⟨.ok q w, a', l⟩) :
    a' = a ∧ ∃ b, p level pt = ⟨.ok q w, b, l⟩ := by
  unfold P.setAmbiguityLevel at h
  generalize p level pt = r at h ⊢
  obtain ⟨o, b, l'⟩ := r
  simp at h
  obtain ⟨rfl, rfl, rfl⟩ := h
  exact ⟨rfl, _, rfl⟩

theorem Succeeds.map_iff {w : β} : Succeeds (p.map f) a pt w a' q → ∃ v, Succeeds p a pt v a' q ∧ w = f v := by
  rintro ⟨l, h⟩
  obtain ⟨v, h', rfl⟩ := P.map_ok h
  exact ⟨v, ⟨l, h'⟩, rfl⟩

end

section
variable {toks : List Token} {rec : NT → P (List V)} {a a' : Amb} {pt q : Pt} {vs : List V}

theorem evalG_seq {x y : G} (h : Succeeds (evalG toks rec (.seq x y)) a pt vs a' q) :
    ∃ b m v w, Succeeds (evalG toks rec x) a pt v b m ∧ Succeeds (evalG toks rec y) b m w a' q ∧ vs = v ++ w := by
  obtain ⟨l, h⟩ := h
  obtain ⟨m, v, b, l1, l2, h1, h2⟩ := P.bind_ok h
  obtain ⟨w, h3, rfl⟩ := P.map_ok h2
  exact ⟨b, m, v, w, ⟨_, h1⟩, ⟨_, h3⟩, rfl⟩

theorem evalG_alt {x y : G} (h : Succeeds (evalG toks rec (.alt x y)) a pt vs a' q) :
    Succeeds (evalG toks rec x) a pt vs a' q ∨
      ∃ b m, Fails (evalG toks rec x) a pt m ∧ Succeeds (evalG toks rec y) b pt vs a' q := by
  obtain ⟨l, h⟩ := h
  rcases P.orElse_ok h with h | ⟨b, m, l1, h, h'⟩
  · exact .inl ⟨_, h⟩
  · exact .inr ⟨b, m, h, _, h'⟩

theorem evalG_drop {x : G} (h : Succeeds (evalG toks rec (.drop x)) a pt vs a' q) :
    vs = [] ∧ ∃ v, Succeeds (evalG toks rec x) a pt v a' q := by
  obtain ⟨v, h', rfl⟩ := Succeeds.map_iff h
  exact ⟨rfl, v, h'⟩

theorem evalG_map {f : Fn} {x : G} (h : Succeeds (evalG toks rec (.map f x)) a pt vs a' q) :
    ∃ v, Succeeds (evalG toks rec x) a pt v a' q ∧ vs = f.app v := Succeeds.map_iff h

theorem evalG_build {m : Mk} {x : G} (h : Succeeds (evalG toks rec (.build m x)) a pt vs a' q) :
    ∃ v e, Succeeds (evalG toks rec x) a pt v a' q ∧ ex toks pt q = some e ∧ vs = m.app e v := by
  obtain ⟨w, ⟨l, h1⟩, rfl⟩ := Succeeds.map_iff h
  obtain ⟨h2, he⟩ := P.spanned_ok h1
  exact ⟨w.2, w.1, ⟨l, h2⟩, he, rfl⟩

theorem evalG_amb {level : Amb} {x : G} (h : Succeeds (evalG toks rec (.amb level x)) a pt vs a' q) :
    a' = a ∧ ∃ b, Succeeds (evalG toks rec x) level pt vs b q := by
  obtain ⟨l, h⟩ := h
  obtain ⟨rfl, b, h⟩ := P.setAmbiguityLevel_ok h
  exact ⟨rfl, b, l, h⟩

/-- A parser returns one value. -/
theorem eval_expression_single {n : Nat} {stmt : Bool} {nt : NT} (hr : rules nt = .expr stmt)
    (h : Succeeds (eval toks n nt) a pt vs a' q) : ∃ v, vs = [v] := by
  cases n with
  | zero => obtain ⟨l, h⟩ := h; simp [eval] at h
  | succ n =>
    unfold eval at h
    rw [hr] at h
    obtain ⟨v, -, rfl⟩ := Succeeds.map_iff h
    exact ⟨v, rfl⟩

theorem eval_g {n : Nat} {nt : NT} {g : G} (hr : rules nt = .g g) (h : Succeeds (eval toks n nt) a pt vs a' q) :
    ∃ m, n = m + 1 ∧ Succeeds (evalG toks (eval toks m) g) a pt vs a' q := by
  cases n with
  | zero => obtain ⟨l, h⟩ := h; simp [eval] at h
  | succ n =>
    unfold eval at h
    rw [hr] at h
    exact ⟨n, rfl, h⟩

theorem eval_statement_single {n : Nat} (h : Succeeds (eval toks n .statement) a pt vs a' q) :
    ∃ t w, vs = [.enm t w] := by
  obtain ⟨m, rfl, h'⟩ := eval_g rfl h
  rcases evalG_alt h' with h | ⟨_, _, _, h⟩
  · rcases evalG_alt h with h | ⟨_, _, _, h⟩
    · obtain ⟨v, -, rfl⟩ := evalG_map h; exact ⟨_, _, rfl⟩
    · obtain ⟨v, -, rfl⟩ := evalG_map h; exact ⟨_, _, rfl⟩
  · obtain ⟨v, -, rfl⟩ := evalG_map h; exact ⟨_, _, rfl⟩

end

/-- If every element is a list of one value, the elements are such lists. -/
theorem Spec.Reads.singles {α β : Type} {sep : P β} {f : P (List α)} {a p c a' q}
    (hf : ∀ a p v a' q, Succeeds f a p v a' q → ∃ x, v = [x]) (h : Reads sep f a p c a' q) :
    ∃ xs : List α, elements c = xs.map ([·]) := by
  induction h with
  | nil => exact ⟨[], rfl⟩
  | element hv _ ih =>
    obtain ⟨x, rfl⟩ := hf _ _ _ _ _ hv
    obtain ⟨xs, ih⟩ := ih
    exact ⟨x :: xs, by show [x] :: elements _ = _; rw [ih]; rfl⟩
  | separator _ _ ih => exact ih

theorem flatten_singles {α : Type} (xs : List α) : (xs.map ([·])).flatten = xs := by
  induction xs with
  | nil => rfl
  | cons x xs ih => simp [ih]

end Verif
