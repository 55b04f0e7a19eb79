import Verif.Proofs.LexComplete
import Verif.Proofs.LexIter
import Verif.Spec.Spelling
/-!
# Which failures of the tokenizer are recoverable
-/

namespace Verif
open Spec

attribute [local irreducible] singleToken

/-! ### recoverable failures -/

/-- All failures of `p` are recoverable. -/
def Rec {α} (p : LP α) : Prop := ∀ pt q e l, p pt = (.fail q e, l) → e.recoverable = true

theorem Rec.bind {α β} {p : LP α} {f : α → LP β} (hp : Rec p) (hf : ∀ v, Rec (f v)) : Rec (p >>= f) := by
  intro pt q e l h
  simp only [Bind.bind, LP.bind] at h
  split at h
  · have h' := congrArg Prod.fst h
    dsimp only at h'
    exact hf _ _ _ _ (f _ _).2 (Prod.ext h' rfl)
  · rename_i h1; cases h; exact hp _ _ _ _ h1
  · cases h
  · cases h

theorem Rec.pure {α} {v : α} : Rec (LP.pure v) := by intro pt q e l h; cases h
theorem Rec.point : Rec LP.point := by intro pt q e l h; cases h
theorem Rec.map {α β} {p : LP α} {f : α → β} (hp : Rec p) : Rec (LP.map p f) := Rec.bind hp fun _ => .pure

theorem Rec.exHere (spt : LPoint) : Rec (exHere spt) := by
  intro pt q e l h; unfold Verif.exHere at h; split at h <;> cases h

theorem Rec.advance (i : Nat) : Rec (advance i) := by
  intro pt q e l h; unfold Verif.advance at h; split at h <;> cases h

theorem Rec.literal (w : Text) : Rec (literal w) := by
  intro pt q e l h
  unfold Verif.literal at h
  split at h
  · exact Rec.bind (Rec.advance _) (fun _ => Rec.exHere _) _ _ _ _ h
  · cases h; rfl

theorem Rec.split {i : Nat} {e : LErr} (he : e.recoverable = true) : Rec (splitPointAtNonZeroOffset i e) := by
  intro pt q e' l h
  unfold splitPointAtNonZeroOffset at h
  split at h
  · cases h; exact he
  · split at h <;> cases h

theorem Rec.orElse {α} {p q : LP α} (hq : Rec q) (hp : Rec p) : Rec (LP.orElse p q) := by
  intro pt r e l h
  unfold LP.orElse at h
  split at h
  · rename_i h1
    split at h
    · split at h
      rename_i h2
      cases h
      exact hq _ _ _ _ h2
    · cases h; exact hp _ _ _ _ h1
  · exact hp _ _ _ _ h

theorem Rec.alts {α} {p : LP α} {ps : List (LP α)} (hp : Rec p) (h : ∀ q ∈ ps, Rec q) : Rec (LP.alts p ps) := by
  induction ps generalizing p with
  | nil => exact hp
  | cons q qs ih => exact ih (Rec.orElse (h q (by simp)) hp) fun r hr => h r (by simp [hr])

theorem Rec.optional {α} {p : LP α} (hp : Rec p) : Rec (LP.optional p) := by
  intro pt r e l h
  unfold LP.optional at h
  split at h
  · cases h
  · split at h
    · cases h
    · rename_i h1 _; cases h; exact hp _ _ _ _ h1
  · cases h
  · cases h

theorem Rec.zeroOrMoreF {α} {p : LP α} (hp : Rec p) (n : Nat) : Rec (LP.zeroOrMoreF p n) := by
  induction n with
  | zero => intro pt r e l h; cases h
  | succ n ih =>
    intro pt r e l h
    unfold LP.zeroOrMoreF at h
    split at h
    · split at h
      · cases h
      · rename_i r' l' h2 h3
        cases h
        exact ih _ _ _ _ h3
    · split at h
      · cases h
      · rename_i h1 _; cases h; exact hp _ _ _ _ h1
    · cases h
    · cases h

theorem Rec.not {α} {p : LP α} {e : LErr} (he : e.recoverable = true) : Rec (LP.not p e) := by
  intro pt r e' l h
  unfold LP.not at h
  split at h <;> cases h
  exact he

theorem Rec.hexString : Rec hexString := by
  intro pt r e l h
  unfold Verif.hexString at h
  dsimp only at h
  split at h
  · cases h; rfl
  · exact Rec.advance _ _ _ _ _ h

theorem Rec.character : Rec character := by
  refine Rec.bind .point fun _ => .bind (.literal _) fun _ => .bind ?_ fun _ => .bind (.literal _) fun _ => .exHere _
  refine Rec.alts (.bind (.literal _) fun _ => .bind ?_ fun _ => .pure) ?_
  · refine Rec.alts (.literal _) ?_
    intro q hq
    simp only [List.mem_cons, List.not_mem_nil, or_false] at hq
    rcases hq with rfl | rfl | rfl | rfl | rfl | rfl | rfl | rfl
    iterate 6 exact .literal _
    · exact .bind .point fun _ => .bind (.literal _) fun _ => .bind .hexString fun _ => .exHere _
    · exact .bind .point fun _ => .bind (.literal _) fun _ => .bind .hexString fun _ => .bind (.literal _) fun _ => .exHere _
  · intro q hq
    simp only [List.mem_cons, List.not_mem_nil, or_false] at hq
    subst hq
    intro pt r e l h
    unfold singleChar at h
    split at h
    · exact Rec.map (.advance _) _ _ _ _ h
    · cases h; rfl

theorem Rec.string : Rec string :=
  .bind .point fun _ => .bind (.literal _) fun _ => .bind (fun _ _ _ _ h => Rec.advance _ _ _ _ _ h) fun _ => .bind (.literal _) fun _ => .exHere _

theorem Rec.stringRaw : Rec stringRaw := by
  refine .bind .point fun _ => .bind (.literal _) fun _ => .bind (fun _ _ _ _ h => Rec.zeroOrMoreF (.literal _) _ _ _ _ _ h) fun _ =>
    .bind (.literal _) fun _ => .bind ?_ fun _ => .exHere _
  intro pt r e l h
  unfold rawStringTail at h
  dsimp only at h
  split at h
  · split at h
    · cases h
    · split at h <;> cases h
  · cases h; rfl

theorem Rec.prefixed {p : LP Extent} (h : Rec p) : Rec (do let spt ← LP.point
                                                           let _ ← Verif.literal c!"b"
                                                           let _ ← p
                                                           Verif.exHere spt : LP Extent) :=
  .bind .point fun _ => .bind (.literal _) fun _ => .bind h fun _ => .exHere _

theorem Rec.simpleIdent (X : Xid) : Rec (simpleIdent X) := fun _ _ _ _ h => Rec.map (.split rfl) _ _ _ _ h

theorem Rec.lifetime (X : Xid) : Rec (lifetime X) :=
  .bind .point fun _ => .bind (.literal _) fun _ => .bind (.simpleIdent X) fun _ => .exHere _

theorem Rec.comment : Rec commentOrDocComment := by
  have line : ∀ k, Rec (lineComment k) := fun k pt r e l h =>
    Rec.bind (.advance _) (fun _ => .bind (.exHere _) fun _ => .pure) _ _ _ _ h
  have block : ∀ k n, Rec (blockComment k n) := by
    intro k n pt r e l h
    unfold blockComment at h
    split at h
    · cases h
    · exact Rec.bind (.advance _) (fun _ => .bind (.exHere _) fun _ => .pure) _ _ _ _ h
  intro pt r e l h
  unfold commentOrDocComment at h
  repeat' split at h
  all_goals first
    | exact line _ _ _ _ _ h
    | exact block _ _ _ _ _ _ h
    | (cases h; rfl)

theorem Rec.numberDigits (n : Nat) : Rec (numberDigits n) := fun _ _ _ _ h => Rec.map (.split rfl) _ _ _ _ h

theorem Rec.numberBase (X : Xid) (b : NumBase) (w : Text) (n : Nat) : Rec (numberBase X b w n) :=
  .bind (.literal _) fun _ => .bind (.numberDigits _) fun _ => .bind (.optional (.bind .point fun _ => .bind (.literal _) fun _ =>
    .bind (.not rfl) fun _ => .bind (.not rfl) fun _ => .bind (.optional (.numberDigits _)) fun _ => .exHere _)) fun _ => .pure

theorem Rec.numberExponent : Rec numberExponent := by
  have w : ∀ m, Rec (numberExponentWith m) := fun m => .bind (.literal _) fun _ => .bind (.numberDigits _) fun _ => .pure
  exact Rec.alts (w _) (by simp [w])

theorem Rec.number (X : Xid) : Rec (number X) :=
  .bind .point fun _ => .bind (Rec.alts (Rec.numberBase X _ _ _) (by simp [Rec.numberBase])) fun _ => .bind (.optional .numberExponent) fun _ =>
    .bind (.optional (.simpleIdent X)) fun _ => .bind (.exHere _) fun _ => .pure

/-- A parser that cannot succeed fails. -/
theorem SpecAt.fails {α} {p : LP α} {pt : LPoint} {Q : LPoint → α → Prop} (h : SpecAt p pt Q) (hr : Rec p)
    (hn : ∀ q v, Q q v → False) : FailsAt p pt := by
  rcases h.cases with ⟨q, v, l, h1, _, hq, _⟩ | ⟨q, e, l, h1, _, _⟩
  · exact (hn _ _ hq).elim
  · exact ⟨q, e, l, h1, hr _ _ _ _ h1⟩

end Verif
