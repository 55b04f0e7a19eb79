import Verif.Proofs.Reads
import Lean.Elab.Tactic
/-!
# Running the grammar on symbols

An interpreter of grammar expressions on a sequence of symbols of which some parts are only known by their properties.  What it
finds is what the parser does (`explore_sound`), so most cases of a proof about the parser are computations.
-/

namespace Verif
open Spec

open Lean Elab Tactic Meta in
/-- Close a goal `a = b` by reflexivity, leaving the computation to the kernel. -/
elab "krfl" : tactic => do
  let g ← getMainGoal
  g.withContext do
    let t ← instantiateMVars (← g.getType)
    let some (_, a, b) := t.consumeMData.eq? | throwError "not an equation"
    if b.hasExprMVar then
      unless ← isDefEq b a do throwError "not an equation"
    let t ← instantiateMVars t
    let b ← instantiateMVars b
    let xs := (collectFVars {} t).fvarIds.map Expr.fvar
    let type ← mkForallFVars xs t
    let value ← mkLambdaFVars xs (← mkEqRefl b)
    let lemmaName ← mkAuxLemma [] type value
    g.assign (mkAppN (mkConst lemmaName) xs)
  replaceMainGoal []

/-- What is known of some symbols: the parser of `g` reads them, with the value `v`. -/
structure Chunk where
  /-- (or nothing is known of parsers that read them) -/
  g : Option G
  am : Amb
  v : V
  /-- what they can begin with -/
  first : List (Option TK)
  /-- whether there may be no symbols -/
  null : Bool
  /-- what may not come next -/
  bad : List (Option TK)
  /-- what has to be rejected next -/
  needs : List G
  /-- what is rejected here, provided that some further symbols do not come next -/
  nots : List (G × List (Option TK))

/-- A symbol or some symbols. -/
inductive Piece
  | s (x : Lexeme)
  | c (c : Chunk)

/-- What may be seen where a token of this kind begins. -/
def shows : Option TK → List (Option TK)
  | some k => some k :: headsOf k ++ wholesOf k
  | none => [none]

/-- Symbols that are there, or not if `null`, begin with one of `first`. -/
def Heads (first : List (Option TK)) (null : Bool) : List Lexeme → Prop
  | [] => null = true
  | s :: _ => s.kind ∈ first

section
variable (toks : List Token)

/-- The symbols have the properties of a chunk. -/
structure Chunk.Sem (c : Chunk) (xs : List Lexeme) : Prop where
  heads : Heads c.first c.null xs
  parses : ∀ g, c.g = some g → ∀ rest, ahead (fun k => !c.bad.contains k) rest = true →
    (∀ g ∈ c.needs, Rejects toks g c.am rest) → Parses toks g c.am (xs ++ rest) rest [c.v]
  nots : ∀ x ∈ c.nots, ∀ rest, ahead (fun k => !c.bad.contains k) rest = true → (∀ g ∈ c.needs, Rejects toks g c.am rest) →
    ahead (fun k => !x.2.contains k) rest = true → Rejects toks x.1 c.am (xs ++ rest)

theorem Chunk.Sem.of {toks : List Token} {c : Chunk} {xs : List Lexeme} {g : G} (hg : c.g = some g) (heads : Heads c.first c.null xs)
    (parses : ∀ rest, ahead (fun k => !c.bad.contains k) rest = true → (∀ g ∈ c.needs, Rejects toks g c.am rest) →
      Parses toks g c.am (xs ++ rest) rest [c.v])
    (nots : ∀ x ∈ c.nots, ∀ rest, ahead (fun k => !c.bad.contains k) rest = true → (∀ g ∈ c.needs, Rejects toks g c.am rest) →
      ahead (fun k => !x.2.contains k) rest = true → Rejects toks x.1 c.am (xs ++ rest)) : c.Sem toks xs :=
  ⟨heads, fun g' hg' rest hr hn => by rw [hg] at hg'; cases hg'; exact parses rest hr hn, nots⟩

/-- The symbols consist of these pieces. -/
inductive Denotes : List Piece → List Lexeme → Prop
  | nil : Denotes [] []
  | s {x ps xs} : Denotes ps xs → Denotes (.s x :: ps) (x :: xs)
  | c {c ps xs ys} : c.Sem toks xs → Denotes ps ys → Denotes (.c c :: ps) (xs ++ ys)

end

/-- The result of running. -/
inductive Found
  | ok (ps : List Piece) (vs : List V)
  | rej
  | unk

def Found.isRej : Found → Bool
  | .rej => true
  | _ => false

section
variable (b : List (Option TK)) (nd : List G) (am0 : Amb)

/-- What may be seen where the pieces begin; after the last one comes nothing of `b`. -/
def sees : List Piece → Option TK → Bool
  | [], k => !b.contains k
  | .s x :: _, k => x.looks.contains k
  | .c c :: ps, k => (c.first.flatMap shows).contains k || (c.null && sees ps k)

/-- Whether none of these is seen. -/
def unseen (ps : List Piece) (ks : List (Option TK)) : Bool := ks.all fun k => !sees b ps k

/-- Found a grammar expression on pieces; what comes after them begins with nothing of `b` and is rejected by `nd`. -/
def explore : Nat → Amb → G → List Piece → Found
  | 0, _, _, _ => .unk
  | n + 1, am, g, ps =>
    if dead (sees b ps) g then .rej else
    let whole : Found := match ps with
      | [] => if am = am0 ∧ nd.contains g then .rej else .unk
      | .c c :: ps' =>
        if am = c.am then
          if unseen b ps' c.bad && c.needs.all fun g => (explore n am g ps').isRej then
            if c.g = some g then .ok ps' [c.v]
            else if c.nots.any fun x => x.1 = g && unseen b ps' x.2 then .rej else .unk
          else .unk
        else .unk
      | _ => .unk
    match whole with
    | .unk =>
      match g with
      | .eps => .ok ps []
      | .tok k =>
        match ps with
        | .s x :: ps' => if x.kind = some k then .ok ps' [.ext ⟨0, 0⟩] else .unk
        | _ => .unk
      | .number =>
        match ps with
        | .s (.num m) :: ps' => .ok ps' [numberTree m]
        | _ => .unk
      | .simpleNumber =>
        match ps with
        | .s (.num m) :: ps' => if m.intoSimple.isSome then .ok ps' [.ext ⟨0, 0⟩] else .unk
        | _ => .unk
      | .r nt =>
        match rules nt with
        | .g g => explore n am g ps
        | .expr _ => .unk
      | .seq a c =>
        match explore n am a ps with
        | .ok ps' vs =>
          match explore n am c ps' with
          | .ok ps'' ws => .ok ps'' (vs ++ ws)
          | r => r
        | r => r
      | .alt a c =>
        match explore n am a ps with
        | .rej => explore n am c ps
        | r => r
      | .opt a =>
        match explore n am a ps with
        | .ok ps' vs => .ok ps' [.list vs]
        | .rej => .ok ps [.list []]
        | .unk => .unk
      | .many a =>
        match explore n am a ps with
        | .rej => .ok ps [.list []]
        | .ok ps' vs =>
          match explore n am a ps' with
          | .rej => .ok ps' [.list vs]
          | _ => .unk
        | .unk => .unk
      | .tailed k sep a =>
        if dead (sees b ps) a then .ok ps (k.out ⟨[], 0, false⟩) else
        match explore n am a ps with
        | .ok ps' vs => if dead (sees b ps') sep then .ok ps' (k.out ⟨[vs], 0, false⟩) else .unk
        | _ => .unk
      | .tailed1Values sep a =>
        match explore n am a ps with
        | .ok ps' vs => if dead (sees b ps') sep then .ok ps' [.list vs] else .unk
        | _ => .unk
      | .resume sep _ => if dead (sees b ps) sep then .ok ps [.list []] else .unk
      | .ext a =>
        match explore n am a ps with
        | .ok ps' _ => .ok ps' [.ext ⟨0, 0⟩]
        | r => r
      | .drop a =>
        match explore n am a ps with
        | .ok ps' _ => .ok ps' []
        | r => r
      | .map f a =>
        match explore n am a ps with
        | .ok ps' vs => .ok ps' (f.app vs)
        | r => r
      | .build f a =>
        match explore n am a ps with
        | .ok ps' vs => .ok ps' (f.app ⟨0, 0⟩ vs)
        | r => r
      | .nodeEmpty k a =>
        match explore n am a ps with
        | .ok ps' vs => .ok ps' [.node k ⟨0, 0⟩ [] vs]
        | r => r
      | .mapErr _ a => explore n am a ps
      | .peek a =>
        match explore n am a ps with
        | .ok _ vs => .ok ps vs
        | _ => .unk
      | .amb l a => explore n l a ps
      | .ifAmbiguous a c => if am.isAmbiguous then explore n am a ps else explore n am c ps
      | .notMaximum a => if am = .Maximum then .rej else explore n am a ps
      | _ => .unk
    | w => w

end

section
variable {toks : List Token} {b : List (Option TK)} {nd : List G} {am am0 : Amb} {ps : List Piece} {xs rest : List Lexeme}

theorem looks_shows (s : Lexeme) : ∀ k ∈ s.looks, k ∈ shows s.kind := by
  cases s <;> simp [Lexeme.looks, Lexeme.kind, shows] <;> grind

theorem ahead_mono {P Q : Option TK → Bool} {i : List Lexeme} (h : ahead P i = true) (hpq : ∀ k, P k = true → Q k = true) :
    ahead Q i = true := by
  cases i with
  | nil => exact hpq _ h
  | cons s ss =>
    simp only [ahead, List.all_eq_true] at h ⊢
    exact fun k hk => hpq k (h k hk)

theorem Denotes.sees (h : Denotes toks ps xs) (hr : ahead (fun k => !b.contains k) rest = true) :
    ahead (sees b ps) (xs ++ rest) = true := by
  induction h with
  | nil => exact hr
  | s h ih => simp [ahead, Verif.sees]
  | @c c ps xs ys h _ ih =>
    have hh := h.heads
    cases xs with
    | nil =>
      have : c.null = true := hh
      exact ahead_mono ih fun k hk => by simp [Verif.sees, this, hk]
    | cons s ss =>
      simp only [List.cons_append, ahead, List.all_eq_true, Verif.sees, Bool.or_eq_true]
      intro k hk
      left
      simp only [List.contains_iff_mem, List.mem_flatMap]
      exact ⟨_, hh, looks_shows s k hk⟩

theorem unseen_ahead {ks : List (Option TK)} (hu : unseen b ps ks = true) {i : List Lexeme} (h : ahead (sees b ps) i = true) :
    ahead (fun k => !ks.contains k) i = true :=
  ahead_mono h fun k hk => by
    simp only [unseen, List.all_eq_true, Bool.not_eq_true'] at hu
    simp only [Bool.not_eq_true', List.contains_eq_mem, decide_eq_false_iff_not]
    intro hm
    simp [hu k hm] at hk

/-- What the result of a explore says. -/
def Found.Sound (toks : List Token) (rest : List Lexeme) (am : Amb) (g : G) (xs : List Lexeme) : Found → Prop
  | .ok ps' vs => ∃ ys, Denotes toks ps' ys ∧ Parses toks g am (xs ++ rest) (ys ++ rest) vs
  | .rej => Rejects toks g am (xs ++ rest)
  | .unk => True

theorem numberTree_like (m : Number) : shape (convertNumber m) = shape (numberTree m) := by
  cases m with
  | mk base extent integral fractional exponent type_suffix underscores =>
    cases base <;> cases fractional <;> cases exponent <;> cases type_suffix <;> rfl

theorem _root_.Verif.Parses.like {g : G} {i o : List Lexeme} {vs ws : List V} (h : Parses toks g am i o vs) (hl : Likes vs ws) :
    Parses toks g am i o ws := by
  intro p hp
  obtain ⟨q, hq, hb, hy⟩ := h p hp
  exact ⟨q, hq, hb, fun n => (hy n).mono fun v hv => Eq.trans hv hl⟩

theorem explore_sound (hr : ahead (fun k => !b.contains k) rest = true) (hn : ∀ g ∈ nd, Rejects toks g am0 rest) (n : Nat) :
    ∀ (am : Amb) (g : G) (ps : List Piece) (xs : List Lexeme), Denotes toks ps xs →
      (explore b nd am0 n am g ps).Sound toks rest am g xs := by
  induction n with
  | zero => intros; trivial
  | succ n ih =>
    intro am g ps xs hd
    have hs := hd.sees hr
    unfold explore
    split
    · exact (stops_of_dead hs ‹_›).rejects
    dsimp only
    split
    case h_2 w hw =>
      -- the whole of a chunk
      revert hw
      split
      · split
        · rename_i hw
          intro _
          cases hd
          obtain ⟨rfl, hw⟩ := hw
          exact hn g (by simpa using hw)
        · intro h; exact absurd rfl h
      · split
        · rename_i c ps' hd' heq; subst heq
          split
          · rename_i hw
            rw [Bool.and_eq_true] at hw
            obtain ⟨hw1, hw2⟩ := hw
            cases hd with
            | @c _ _ xs ys hc hd =>
              have h1 := unseen_ahead hw1 (hd.sees hr)
              have h2 : ∀ g ∈ c.needs, Rejects toks g c.am (ys ++ rest) := by
                intro g hg
                have := List.all_eq_true.mp hw2 g hg
                have h3 := ih c.am g ps' ys hd
                generalize explore b nd am0 n c.am g ps' = r at this h3
                cases r <;> simp [Found.isRej] at this
                exact h3
              split
              · rename_i hg
                intro _
                exact ⟨ys, hd, by rw [List.append_assoc]; exact hc.parses _ hg _ h1 h2⟩
              · split
                · rename_i hx
                  intro _
                  rw [List.any_eq_true] at hx
                  obtain ⟨x, hx, hx'⟩ := hx
                  simp only [Bool.and_eq_true, decide_eq_true_eq] at hx'
                  obtain ⟨rfl, hx'⟩ := hx'
                  show Rejects toks x.1 c.am _
                  rw [List.append_assoc]
                  exact hc.nots x hx _ h1 h2 (unseen_ahead hx' (hd.sees hr))
                · intro h; exact absurd rfl h
          · intro h; exact absurd rfl h
        · intro h; exact absurd rfl h
      · intro h; exact absurd rfl h
    case h_1 =>
      cases g with
      | eps => exact ⟨xs, hd, .eps⟩
      | tok k =>
        dsimp only
        split
        · split
          · cases hd with
            | s hd => exact ⟨_, hd, .tok ‹_›⟩
          · trivial
        · trivial
      | number =>
        dsimp only
        split
        · cases hd with
          | s hd => exact ⟨_, hd, Parses.number.like (by simp [Likes, numberTree_like])⟩
        · trivial
      | simpleNumber =>
        dsimp only
        split
        · split
          · cases hd with
            | s hd => exact ⟨_, hd, .simpleNumber ‹_›⟩
          · trivial
        · trivial
      | r nt =>
        dsimp only
        split
        · rename_i g hg
          have h := ih am g ps xs hd
          generalize explore b nd am0 n am g ps = r at h
          cases r with
          | ok ps' vs => obtain ⟨ys, h1, h2⟩ := h; exact ⟨ys, h1, .r hg h2⟩
          | rej => exact Rejects.r hg h
          | unk => trivial
        · trivial
      | seq a c =>
        dsimp only
        have h := ih am a ps xs hd
        generalize explore b nd am0 n am a ps = r at h
        cases r with
        | ok ps' vs =>
          obtain ⟨ys, h1, h2⟩ := h
          dsimp only
          have h' := ih am c ps' ys h1
          generalize explore b nd am0 n am c ps' = r at h'
          cases r with
          | ok ps' vs => obtain ⟨zs, h3, h4⟩ := h'; exact ⟨zs, h3, h2.seq h4⟩
          | rej => exact Rejects.seq_right h2 h'
          | unk => trivial
        | rej => exact Rejects.seq_left h
        | unk => trivial
      | alt a c =>
        dsimp only
        have h := ih am a ps xs hd
        generalize explore b nd am0 n am a ps = r at h
        cases r with
        | ok ps' vs => obtain ⟨ys, h1, h2⟩ := h; exact ⟨ys, h1, h2.alt_left⟩
        | rej =>
          dsimp only
          have h' := ih am c ps xs hd
          generalize explore b nd am0 n am c ps = r at h'
          cases r with
          | ok ps' vs => obtain ⟨zs, h3, h4⟩ := h'; exact ⟨zs, h3, h4.alt_right' h⟩
          | rej => exact Rejects.alt h h'
          | unk => trivial
        | unk => trivial
      | opt a =>
        dsimp only
        have h := ih am a ps xs hd
        generalize explore b nd am0 n am a ps = r at h
        cases r with
        | ok ps' vs => obtain ⟨ys, h1, h2⟩ := h; exact ⟨ys, h1, h2.opt_some⟩
        | rej => exact ⟨xs, hd, .opt_none h⟩
        | unk => trivial
      | many a =>
        dsimp only
        have h := ih am a ps xs hd
        generalize explore b nd am0 n am a ps = r at h
        cases r with
        | ok ps' vs =>
          obtain ⟨ys, h1, h2⟩ := h
          dsimp only
          have h' := ih am a ps' ys h1
          generalize explore b nd am0 n am a ps' = r at h'
          cases r with
          | ok => trivial
          | rej => exact ⟨ys, h1, (ParsesMany.cons h2 (.nil h')).many.to (by simp)⟩
          | unk => trivial
        | rej => exact ⟨xs, hd, (ParsesMany.nil h).many⟩
        | unk => trivial
      | tailed k sep a =>
        dsimp only
        split
        · exact ⟨xs, hd, (ParsesTail.nil (stops_of_dead hs ‹_›)).tailed⟩
        · have h := ih am a ps xs hd
          generalize explore b nd am0 n am a ps = r at h
          cases r with
          | ok ps' vs =>
            obtain ⟨ys, h1, h2⟩ := h
            dsimp only
            split
            · exact ⟨ys, h1, (ParsesTail.one h2 (stops_of_dead (h1.sees hr) ‹_›)).tailed⟩
            · trivial
          | rej => trivial
          | unk => trivial
      | tailed1Values sep a =>
        dsimp only
        have h := ih am a ps xs hd
        generalize explore b nd am0 n am a ps = r at h
        cases r with
        | ok ps' vs =>
          obtain ⟨ys, h1, h2⟩ := h
          dsimp only
          split
          · exact ⟨ys, h1, (ParsesOne.one h2 (stops_of_dead (h1.sees hr) ‹_›)).values.to (by simp)⟩
          · trivial
        | rej => trivial
        | unk => trivial
      | resume sep a =>
        dsimp only
        split
        · exact ⟨xs, hd, .resume_none (stops_of_dead hs ‹_›)⟩
        · trivial
      | implTailed k i sep a => trivial
      | nested o c => trivial
      | ext a =>
        dsimp only
        have h := ih am a ps xs hd
        generalize explore b nd am0 n am a ps = r at h
        cases r with
        | ok ps' vs => obtain ⟨ys, h1, h2⟩ := h; exact ⟨ys, h1, h2.ext⟩
        | rej => exact Rejects.ext h
        | unk => trivial
      | drop a =>
        dsimp only
        have h := ih am a ps xs hd
        generalize explore b nd am0 n am a ps = r at h
        cases r with
        | ok ps' vs => obtain ⟨ys, h1, h2⟩ := h; exact ⟨ys, h1, h2.drop⟩
        | rej => exact Rejects.drop h
        | unk => trivial
      | map f a =>
        dsimp only
        have h := ih am a ps xs hd
        generalize explore b nd am0 n am a ps = r at h
        cases r with
        | ok ps' vs => obtain ⟨ys, h1, h2⟩ := h; exact ⟨ys, h1, h2.map⟩
        | rej => exact Rejects.map h
        | unk => trivial
      | build f a =>
        dsimp only
        have h := ih am a ps xs hd
        generalize explore b nd am0 n am a ps = r at h
        cases r with
        | ok ps' vs => obtain ⟨ys, h1, h2⟩ := h; exact ⟨ys, h1, h2.build⟩
        | rej => exact Rejects.build h
        | unk => trivial
      | nodeEmpty k a =>
        dsimp only
        have h := ih am a ps xs hd
        generalize explore b nd am0 n am a ps = r at h
        cases r with
        | ok ps' vs => obtain ⟨ys, h1, h2⟩ := h; exact ⟨ys, h1, h2.nodeEmpty⟩
        | rej => exact Rejects.nodeEmpty h
        | unk => trivial
      | mapErr e a =>
        dsimp only
        have h := ih am a ps xs hd
        generalize explore b nd am0 n am a ps = r at h
        cases r with
        | ok ps' vs => obtain ⟨ys, h1, h2⟩ := h; exact ⟨ys, h1, h2.mapErr⟩
        | rej => exact Rejects.mapErr h
        | unk => trivial
      | peek a =>
        dsimp only
        have h := ih am a ps xs hd
        generalize explore b nd am0 n am a ps = r at h
        cases r with
        | ok ps' vs => obtain ⟨ys, h1, h2⟩ := h; exact ⟨xs, hd, h2.peek⟩
        | rej => trivial
        | unk => trivial
      | amb l a =>
        dsimp only
        have h := ih l a ps xs hd
        generalize explore b nd am0 n l a ps = r at h
        cases r with
        | ok ps' vs => obtain ⟨ys, h1, h2⟩ := h; exact ⟨ys, h1, h2.amb⟩
        | rej => exact Rejects.amb h
        | unk => trivial
      | ifAmbiguous a c =>
        dsimp only
        split
        · rename_i ha
          have h := ih am a ps xs hd
          generalize explore b nd am0 n am a ps = r at h
          cases r with
          | ok ps' vs => obtain ⟨ys, h1, h2⟩ := h; exact ⟨ys, h1, .ifAmbiguous_true ha h2⟩
          | rej =>
            intro p hp n
            unfold evalG; rw [if_pos ha]; exact h p hp n
          | unk => trivial
        · rename_i ha
          have h := ih am c ps xs hd
          generalize explore b nd am0 n am c ps = r at h
          cases r with
          | ok ps' vs => obtain ⟨ys, h1, h2⟩ := h; exact ⟨ys, h1, .ifAmbiguous_false (by simpa using ha) h2⟩
          | rej =>
            intro p hp n
            unfold evalG; rw [if_neg ha]; exact h p hp n
          | unk => trivial
      | notMaximum a =>
        dsimp only
        split
        · rename_i ha
          intro p hp n
          unfold evalG
          rw [if_pos ha]
          exact .fail trivial
        · rename_i ha
          have h := ih am a ps xs hd
          generalize explore b nd am0 n am a ps = r at h
          cases r with
          | ok ps' vs => obtain ⟨ys, h1, h2⟩ := h; exact ⟨ys, h1, .notMaximum ha h2⟩
          | rej => exact Rejects.notMaximum h
          | unk => trivial

/-! ## Cases of a proof -/

/-- Pieces begin with one of `first`, or are no symbols if `null`. -/
def headsOk (first : List (Option TK)) (null : Bool) : List Piece → Bool
  | [] => null
  | .s x :: _ => first.contains x.kind
  | .c c :: ps => c.first.all first.contains && (!c.null || headsOk first null ps)

theorem Denotes.heads {first : List (Option TK)} {null : Bool} (h : Denotes toks ps xs) (hh : headsOk first null ps = true) :
    Heads first null xs := by
  induction h with
  | nil => exact hh
  | s h ih => simpa [headsOk, Heads] using hh
  | @c c ps xs ys h _ ih =>
    simp only [headsOk, Bool.and_eq_true, Bool.or_eq_true, Bool.not_eq_true'] at hh
    cases xs with
    | nil =>
      refine ih (hh.2.resolve_left ?_)
      have : c.null = true := h.heads
      simp [this]
    | cons s ss =>
      have := List.all_eq_true.mp hh.1 _ h.heads
      simpa [Heads] using this

/-- Enough steps. -/
def steps : Nat := 300

/-- The pieces begin as the chunk does, and what the chunk is not is rejected. -/
def fits (c : Chunk) (ps : List Piece) : Bool :=
  headsOk c.first c.null ps && c.nots.all fun x => (explore (c.bad ++ x.2) c.needs c.am steps c.am x.1 ps).isRej

theorem ahead_append {a a' : List (Option TK)} {i : List Lexeme} (h : ahead (fun k => !a.contains k) i = true)
    (h' : ahead (fun k => !a'.contains k) i = true) : ahead (fun k => !(a ++ a').contains k) i = true := by
  cases i with
  | nil => simp_all [ahead]
  | cons s ss => simp only [ahead, List.all_eq_true] at *; intro k hk; have := h k hk; have := h' k hk; simp_all

/-- The pieces make up the chunk. -/
theorem carried {c : Chunk} (hd : Denotes toks ps xs) (hf : fits c ps = true)
    (hp : ∀ g, c.g = some g → ∀ rest, ahead (fun k => !c.bad.contains k) rest = true →
      (∀ g ∈ c.needs, Rejects toks g c.am rest) → Parses toks g c.am (xs ++ rest) rest [c.v]) : c.Sem toks xs := by
  simp only [fits, Bool.and_eq_true, List.all_eq_true] at hf
  refine ⟨hd.heads hf.1, hp, fun x hx rest hr hn hx' => ?_⟩
  have h1 := explore_sound (ahead_append hr hx') hn steps c.am x.1 ps xs hd
  have h2 := hf.2 x hx
  generalize explore (c.bad ++ x.2) c.needs c.am steps c.am x.1 ps = r at h1 h2
  cases r <;> simp [Found.isRej] at h2
  exact h1

theorem made {c : Chunk} {g : G} (hd : Denotes toks ps xs) (hg : c.g = some g) (hf : fits c ps = true) {v : V}
    (he : explore c.bad c.needs c.am steps c.am g ps = .ok [] [v]) (hv : c.v = v) : c.Sem toks xs := by
  refine carried hd hf fun g' hg' rest hr hn => ?_
  · rw [hg] at hg'; cases hg'
    have := explore_sound hr hn steps c.am g ps xs hd
    rw [he] at this
    obtain ⟨ys, h1, h2⟩ := this
    cases h1
    rw [hv]
    exact h2

theorem Denotes.last {c : Chunk} (h : c.Sem toks xs) : Denotes toks [.c c] xs := by
  have := Denotes.c h .nil
  simpa using this

end
end Verif
