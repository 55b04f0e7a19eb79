import Verif.Proofs.Local
/-!
# How far parsers look: they stay within brackets

A parser started inside brackets does not look at what comes after the closing bracket.  Many parsers also stop at the first semicolon or
opening brace outside all other brackets.
-/

namespace Verif

/-- An opening bracket. -/
def TK.opens : TK → Bool
  | .LeftCurly | .LeftParen | .LeftSquare => true
  | _ => false

/-- A closing bracket. -/
def TK.closes : TK → Bool
  | .RightCurly | .RightParen | .RightSquare => true
  | _ => false

/-- The bracket that closes. -/
def TK.other : TK → TK
  | .LeftCurly => .RightCurly
  | .LeftParen => .RightParen
  | .LeftSquare => .RightSquare
  | k => k

/-- The change of depth after a token. -/
def Token.weight (t : Token) : Int :=
  match t.kind? with
  | some k => if k.opens then 1 else if k.closes then -1 else 0
  | none => 0

/-- How many brackets are open before the `n`-th token. -/
def depth (toks : List Token) : Nat → Int
  | 0 => 0
  | n + 1 => depth toks n + match toks[n]? with | some t => t.weight | none => 0

/-- The opening bracket `k` at `i` is closed at `m`. -/
structure Shut (toks : List Token) (k : TK) (i m : Nat) : Prop where
  lt : i < m
  at' : ∃ t, toks[m]? = some t ∧ t.kind? = some k.other
  deep : ∀ x, i < x → x ≤ m → depth toks i + 1 ≤ depth toks x
  top : depth toks m = depth toks i + 1
  nested : nestedLen (isTK k) (isTK k.other) 0 (toks.drop (i + 1)) ≤ m - (i + 1)

/-- All opening brackets before the `N`-th token are closed before it. -/
def AllClosed (toks : List Token) (N : Nat) : Prop :=
  ∀ i t k, i < N → toks[i]? = some t → t.kind? = some k → k.opens = true → ∃ m, m < N ∧ Shut toks k i m

/-- Tokens that parsers of a level do not go beyond. -/
def TK.wall (l : Nat) : TK → Bool
  | .RightCurly | .RightParen | .RightSquare | .EndOfFile => true
  | .Semicolon => decide (1 ≤ l)
  | .LeftCurly => decide (2 ≤ l)
  | _ => false

/-- From `i` to `k` nothing is less deep than the token at `k`, which is a wall. -/
structure Zone (toks : List Token) (N l i k : Nat) : Prop where
  le : i ≤ k
  leN : k ≤ N
  deep : ∀ x, i ≤ x → x ≤ k → depth toks k ≤ depth toks x
  wall : ∃ t kk, toks[k]? = some t ∧ t.kind? = some kk ∧ kk.wall l = true

theorem TK.wall_mono {l l' : Nat} (h : l ≤ l') {k : TK} (hk : k.wall l = true) : k.wall l' = true := by
  cases k <;> simp [TK.wall] at hk ⊢ <;> omega

theorem Zone.mono {toks N l l' i k} (h : Zone toks N l i k) (hl : l ≤ l') : Zone toks N l' i k :=
  { h with wall := by obtain ⟨t, kk, h1, h2, h3⟩ := h.wall; exact ⟨t, kk, h1, h2, TK.wall_mono hl h3⟩ }

theorem Zone.from {toks N l i j k} (h : Zone toks N l i k) (hj : i ≤ j) (hk : j ≤ k) : Zone toks N l j k :=
  { h with le := hk, deep := fun x h1 h2 => h.deep x (by omega) h2 }

/-- The brackets opened in a zone are closed in it, and are a zone. -/
theorem Zone.open {toks : List Token} {N l i k j : Nat} (hc : AllClosed toks N) (h : Zone toks N l i k) (hj : i ≤ j) (hk : j < k)
    {t : Token} {o : TK} (h1 : toks[j]? = some t) (h2 : t.kind? = some o) (h3 : o.opens = true) :
    ∃ m, m < k ∧ Shut toks o j m ∧ Zone toks N 0 (j + 1) m := by
  obtain ⟨m, hm, hcl⟩ := hc j t o (by have := h.leN; omega) h1 h2 h3
  have hmk : m < k := by
    rcases Nat.lt_or_ge m k with h4 | h4
    · exact h4
    · have h5 := hcl.deep k hk h4
      have h6 := h.deep j hj (by omega)
      omega
  refine ⟨m, hmk, hcl, by have := hcl.lt; omega, by omega, fun x h4 h5 => ?_, ?_⟩
  · rw [hcl.top]; exact hcl.deep x (by omega) h5
  · obtain ⟨u, h4, h5⟩ := hcl.at'
    refine ⟨u, _, h4, h5, ?_⟩
    cases o <;> simp [TK.opens] at h3 <;> rfl

/-- A result within bounds. -/
structure Lim {α : Type} (i k : Nat) (J : Pt → Prop) (r : Res α) : Prop where
  log : ∀ x ∈ r.log, x.1.off ≤ k
  fail : ∀ q e, r.out = .fail q e → i ≤ q.off ∧ q.off ≤ k
  ok : ∀ q v, r.out = .ok q v → J q

/-- Between two tokens. -/
def In (i k : Nat) (q : Pt) : Prop := i ≤ q.off ∧ q.off ≤ k

/-- A parser that stays within bounds. -/
def Keeps {α : Type} (i k : Nat) (I J : Pt → Prop) (p : P α) : Prop := ∀ a pt, I pt → Lim i k J (p a pt)

namespace Keeps
variable {α β : Type} {i k : Nat} {I J K : Pt → Prop}

theorem mono {J' : Pt → Prop} {p : P α} (h : Keeps i k I J p) (hJ : ∀ q, J q → J' q) : Keeps i k I J' p := fun a pt hp =>
  have := h a pt hp
  ⟨this.log, this.fail, fun q v e => hJ q (this.ok q v e)⟩

theorem pure {v : α} (h : ∀ q, I q → J q) : Keeps i k I J (P.pure v) := fun a pt hp =>
  ⟨by simp [P.pure], by simp [P.pure], by rintro q w e; simp [P.pure] at e; exact e.1 ▸ h _ hp⟩

theorem hang : Keeps i k I J (fun a _ => ⟨.hang, a, []⟩ : P α) := fun a pt hp => ⟨by simp, by simp, by simp⟩

theorem failure {e : PErr} (h : ∀ q, I q → In i k q) : Keeps i k I J (P.failure e : P α) := fun a pt hp =>
  ⟨by simp [P.failure], by rintro q e' h'; simp [P.failure] at h'; exact h'.1 ▸ h _ hp, by simp [P.failure]⟩

theorem bind {p : P α} {f : α → P β} (h : Keeps i k I J p) (hf : ∀ v, Keeps i k J K (f v)) : Keeps i k I K (p.bind f) := by
  intro a pt hp
  have h1 := h a pt hp
  unfold P.bind
  rcases hr : p a pt with ⟨⟨q, v⟩ | ⟨q, e⟩ | _ | _, a', l⟩ <;> rw [hr] at h1 <;> dsimp only
  · have h2 := hf v a' q (h1.ok q v rfl)
    rcases hr2 : f v a' q with ⟨o, a'', l'⟩
    rw [hr2] at h2
    refine ⟨fun x hx => ?_, h2.fail, h2.ok⟩
    rcases List.mem_append.mp hx with hx | hx
    · exact h1.log x hx
    · exact h2.log x hx
  · exact ⟨h1.log, fun q' e' h => by cases h; exact h1.fail q e rfl, by simp⟩
  · exact ⟨h1.log, by simp, by simp⟩
  · exact ⟨h1.log, by simp, by simp⟩

theorem map {p : P α} {f : α → β} (h : Keeps i k I J p) : Keeps i k I J (p.map f) := by
  intro a pt hp
  have h1 := h a pt hp
  unfold P.map
  rcases hr : p a pt with ⟨⟨q, v⟩ | ⟨q, e⟩ | _ | _, a', l⟩ <;> rw [hr] at h1 <;> dsimp only
  · exact ⟨h1.log, by simp, fun q' v' h => by cases h; exact h1.ok q v rfl⟩
  · exact ⟨h1.log, fun q' e' h => by cases h; exact h1.fail q e rfl, by simp⟩
  · exact ⟨h1.log, by simp, by simp⟩
  · exact ⟨h1.log, by simp, by simp⟩

theorem mapErr {p : P α} {e : PErr} (h : Keeps i k I J p) : Keeps i k I J (p.mapErr e) := by
  intro a pt hp
  have h1 := h a pt hp
  unfold P.mapErr
  rcases hr : p a pt with ⟨⟨q, v⟩ | ⟨q, e⟩ | _ | _, a', l⟩ <;> rw [hr] at h1 <;> dsimp only
  · exact h1
  · exact ⟨h1.log, fun q' e' h => by cases h; exact h1.fail q e rfl, by simp⟩
  · exact h1
  · exact h1

theorem orElse {p p' : P α} (h : Keeps i k I J p) (h' : Keeps i k I J p') : Keeps i k I J (p.orElse p') := by
  intro a pt hp
  have h1 := h a pt hp
  unfold P.orElse
  rcases hr : p a pt with ⟨⟨q, v⟩ | ⟨q, e⟩ | _ | _, a', l⟩ <;> rw [hr] at h1 <;> dsimp only
  · exact h1
  · have h2 := h' a' pt hp
    rcases hr2 : p' a' pt with ⟨o, a'', l'⟩
    rw [hr2] at h2
    refine ⟨fun x hx => ?_, h2.fail, h2.ok⟩
    simp only [List.mem_append, List.mem_singleton] at hx
    rcases hx with (hx | hx) | rfl
    · exact h1.log x hx
    · exact h2.log x hx
    · exact (h1.fail q e rfl).2
  · exact h1
  · exact h1

theorem setAmbiguityLevel {p : P α} {level : Amb} (h : Keeps i k I J p) : Keeps i k I J (P.setAmbiguityLevel level p) := by
  intro a pt hp
  have h1 := h level pt hp
  unfold P.setAmbiguityLevel
  rcases hr : p level pt with ⟨o, a', l⟩
  rw [hr] at h1
  exact ⟨h1.log, h1.fail, h1.ok⟩

theorem spanned {toks : List Token} {p : P α} (h : Keeps i k I J p) : Keeps i k I J (P.spanned toks p) := by
  intro a pt hp
  have h1 := h a pt hp
  unfold P.spanned
  rcases hr : p a pt with ⟨⟨q, v⟩ | ⟨q, e⟩ | _ | _, a', l⟩ <;> rw [hr] at h1 <;> dsimp only
  · split
    · exact ⟨h1.log, by simp, fun q' v' h => by cases h; exact h1.ok q v rfl⟩
    · exact ⟨h1.log, by simp, by simp⟩
  · exact ⟨h1.log, fun q' e' h => by cases h; exact h1.fail q e rfl, by simp⟩
  · exact ⟨h1.log, by simp, by simp⟩
  · exact ⟨h1.log, by simp, by simp⟩

theorem spannedEmpty {toks : List Token} {p : P α} (h : Keeps i k I J p) : Keeps i k I J (P.spannedEmpty toks p) := by
  intro a pt hp
  have h1 := h a pt hp
  unfold P.spannedEmpty
  rcases hr : p a pt with ⟨⟨q, v⟩ | ⟨q, e⟩ | _ | _, a', l⟩ <;> rw [hr] at h1 <;> dsimp only
  · split
    · exact ⟨h1.log, by simp, fun q' v' h => by cases h; exact h1.ok q v rfl⟩
    · exact ⟨h1.log, by simp, by simp⟩
  · exact ⟨h1.log, fun q' e' h => by cases h; exact h1.fail q e rfl, by simp⟩
  · exact ⟨h1.log, by simp, by simp⟩
  · exact ⟨h1.log, by simp, by simp⟩

/-- Parsers that stay between two tokens. -/
abbrev _root_.Verif.Stays (i k : Nat) (p : P α) : Prop := Keeps i k (In i k) (In i k) p

theorem optional {p : P α} (h : Stays i k p) : Stays i k p.optional := by
  intro a pt hp
  have h1 := h a pt hp
  unfold P.optional
  rcases hr : p a pt with ⟨⟨q, v⟩ | ⟨q, e⟩ | _ | _, a', l⟩ <;> rw [hr] at h1 <;> dsimp only
  · exact ⟨h1.log, by simp, fun q' v' h => by cases h; exact h1.ok q v rfl⟩
  · refine ⟨fun x hx => ?_, by simp, fun q' v' h => by cases h; exact hp⟩
    simp only [List.mem_append, List.mem_singleton] at hx
    rcases hx with hx | rfl
    · exact h1.log x hx
    · exact (h1.fail q e rfl).2
  · exact ⟨h1.log, by simp, by simp⟩
  · exact ⟨h1.log, by simp, by simp⟩

theorem peek {p : P α} (h : Stays i k p) : Stays i k p.peek := by
  intro a pt hp
  have h1 := h a pt hp
  unfold P.peek
  rcases hr : p a pt with ⟨⟨q, v⟩ | ⟨q, e⟩ | _ | _, a', l⟩ <;> rw [hr] at h1 <;> dsimp only
  · exact ⟨h1.log, by simp, fun q' v' h => by cases h; exact hp⟩
  · exact ⟨h1.log, fun q' e' h => by cases h; exact hp, by simp⟩
  · exact h1
  · exact h1

theorem zeroOrMore {p : P α} (h : Stays i k p) (n : Nat) : Stays i k (P.zeroOrMore p n) := by
  induction n with
  | zero => exact hang
  | succ n ih =>
    intro a pt hp
    have h1 := h a pt hp
    unfold P.zeroOrMore
    rcases hr : p a pt with ⟨⟨q, v⟩ | ⟨q, e⟩ | _ | _, a', l⟩ <;> rw [hr] at h1 <;> dsimp only
    · have h2 := ih a' q (h1.ok q v rfl)
      have hl : ∀ x ∈ l ++ (P.zeroOrMore p n a' q).log, x.1.off ≤ k := by
        intro x hx
        rcases List.mem_append.mp hx with hx | hx
        · exact h1.log x hx
        · exact h2.log x hx
      rcases hr2 : P.zeroOrMore p n a' q with ⟨⟨q', v'⟩ | ⟨q', e'⟩ | _ | _, a'', l'⟩ <;> rw [hr2] at h2 hl <;> dsimp only
      · exact ⟨hl, by simp, fun q'' v'' h => by cases h; exact h2.ok _ _ rfl⟩
      · exact ⟨hl, fun q'' v'' h => by cases h; exact h2.fail _ _ rfl, by simp⟩
      · exact ⟨hl, by simp, by simp⟩
      · exact ⟨hl, by simp, by simp⟩
    · refine ⟨fun x hx => ?_, by simp, fun q' v' h => by cases h; exact hp⟩
      simp only [List.mem_append, List.mem_singleton] at hx
      rcases hx with hx | rfl
      · exact h1.log x hx
      · exact (h1.fail q e rfl).2
    · exact ⟨h1.log, by simp, by simp⟩
    · exact ⟨h1.log, by simp, by simp⟩

theorem parseTailed {sep : P β} {f : P α} (hs : Stays i k sep) (hf : Stays i k f) : Stays i k (P.parseTailed sep f) := by
  intro a pt hp
  have h1 := hf a pt hp
  unfold P.parseTailed
  rcases hr : f a pt with ⟨⟨q, v⟩ | ⟨q, e⟩ | _ | _, a', l⟩ <;> rw [hr] at h1 <;> dsimp only
  · have h2 := hs a' q (h1.ok q v rfl)
    have hl : ∀ x ∈ l ++ (sep a' q).log, x.1.off ≤ k := by
      intro x hx
      rcases List.mem_append.mp hx with hx | hx
      · exact h1.log x hx
      · exact h2.log x hx
    rcases hr2 : sep a' q with ⟨⟨q', v'⟩ | ⟨q', e'⟩ | _ | _, a'', l'⟩ <;> rw [hr2] at h2 hl <;> dsimp only
    · exact ⟨hl, by simp, fun q'' v'' h => by cases h; exact h2.ok _ _ rfl⟩
    · exact ⟨hl, by simp, fun q'' v'' h => by cases h; exact h2.fail _ _ rfl⟩
    · exact ⟨hl, by simp, by simp⟩
    · exact ⟨hl, by simp, by simp⟩
  · exact ⟨h1.log, by simp, fun q'' v'' h => by cases h; exact h1.fail _ _ rfl⟩
  · exact ⟨h1.log, by simp, by simp⟩
  · exact ⟨h1.log, by simp, by simp⟩

theorem zeroOrMoreTailedAppend {sep : P β} {f : P α} (hs : Stays i k sep) (hf : Stays i k f) (n : Nat) :
    ∀ t, Stays i k (P.zeroOrMoreTailedAppend sep f n t) := by
  induction n with
  | zero => intro t; exact hang
  | succ n ih =>
    intro t
    refine bind (parseTailed hs hf) fun v => ?_
    rcases v with _ | _ | _
    · exact pure fun _ h => h
    · exact pure fun _ h => h
    · exact ih _

theorem implTailed {impl : α → Bool} {sep : P β} {f : P α} (hs : Stays i k sep) (hf : Stays i k f) (n : Nat) :
    ∀ t, Stays i k (P.zeroOrMoreImplicitlyTailed impl sep f n t) := by
  induction n with
  | zero => intro t; exact hang
  | succ n ih =>
    intro t
    refine bind (parseTailed hs hf) fun v => ?_
    rcases v with _ | _ | _
    · exact pure fun _ h => h
    · dsimp only
      split
      · exact ih _
      · exact pure fun _ h => h
    · exact ih _

theorem oneOrMoreTailed {sep : P β} {f : P α} (hs : Stays i k sep) (hf : Stays i k f) (n : Nat) :
    Stays i k (P.oneOrMoreTailed sep f n) := by
  refine bind (parseTailed hs hf) fun v => ?_
  rcases v with _ | _ | _
  · exact failure fun _ h => h
  · exact pure fun _ h => h
  · exact zeroOrMoreTailedAppend hs hf _ _

theorem resume {sep : P β} {f : P α} (hs : Stays i k sep) (hf : Stays i k f) (n : Nat) :
    Stays i k (P.zeroOrMoreTailedValuesResume sep f n) := by
  intro a pt hp
  have h1 := hs a pt hp
  unfold P.zeroOrMoreTailedValuesResume
  rcases hr : sep a pt with ⟨⟨q, v⟩ | ⟨q, e⟩ | _ | _, a', l⟩ <;> rw [hr] at h1 <;> dsimp only
  · have h2 := oneOrMoreTailed hs hf n a' q (h1.ok q v rfl)
    have hl : ∀ x ∈ l ++ (P.oneOrMoreTailed sep f n a' q).log, x.1.off ≤ k := by
      intro x hx
      rcases List.mem_append.mp hx with hx | hx
      · exact h1.log x hx
      · exact h2.log x hx
    rcases hr2 : P.oneOrMoreTailed sep f n a' q with ⟨⟨q', v'⟩ | ⟨q', e'⟩ | _ | _, a'', l'⟩ <;> rw [hr2] at h2 hl <;> dsimp only
    · exact ⟨hl, by simp, fun q'' v'' h => by cases h; exact h2.ok _ _ rfl⟩
    · exact ⟨hl, by simp, fun q'' v'' h => by cases h; exact hp⟩
    · exact ⟨hl, by simp, by simp⟩
    · exact ⟨hl, by simp, by simp⟩
  · exact ⟨h1.log, by simp, fun q'' v'' h => by cases h; exact h1.fail _ _ rfl⟩
  · exact ⟨h1.log, by simp, by simp⟩
  · exact ⟨h1.log, by simp, by simp⟩

end Keeps

/-! ## Tokens -/

theorem Keeps.up {α : Type} {i k k' : Nat} {I J : Pt → Prop} {p : P α} (h : Keeps i k I J p) (hk : k ≤ k') : Keeps i k' I J p :=
  fun a pt hp =>
    have h1 := h a pt hp
    ⟨fun x hx => Nat.le_trans (h1.log x hx) hk, fun q e he => ⟨(h1.fail q e he).1, Nat.le_trans (h1.fail q e he).2 hk⟩, h1.ok⟩

section
variable {toks : List Token} {N : Nat}

/-- How a token is read. -/
theorem token_cases {α : Type} (conv : Token → Option α) (err : PErr) (a : Amb) (pt : Pt) :
    (∃ e, token toks conv err a pt = ⟨.fail pt e, a, []⟩) ∨ (token toks conv err a pt = ⟨.panic, a, []⟩) ∨
    (∃ q v t c, token toks conv err a pt = ⟨.ok q v, a, []⟩ ∧ toks[pt.off]? = some t ∧ conv c = some v ∧
      ((q = ⟨pt.off + 1, none⟩ ∧ (c = t ∨ ∃ n u, split t n = some u ∧ c = u.2)) ∨
        (q.off = pt.off ∧ ∃ n u, split t n = some u ∧ c = u.1))) := by
  unfold token
  split
  · exact .inl ⟨_, rfl⟩
  · rename_i t ht
    dsimp only
    split
    · exact .inr (.inl rfl)
    · rename_i c hc
      split
      · rename_i v hv
        refine .inr (.inr ⟨_, v, t, c, rfl, ht, hv, .inl ⟨rfl, ?_⟩⟩)
        split at hc
        · rename_i n _
          cases hs : split t n with
          | none => rw [hs] at hc; simp at hc
          | some u => rw [hs] at hc; simp at hc; exact .inr ⟨n, u, hs, hc.symm⟩
        · cases hc; exact .inl rfl
      · split
        · rename_i h r hs
          split
          · rename_i v hv
            exact .inr (.inr ⟨_, v, t, h, rfl, ht, hv, .inr ⟨rfl, _, _, hs, rfl⟩⟩)
          · exact .inl ⟨_, rfl⟩
        · exact .inl ⟨_, rfl⟩

/-- Tokens that can be split and what they are split into are neither brackets nor semicolons. -/
theorem split_kind {t : Token} {n : Nat} {u : Token × Token} (h : split t n = some u) :
    ∀ c, c = t ∨ c = u.1 ∨ c = u.2 → ∃ k, c.kind? = some k ∧ (∀ l, k.wall l = false) ∧ k.opens = false ∧ k.closes = false := by
  unfold split at h
  split at h <;> first
    | (cases h; done)
    | (cases h; rintro c (rfl | rfl | rfl) <;> exact ⟨_, rfl, by intro l; rfl, rfl, rfl⟩)

theorem convTK_kind {k : TK} {t : Token} {e : Extent} (h : convTK k t = some e) : t.kind? = some k := by
  cases t with
  | plain k' e' => simp only [convTK] at h; split at h <;> simp_all [Token.kind?]
  | number => simp [convTK] at h

/-- How a token that cannot come from splitting is read. -/
theorem tok_cases {k : TK} (hk : (∃ l, k.wall l = true) ∨ k.opens = true ∨ k.closes = true) (err : PErr) (a : Amb) (pt : Pt) :
    (∃ e, token toks (convTK k) err a pt = ⟨.fail pt e, a, []⟩) ∨ (token toks (convTK k) err a pt = ⟨.panic, a, []⟩) ∨
    (∃ v t, token toks (convTK k) err a pt = ⟨.ok ⟨pt.off + 1, none⟩ v, a, []⟩ ∧ toks[pt.off]? = some t ∧ t.kind? = some k) := by
  have no : ∀ {t : Token} {n u c v}, split t n = some u → c = t ∨ c = u.1 ∨ c = u.2 → convTK k c = some v → False := by
    intro t n u c v h1 h2 h3
    obtain ⟨k', h4, h5, h6, h7⟩ := split_kind h1 c h2
    rw [convTK_kind h3] at h4
    cases h4
    rcases hk with ⟨l, h⟩ | h | h
    · rw [h5] at h; cases h
    · rw [h6] at h; cases h
    · rw [h7] at h; cases h
  rcases token_cases (toks := toks) (convTK k) err a pt with h | h | ⟨q, v, t, c, h, ht, hv, h1⟩
  · exact .inl h
  · exact .inr (.inl h)
  · rcases h1 with ⟨rfl, rfl | ⟨n, u, h1, rfl⟩⟩ | ⟨-, n, u, h1, rfl⟩
    · exact .inr (.inr ⟨v, c, h, ht, convTK_kind hv⟩)
    · exact (no h1 (.inr (.inr rfl)) hv).elim
    · exact (no h1 (.inr (.inl rfl)) hv).elim

/-- A token that is no wall. -/
theorem Stays.token {α : Type} {l i k : Nat} (hz : Zone toks N l i k) {conv : Token → Option α} {err : PErr}
    (hc : ∀ t v kk, conv t = some v → t.kind? = some kk → kk.wall l = false) : Stays i k (token toks conv err) := by
  intro a pt hp
  rcases token_cases (toks := toks) conv err a pt with ⟨e, h⟩ | h | ⟨q, v, t, c, h, ht, hv, h1⟩ <;> rw [h]
  · exact ⟨by simp, fun q e h => by cases h; exact hp, by simp⟩
  · exact ⟨by simp, by simp, by simp⟩
  · refine ⟨by simp, by simp, fun q' v' h => ?_⟩
    cases h
    rcases h1 with ⟨rfl, h1⟩ | ⟨h1, -⟩
    · refine ⟨by have := hp.1; simp only; omega, ?_⟩
      rcases Nat.lt_or_eq_of_le hp.2 with h2 | h2
      · exact h2
      · obtain ⟨t', kk, h3, h4, h5⟩ := hz.wall
        rw [← h2, ht] at h3
        cases h3
        rcases h1 with rfl | ⟨n, u, h1, rfl⟩
        · rw [hc _ _ kk hv h4] at h5; cases h5
        · obtain ⟨k', h6, h7, -⟩ := split_kind h1 t (.inl rfl)
          rw [h4] at h6; cases h6
          rw [h7] at h5; cases h5
    · unfold In; rw [h1]; exact hp

/-- Where the parser is: outside of the brackets of the expression, or inside of them. -/
def InSt (toks : List Token) (N i k : Nat) : Bool → Pt → Prop
  | false, q => In i k q
  | true, q => ∃ j m, i ≤ j ∧ m < k ∧ Zone toks N 0 j m ∧ In j m q ∧ ∃ t kk, toks[m]? = some t ∧ t.kind? = some kk ∧ kk.closes = true

theorem InSt.in {i k : Nat} {st : Bool} {q : Pt} (h : InSt toks N i k st q) : In i k q := by
  cases st with
  | false => exact h
  | true => obtain ⟨j, m, h1, h2, -, h3, -⟩ := h; exact ⟨by have := h3.1; omega, by have := h3.2; omega⟩

theorem InSt.up {i k k' : Nat} (hk : k ≤ k') {st : Bool} {q : Pt} (h : InSt toks N i k st q) : InSt toks N i k' st q := by
  cases st with
  | false => exact ⟨h.1, Nat.le_trans h.2 hk⟩
  | true => obtain ⟨j, m, h1, h2, h3⟩ := h; exact ⟨j, m, h1, by omega, h3⟩

/-- What stays within brackets stays inside. -/
theorem Stays.inside {α : Type} {i k : Nat} {p : P α} (h : ∀ j m, Zone toks N 0 j m → Stays j m p) :
    Keeps i (k - 1) (InSt toks N i k true) (InSt toks N i k true) p := by
  rintro a pt ⟨j, m, h1, h2, h3, h4, h5⟩
  have h6 := h j m h3 a pt h4
  refine ⟨fun x hx => ?_, fun q e h => ?_, fun q v h => ⟨j, m, h1, h2, h3, h6.ok q v h, h5⟩⟩
  · have := h6.log x hx; omega
  · have := h6.fail q e h; omega

/-- Just after an opening bracket. -/
def Opened (toks : List Token) (N i k : Nat) (o : TK) (q : Pt) : Prop :=
  ∃ p m, i ≤ p ∧ m < k ∧ q = ⟨p + 1, none⟩ ∧ Shut toks o p m ∧ Zone toks N 0 (p + 1) m

theorem Opened.inside {i k : Nat} {o : TK} {q : Pt} (ho : o.opens = true) (h : Opened toks N i k o q) : InSt toks N i k true q := by
  obtain ⟨p, m, h1, h2, rfl, h3, h4⟩ := h
  obtain ⟨t, h6, h7⟩ := h3.at'
  refine ⟨p + 1, m, by omega, h2, h4, ⟨Nat.le_refl _, h4.le⟩, t, _, h6, h7, ?_⟩
  cases o <;> simp [TK.opens] at ho <;> rfl

/-- An opening bracket. -/
theorem Keeps.openTok {i k E : Nat} {o : TK} {err : PErr} (ho : o.opens = true)
    (hop : ∀ p t, i ≤ p → p ≤ k → toks[p]? = some t → t.kind? = some o → ∃ m, m < E ∧ Shut toks o p m ∧ Zone toks N 0 (p + 1) m) :
    Keeps i k (In i k) (Opened toks N i E o) (Verif.token toks (convTK o) err) := by
  intro a pt hp
  rcases tok_cases (toks := toks) (k := o) (.inr (.inl ho)) err a pt with ⟨e, h⟩ | h | ⟨v, t, h, ht, h1⟩ <;> rw [h]
  · exact ⟨by simp, fun q e h => by cases h; exact hp, by simp⟩
  · exact ⟨by simp, by simp, by simp⟩
  · refine ⟨by simp, by simp, fun q' v' h => ?_⟩
    cases h
    obtain ⟨m, h3, h4, h5⟩ := hop _ t hp.1 hp.2 ht h1
    exact ⟨pt.off, m, hp.1, h3, rfl, h4, h5⟩

theorem Zone.opens {l i k : Nat} (hc : AllClosed toks N) (hz : Zone toks N l i k) {o : TK} (ho : o.opens = true) (hw : o.wall l = false) :
    ∀ p t, i ≤ p → p ≤ k → toks[p]? = some t → t.kind? = some o → ∃ m, m < k ∧ Shut toks o p m ∧ Zone toks N 0 (p + 1) m := by
  intro p t h1 h2 h3 h4
  refine hz.open hc h1 ?_ h3 h4 ho
  rcases Nat.lt_or_eq_of_le h2 with h5 | h5
  · exact h5
  · obtain ⟨t', kk, h6, h7, h8⟩ := hz.wall
    rw [← h5, h3] at h6; cases h6
    rw [h4] at h7; cases h7
    rw [hw] at h8; cases h8

/-- A closing bracket. -/
theorem Keeps.closeTok {i k : Nat} {c : TK} {err : PErr} (hc : c.closes = true) : Keeps i (k - 1) (InSt toks N i k true)
    (fun q => In i k q ∧ q.sub = none ∧ ∃ t p, q.off = p + 1 ∧ i ≤ p ∧ toks[p]? = some t ∧ t.kind? = some c)
    (Verif.token toks (convTK c) err) := by
  rintro a pt ⟨j, m, h1, h2, h3, h4, -⟩
  have := h4.1; have := h4.2
  rcases tok_cases (toks := toks) (k := c) (.inr (.inr hc)) err a pt with ⟨e, h⟩ | h | ⟨v, t, h, ht, h5⟩ <;> rw [h]
  · exact ⟨by simp, fun q e h => by cases h; exact ⟨by omega, by omega⟩, by simp⟩
  · exact ⟨by simp, by simp, by simp⟩
  · refine ⟨by simp, by simp, fun q' v' h => ?_⟩
    cases h
    exact ⟨⟨by simp only; omega, by simp only; omega⟩, rfl, t, pt.off, rfl, by omega, ht, h5⟩

/-- The tokens between brackets. -/
theorem Keeps.nested {i k : Nat} {o : TK} (ho : o.opens = true) : Keeps i (k - 1) (Opened toks N i k o) (InSt toks N i k true)
    (parseNestedUntil toks (isTK o) (isTK o.other)) := by
  intro a pt hp
  have h0 := hp.inside ho
  obtain ⟨p, m, h1, h2, rfl, h3, h4⟩ := hp
  unfold parseNestedUntil
  dsimp only
  split
  · refine ⟨by simp, by simp, fun q' v' h => ?_⟩
    cases h
    obtain ⟨t, h6, h7⟩ := h3.at'
    have := h3.nested
    have := h3.lt
    refine ⟨p + 1, m, by omega, h2, h4, ⟨?_, ?_⟩, t, _, h6, h7, by cases o <;> simp [TK.opens] at ho <;> rfl⟩
    · simp [Pt.advanceBy]
    · simp [Pt.advanceBy]; omega
  · exact ⟨by simp, by simp, by simp⟩

theorem Stays.fieldNameNumber {l i k : Nat} (hz : Zone toks N l i k) : Stays i k (fieldNameNumber toks) := by
  intro a pt hp
  have h1 := Stays.token (conv := convNumber) (err := .ExpectedNumber) hz (by
    intro t v kk h1 h2; cases t <;> simp [convNumber, Token.kind?] at h1 h2) a pt hp
  unfold Verif.fieldNameNumber
  rcases hr : Verif.token toks convNumber .ExpectedNumber a pt with ⟨⟨q, v⟩ | ⟨q, e⟩ | _ | _, a', l⟩ <;> rw [hr] at h1 <;> dsimp only
  · split
    · exact ⟨h1.log, by simp, fun q' v' h => by cases h; exact h1.ok q v rfl⟩
    · exact ⟨h1.log, fun q' e' h => by cases h; exact hp, by simp⟩
  · exact ⟨h1.log, fun q' e' h => by cases h; exact h1.fail q e rfl, by simp⟩
  · exact ⟨h1.log, by simp, by simp⟩
  · exact ⟨h1.log, by simp, by simp⟩

end

/-! ## The shunting yard -/

/-- The cars are between two tokens. -/
def Car.inn {α : Type} (i k : Nat) (c : Car α) : Prop := In i k c.spt ∧ In i k c.ept

/-- A result of the yard between two tokens. -/
def SRes.inn {α : Type} (i k : Nat) (J : α → Prop) : SRes α → Prop
  | .ok v => J v
  | .err q _ => In i k q
  | .panic => True

theorem SRes.inn.bind {α β : Type} {i k : Nat} {J : α → Prop} {K : β → Prop} {x : SRes α} {f : α → SRes β} (h : x.inn i k J)
    (hf : ∀ v, J v → (f v).inn i k K) : (x.bind f).inn i k K := by
  cases x with
  | ok v => exact hf v h
  | err q e => exact h
  | panic => trivial

section
variable {toks : List Token} {i k : Nat}

theorem popExpression_inn {rs : List (Car V)} {p : Pt} (hp : In i k p) (h : ∀ c ∈ rs, c.inn i k) :
    (popExpression rs p).inn i k (fun x => x.1.inn i k ∧ ∀ c ∈ x.2, c.inn i k) := by
  cases rs with
  | nil => exact hp
  | cons c rs => simp at h; exact h

theorem exS_inn {p q : Pt} : (exS toks p q).inn i k (fun _ => True) := by
  unfold exS; split <;> trivial

theorem applyPrefix_inn {spt : Pt} {e attrs op payload} {rs : List (Car V)} (hs : In i k spt) (h : ∀ c ∈ rs, c.inn i k) :
    (applyPrefix toks spt e attrs op payload rs).inn i k (fun rs => ∀ c ∈ rs, c.inn i k) := by
  refine (popExpression_inn hs h).bind fun x hx => ?_
  dsimp only
  split
  · exact hs
  · refine exS_inn.bind fun e _ c hc => ?_
    simp at hc
    rcases hc with rfl | hc
    · exact ⟨hs, hx.1.2⟩
    · exact hx.2 c hc

theorem applyInfix_inn {spt ept : Pt} {op payload} {rs : List (Car V)} (hs : In i k spt) (he : In i k ept) (h : ∀ c ∈ rs, c.inn i k) :
    (applyInfix toks spt ept op payload rs).inn i k (fun rs => ∀ c ∈ rs, c.inn i k) := by
  refine (popExpression_inn he h).bind fun x hx => (popExpression_inn hs hx.2).bind fun y hy => exS_inn.bind fun e _ c hc => ?_
  simp at hc
  rcases hc with rfl | hc
  · exact ⟨hy.1.1, hx.1.2⟩
  · exact hy.2 c hc

theorem applyOne_inn {c : Car OpKind} {rs : List (Car V)} (hc : c.inn i k) (h : ∀ c ∈ rs, c.inn i k) :
    (applyOne toks c rs).inn i k (fun rs => ∀ c ∈ rs, c.inn i k) := by
  unfold applyOne
  split
  · split
    · unfold applyMaybePrefix
      split
      · refine exS_inn.bind fun e _ x hx => ?_
        simp at hx
        subst hx
        exact hc
      · exact applyPrefix_inn hc.1 h
    · exact applyPrefix_inn hc.1 h
  · split
    · unfold applyMaybeInfix
      split
      · refine (popExpression_inn hc.2 h).bind fun x hx => exS_inn.bind fun e _ y hy => ?_
        simp at hy
        rcases hy with rfl | hy
        · exact ⟨hx.1.1, hc.2⟩
        · exact hx.2 y hy
      · exact applyInfix_inn hc.1 hc.2 h
    · exact applyInfix_inn hc.1 hc.2 h
  · refine (popExpression_inn hc.1 h).bind fun x hx => exS_inn.bind fun e _ y hy => ?_
    simp at hy
    rcases hy with rfl | hy
    · exact ⟨hx.1.1, hc.2⟩
    · exact hx.2 y hy

/-- Everything in the yard is between two tokens. -/
def Yard.inn (i k : Nat) (y : Yard) : Prop := (∀ c ∈ y.operators, c.inn i k) ∧ ∀ c ∈ y.result, c.inn i k

theorem applyWhile_inn {cond : OpKind → Bool} : ∀ (cs : List (Car OpKind)) (rs : List (Car V)),
    (∀ c ∈ cs, c.inn i k) → (∀ c ∈ rs, c.inn i k) → (applyWhile toks cond cs rs).inn i k (Yard.inn i k) := by
  intro cs
  induction cs with
  | nil => intro rs _ h; exact ⟨by simp, h⟩
  | cons c cs ih =>
    intro rs hc hr
    have hc' := hc
    simp at hc
    unfold applyWhile
    split
    · exact (applyOne_inn hc.1 hr).bind fun rs' h => ih rs' hc.2 h
    · exact ⟨hc', hr⟩

theorem addOperator_inn {y : Yard} {op : OpKind} {p q : Pt} (hy : y.inn i k) (hp : In i k p) (hq : In i k q) :
    (y.addOperator toks op p q).inn i k (Yard.inn i k) := by
  refine (applyWhile_inn _ _ hy.1 hy.2).bind fun y' h => ⟨?_, h.2⟩
  intro c hc
  simp at hc
  rcases hc with rfl | hc
  · exact ⟨hp, hq⟩
  · exact h.1 c hc

theorem finish_inn {y : Yard} {q : Pt} (hy : y.inn i k) (hq : In i k q) : (y.finish toks q).inn i k (Car.inn i k) := by
  refine (applyWhile_inn _ _ hy.1 hy.2).bind fun y' h => ?_
  have := popExpression_inn hq h.2
  revert this
  rcases popExpression y'.result q with ⟨c, rest⟩ | ⟨p, e⟩ | _
  · intro this
    dsimp only
    split
    · exact this.1
    · trivial
  · exact id
  · exact id

/-- A step of the loop stays between two tokens. -/
def Step.inn (i k : Nat) : Step → Prop
  | .continue y _ => y.inn i k
  | .stop r => r.inn i k (Car.inn i k)

theorem ofYard_inn {st : EState} {r : SRes Yard} (h : r.inn i k (Yard.inn i k)) : (Step.ofYard st r).inn i k := by
  cases r <;> exact h

theorem turn_inn {α : Type} {p : P α} {F : Pt → α → Step} {fin : Pt → SRes (Car V)} {K : Yard → EState → P V} {a : Amb} {pt : Pt}
    (hp : Lim i k (In i k) (p a pt)) (hF : ∀ q x, In i k q → (F q x).inn i k) (hfin : ∀ q, In i k q → (fin q).inn i k (Car.inn i k))
    (hK : ∀ y st, y.inn i k → Stays i k (K y st)) : Lim i k (In i k) (turn p F fin K a pt) := by
  have out : ∀ {r : SRes (Car V)} {a l}, r.inn i k (Car.inn i k) → (∀ x ∈ l, x.1.off ≤ k) → Lim i k (In i k) (⟨r.toOut, a, l⟩ : Res V) := by
    intro r a l h hl
    cases r with
    | ok c => exact ⟨hl, by simp [SRes.toOut], fun q v e => by simp [SRes.toOut] at e; exact e.1 ▸ h.2⟩
    | err q e => exact ⟨hl, fun q' e' h' => by simp [SRes.toOut] at h'; exact h'.1 ▸ h, by simp [SRes.toOut]⟩
    | panic => exact ⟨hl, by simp [SRes.toOut], by simp [SRes.toOut]⟩
  unfold turn
  rcases hr : p a pt with ⟨⟨q, x⟩ | ⟨q, e⟩ | _ | _, a', l⟩ <;> rw [hr] at hp <;> dsimp only
  · have hq := hp.ok q x rfl
    have hx := hF q x hq
    cases hfx : F q x with
    | «continue» y st =>
      rw [hfx] at hx
      have h1 := hK y st hx a' q hq
      dsimp only
      rcases hk : K y st a' q with ⟨r, a'', l'⟩
      rw [hk] at h1
      refine ⟨fun x hx => ?_, h1.fail, h1.ok⟩
      rcases List.mem_append.mp hx with hx | hx
      · exact hp.log x hx
      · exact h1.log x hx
    | stop r => rw [hfx] at hx; exact out hx hp.log
  · exact out (hfin q (hp.fail q e rfl)) hp.log
  · exact ⟨hp.log, by simp, by simp⟩
  · exact ⟨hp.log, by simp, by simp⟩

theorem shuntLoop_stays {ps : ExprParsers} {adapt : Yard → EState → EState} (h1 : Stays i k ps.prefixOrAtom)
    (h2 : Stays i k ps.infixOrPostfix) (h3 : Stays i k ps.limitedPostfix) (n : Nat) :
    ∀ y st, y.inn i k → Stays i k (shuntLoop toks ps adapt n y st) := by
  induction n with
  | zero => intro y st _; exact .hang
  | succ n ih =>
    intro y st hy a pt hp
    have hK : ∀ y st, y.inn i k → Stays i k (shuntLoop toks ps adapt n y (adapt y st)) := fun y st h => ih y _ h
    have opcase : (st = .Postfix ∨ st = .Atom) → Lim i k (In i k) (shuntLoop toks ps adapt (n + 1) y st a pt) := by
      intro hst
      rw [shuntLoop_turn (shuntStep_op toks ps y a pt hst)]
      refine turn_inn (h2 a pt hp) ?_ (fun q hq => finish_inn hy hq) hK
      rintro q (⟨op, payload⟩ | ⟨op, payload⟩) hq <;> exact ofYard_inn (addOperator_inn hy hp hq)
    have atomcase : (st = .Prefix ∨ ∃ w, st = .Infix w) → Lim i k (In i k) (shuntLoop toks ps adapt (n + 1) y st a pt) := by
      intro hst
      rw [shuntLoop_turn (shuntStep_atom toks ps y a pt hst)]
      have : Lim i k (In i k) (atomP ps a st a pt) := by
        rcases atomP_cases a st with h | h <;> rw [h]
        · exact h1.setAmbiguityLevel a pt hp
        · exact h1 a pt hp
      refine turn_inn this ?_ (fun q hq => finish_inn hy hq) hK
      rintro q (⟨e, attrs, op, payload⟩ | v) hq
      · exact ofYard_inn (addOperator_inn hy hp hq)
      · refine ⟨hy.1, ?_⟩
        intro c hc
        simp [Yard.addExpression] at hc
        rcases hc with rfl | hc
        · exact ⟨hp, hq⟩
        · exact hy.2 c hc
    cases st with
    | Prefix => exact atomcase (.inl rfl)
    | Infix w => exact atomcase (.inr ⟨w, rfl⟩)
    | Postfix => exact opcase (.inl rfl)
    | Atom => exact opcase (.inr rfl)
    | AtomLimitedPostfix =>
      rw [shuntLoop_turn (shuntStep_lim toks ps y a pt)]
      refine turn_inn (h3 a pt hp) ?_ (fun q hq => finish_inn hy hq) hK
      rintro q ⟨op, payload⟩ hq
      exact ofYard_inn (addOperator_inn hy hp hq)

end

end Verif
