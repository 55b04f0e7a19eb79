import Verif.Spec.Symbols
import Verif.FirstTable
import Verif.Proofs.First
/-!
# Parsing sequences of symbols

`Parses g am i o vs`: wherever the symbols `i` are read, the parser of `g` succeeds with `vs` and leaves the symbols `o`.
-/

namespace Verif
open Spec

theorem firstTable_ok : ∀ nt, ∀ k ∈ (rules nt).first NT.first, k ∈ nt.first := by
  have h : NT.all.all (fun nt => ((rules nt).first NT.first).all fun k => nt.first.contains k) = true := by decide +kernel
  intro nt k hk
  have := List.all_eq_true.mp h nt (NT.mem_all nt)
  simpa using List.all_eq_true.mp this k hk

/-- The first characters of tokens that can be split. -/
def headsOf : TK → List (Option TK)
  | .DoubleLeftAngle => [some .LeftAngle]
  | .DoubleRightAngle | .ShiftRightEquals | .GreaterThanOrEquals => [some .RightAngle]
  | .DoublePipe => [some .Pipe]
  | .DoubleAmpersand => [some .Ampersand]
  | _ => []

/-- The tokens that begin with a symbol written together with others. -/
def wholesOf : TK → List (Option TK)
  | .LeftAngle => [some .DoubleLeftAngle]
  | .RightAngle => [some .DoubleRightAngle, some .GreaterThanOrEquals, some .ShiftRightEquals]
  | .Pipe => [some .DoublePipe]
  | .Ampersand => [some .DoubleAmpersand]
  | _ => []

/-- What may be seen where a symbol is. -/
def _root_.Verif.Spec.Lexeme.looks : Lexeme → List (Option TK)
  | .t k => some k :: headsOf k
  | .j k => some k :: headsOf k ++ wholesOf k
  | .num _ => [none]

section
variable (toks : List Token)

/-- A symbol is read from `p` to `q`. -/
inductive ReadSym : Lexeme → Pt → Pt → Prop
  | whole {s k e p} : s.kind = some k → current toks p = some (.plain k e) → ReadSym s p (p.advanceBy 1)
  | num {n m p} : current toks p = some (.number n) → SameKind (.number n) (.number m) → ReadSym (.num m) p (p.advanceBy 1)
  | part {k k' e e' p o r} : toks[p.off]? = some o → current toks p = some (.plain k' e') → k' ≠ k →
      split o p.subw = some (.plain k e, r) → ReadSym (.j k) p ⟨p.off, some p.subw⟩

/-- The symbols are read from `p` on, up to the end of the file. -/
def At : Pt → List Lexeme → Prop
  | p, [] => ValidPt toks p ∧ peeks toks p = [some .EndOfFile]
  | p, s :: ss => ∃ q, Btw toks p q ∧ (∀ k ∈ peeks toks p, k ∈ s.looks) ∧ ReadSym toks s p q ∧ At q ss

end

variable {toks : List Token} {am : Amb} {p q : Pt} {i m o : List Lexeme}

theorem At.valid (h : At toks p i) : ValidPt toks p := by
  cases i with
  | nil => exact h.1
  | cons s ss => obtain ⟨q, hb, -⟩ := h; exact hb.left

/-! ## From tokens to symbols -/

theorem current_none {n : Nat} : current toks ⟨n, none⟩ = toks[n]? := by
  unfold current
  cases toks[n]? <;> rfl

theorem peeks_none {n : Nat} {t : Token} (h : toks[n]? = some t) :
    peeks toks ⟨n, none⟩ = t.kind? :: ((split t 0).map (·.1.kind?)).toList := by
  simp [peeks, current_none, h, Pt.subw]

theorem split0_kinds (k : TK) (e : Extent) : ((split (.plain k e) 0).map (·.1.kind?)).toList = headsOf k := by
  cases k <;> rfl

theorem getElem_mid {pre post : List Token} {t : Token} : (pre ++ t :: post)[pre.length]? = some t := by simp

theorem written_at {xs : List Lexeme} {ts : List Token} (h : Written xs ts) {e : Extent} :
    ∀ pre, At (pre ++ ts ++ [.plain .EndOfFile e]) ⟨pre.length, none⟩ xs := by
  induction h with
  | nil =>
    intro pre
    have h1 : (pre ++ ([] : List Token) ++ [.plain .EndOfFile e])[pre.length]? = some (.plain .EndOfFile e) := by simp
    exact ⟨⟨_, h1, by simp⟩, by rw [peeks_none h1]; rfl⟩
  | @t k e' ss ts _ ih =>
    intro pre
    have h1 : (pre ++ .plain k e' :: ts ++ [.plain .EndOfFile e])[pre.length]? = some (.plain k e') := by simp
    have h2 := ih (pre ++ [.plain k e'])
    rw [show pre ++ [.plain k e'] ++ ts ++ [.plain .EndOfFile e] = pre ++ .plain k e' :: ts ++ [.plain .EndOfFile e] by simp,
      show (⟨(pre ++ [Token.plain k e']).length, none⟩ : Pt) = Pt.advanceBy ⟨pre.length, none⟩ 1 by simp [Pt.advanceBy]] at h2
    refine ⟨_, ⟨⟨_, h1, by simp⟩, h2.valid, by simp [Pt.key, Pt.advanceBy, Pt.subw]; omega⟩, ?_, .whole rfl (by rw [current_none, h1]), h2⟩
    rw [peeks_none h1, split0_kinds]
    simp [Token.kind?, Lexeme.looks]
  | @j k e' ss ts _ ih =>
    intro pre
    have h1 : (pre ++ .plain k e' :: ts ++ [.plain .EndOfFile e])[pre.length]? = some (.plain k e') := by simp
    have h2 := ih (pre ++ [.plain k e'])
    rw [show pre ++ [.plain k e'] ++ ts ++ [.plain .EndOfFile e] = pre ++ .plain k e' :: ts ++ [.plain .EndOfFile e] by simp,
      show (⟨(pre ++ [Token.plain k e']).length, none⟩ : Pt) = Pt.advanceBy ⟨pre.length, none⟩ 1 by simp [Pt.advanceBy]] at h2
    refine ⟨_, ⟨⟨_, h1, by simp⟩, h2.valid, by simp [Pt.key, Pt.advanceBy, Pt.subw]; omega⟩, ?_, .whole rfl (by rw [current_none, h1]), h2⟩
    rw [peeks_none h1, split0_kinds]
    intro k' hk'
    simp [Token.kind?] at hk'
    rcases hk' with rfl | hk' <;> simp_all [Lexeme.looks]
  | @num n m' ss ts hs _ ih =>
    intro pre
    have h1 : (pre ++ .number n :: ts ++ [.plain .EndOfFile e])[pre.length]? = some (.number n) := by simp
    have h2 := ih (pre ++ [.number n])
    rw [show pre ++ [.number n] ++ ts ++ [.plain .EndOfFile e] = pre ++ .number n :: ts ++ [.plain .EndOfFile e] by simp,
      show (⟨(pre ++ [Token.number n]).length, none⟩ : Pt) = Pt.advanceBy ⟨pre.length, none⟩ 1 by simp [Pt.advanceBy]] at h2
    refine ⟨_, ⟨⟨_, h1, by simp⟩, h2.valid, by simp [Pt.key, Pt.advanceBy, Pt.subw]; omega⟩, ?_, .num (by rw [current_none, h1]) hs, h2⟩
    rw [peeks_none h1]
    simp [Token.kind?, Lexeme.looks, split]
  | @glue k s k' k'' e' ss ts hk hg _ ih =>
    intro pre
    have h1 : (pre ++ .plain k'' e' :: ts ++ [.plain .EndOfFile e])[pre.length]? = some (.plain k'' e') := by simp
    have h2 := ih (pre ++ [.plain k'' e'])
    rw [show pre ++ [.plain k'' e'] ++ ts ++ [.plain .EndOfFile e] = pre ++ .plain k'' e' :: ts ++ [.plain .EndOfFile e] by simp,
      show (⟨(pre ++ [Token.plain k'' e']).length, none⟩ : Pt) = Pt.advanceBy ⟨pre.length, some 0⟩ 1 by simp [Pt.advanceBy]] at h2
    generalize pre ++ .plain k'' e' :: ts ++ [.plain .EndOfFile e] = toks at h1 h2
    have key : ∃ e1 e2, split (.plain k'' e') 0 = some (.plain k e1, .plain k' e2) ∧ k'' ≠ k ∧
        (∀ x ∈ some k'' :: headsOf k'', x ∈ (Lexeme.j k).looks) ∧
        (∀ x ∈ some k' :: ((split (.plain k'' e') 1).map (·.1.kind?)).toList, x ∈ (Lexeme.t k').looks) := by
      obtain ⟨s, e⟩ := e'
      unfold Spec.glue at hg
      split at hg <;> simp at hg <;> subst hg <;> refine ⟨_, _, rfl, ?_, ?_, ?_⟩ <;>
        first | decide | simp [split, Token.kind?, Lexeme.looks, headsOf]
    obtain ⟨e1, e2, hs, hne, hl, hl'⟩ := key
    have hv : ValidPt toks ⟨pre.length, some 0⟩ := ⟨_, h1, by simp [hs]⟩
    have hcur : current toks ⟨pre.length, some 0⟩ = some (.plain k' e2) := by simp [current, h1, hs]
    refine ⟨⟨pre.length, some 0⟩, ⟨⟨_, h1, by simp⟩, hv, by simp [Pt.key, Pt.subw]⟩, ?_,
      .part h1 (by rw [current_none, h1]) hne hs, ?_⟩
    · rw [peeks_none h1, split0_kinds]; exact hl
    · refine ⟨_, ⟨hv, h2.valid, by simp [Pt.key, Pt.advanceBy, Pt.subw]; omega⟩, ?_, .whole hk hcur, h2⟩
      have : peeks toks ⟨pre.length, some 0⟩ = some k' :: ((split (.plain k'' e') 1).map (·.1.kind?)).toList := by
        simp [peeks, hcur, h1, Pt.subw, Token.kind?]
      rw [this]
      intro x hx
      have := hl' x hx
      cases s with
      | t k => simp [Lexeme.kind] at hk; subst hk; exact this
      | j k => simp [Lexeme.kind] at hk; subst hk; simp [Lexeme.looks] at this ⊢; grind
      | num n => simp [Lexeme.kind] at hk
  | @glue3 e' ss ts _ ih =>
    intro pre
    have h1 : (pre ++ .plain .ShiftRightEquals e' :: ts ++ [.plain .EndOfFile e])[pre.length]? = some (.plain .ShiftRightEquals e') := by simp
    have h2 := ih (pre ++ [.plain .ShiftRightEquals e'])
    rw [show pre ++ [.plain .ShiftRightEquals e'] ++ ts ++ [.plain .EndOfFile e] = pre ++ .plain .ShiftRightEquals e' :: ts ++ [.plain .EndOfFile e] by simp,
      show (⟨(pre ++ [Token.plain .ShiftRightEquals e']).length, none⟩ : Pt) = Pt.advanceBy ⟨pre.length, some 1⟩ 1 by simp [Pt.advanceBy]] at h2
    generalize pre ++ .plain .ShiftRightEquals e' :: ts ++ [.plain .EndOfFile e] = toks at h1 h2
    obtain ⟨a, b⟩ := e'
    have hv0 : ValidPt toks ⟨pre.length, some 0⟩ := ⟨_, h1, by simp [split]⟩
    have hv1 : ValidPt toks ⟨pre.length, some 1⟩ := ⟨_, h1, by simp [split]⟩
    have hc0 : current toks ⟨pre.length, some 0⟩ = some (.plain .GreaterThanOrEquals ⟨a + 1, b⟩) := by simp [current, h1, split]
    have hc1 : current toks ⟨pre.length, some 1⟩ = some (.plain .Equals ⟨a + 2, b⟩) := by simp [current, h1, split]
    refine ⟨⟨pre.length, some 0⟩, ⟨⟨_, h1, by simp⟩, hv0, by simp [Pt.key, Pt.subw]⟩, ?_,
      .part (e := ⟨a, a + 1⟩) (r := .plain .GreaterThanOrEquals ⟨a + 1, b⟩) h1 (by rw [current_none, h1]) (by decide) rfl, ?_⟩
    · rw [peeks_none h1, split0_kinds]; simp [Token.kind?, Lexeme.looks, headsOf, wholesOf]
    · refine ⟨⟨pre.length, some 1⟩, ⟨hv0, hv1, by simp [Pt.key, Pt.subw]⟩, ?_,
        .part (e := ⟨a + 1, a + 2⟩) (r := .plain .Equals ⟨a + 2, b⟩) h1 hc0 (by decide) rfl, ?_⟩
      · simp [peeks, hc0, h1, Pt.subw, Token.kind?, split, Lexeme.looks, headsOf, wholesOf]
      · refine ⟨_, ⟨hv1, h2.valid, by simp [Pt.key, Pt.advanceBy, Pt.subw]; omega⟩, ?_, .whole rfl hc1, h2⟩
        simp [peeks, hc1, h1, Pt.subw, Token.kind?, split, Lexeme.looks, headsOf]

/-! ## Judgements about points -/

section
variable (toks : List Token)

/-- The parser of `g` succeeds from `p` to `q` with a value of the shape of `vs`. -/
def Yields (g : G) (am : Amb) (p q : Pt) (vs : List V) : Prop :=
  Btw toks p q ∧ ∀ n, (evalG toks (eval toks n) g am p).Ok am q (Likes · vs)

/-- The parser of `g` fails at `p`, having gone no further. -/
def Stuck (g : G) (am : Amb) (p : Pt) : Prop := ∀ n, (evalG toks (eval toks n) g am p).No am (· = p)

/-- The parser of `g` fails when started at `p`. -/
def Fails (g : G) (am : Amb) (p : Pt) : Prop := ∀ n, (evalG toks (eval toks n) g am p).No am (fun _ => True)

/-! ## Judgements about symbols -/

def Parses (g : G) (am : Amb) (i o : List Lexeme) (vs : List V) : Prop :=
  ∀ p, At toks p i → ∃ q, At toks q o ∧ Yields toks g am p q vs

def Rejects (g : G) (am : Amb) (i : List Lexeme) : Prop := ∀ p, At toks p i → Fails toks g am p

def Stops (g : G) (am : Amb) (i : List Lexeme) : Prop := ∀ p, At toks p i → Stuck toks g am p

end

theorem Stuck.fails {g : G} (h : Stuck toks g am p) : Fails toks g am p := fun n => (h n).mono fun _ _ => trivial
theorem Stops.rejects {g : G} (h : Stops toks g am i) : Rejects toks g am i := fun p hp => (h p hp).fails

/-- All that may be seen next satisfies `P`. -/
def ahead (P : Option TK → Bool) : List Lexeme → Bool
  | [] => P (some .EndOfFile)
  | s :: _ => s.looks.all P

theorem At.ahead {P : Option TK → Bool} (h : At toks p i) (ha : ahead P i = true) : ∀ k ∈ peeks toks p, P k = true := by
  cases i with
  | nil => rw [h.2]; simpa [Verif.ahead] using ha
  | cons s ss =>
    obtain ⟨q, -, hl, -⟩ := h
    exact fun k hk => List.all_eq_true.mp ha k (hl k hk)

/-- A grammar expression that needs something to begin with, and none of what satisfies `P`. -/
def dead (P : Option TK → Bool) (g : G) : Bool := !g.null && (g.first NT.first).all fun k => !P k

theorem stops_of_dead {P : Option TK → Bool} {g : G} (ha : ahead P i = true) (hd : dead P g = true) : Stops toks g am i := by
  intro p hp n
  simp only [dead, Bool.and_eq_true, Bool.not_eq_true', List.all_eq_true] at hd
  have hs := hp.ahead ha
  have := idle_evalG hp.valid (idle_eval firstTable_ok hp.valid n) g am fun k hk hk' => by
    have := hd.2 k hk; have := hs k hk'; simp_all
  rw [hd.1] at this
  exact this.no

/-! ## Rules -/

theorem Likes.append {a b c d : List V} (h : Likes a b) (h' : Likes c d) : Likes (a ++ c) (b ++ d) := by
  simp only [Likes, shapes_append] at *; rw [h, h']

theorem Likes.refl (a : List V) : Likes a a := rfl

namespace Parses
variable {g a b : G} {vs ws : List V}

theorem to (h : Parses toks g am i o vs) (he : vs = ws) : Parses toks g am i o ws := he ▸ h

theorem eps : Parses toks .eps am i i [] :=
  fun p hp => ⟨p, hp, .refl hp.valid, fun _ => P.ok_pure rfl⟩

theorem tok {s : Lexeme} {k : TK} (hs : s.kind = some k) : Parses toks (.tok k) am (s :: o) o [.ext ⟨0, 0⟩] := by
  rintro p ⟨q, hb, -, hr, ho⟩
  refine ⟨q, ho, hb, fun n => ?_⟩
  refine P.ok_map (Q := fun _ => True) ?_ fun _ _ => rfl
  obtain ⟨o', t, ho', ht⟩ := current_isSome hb.left
  rw [token_eq, ho', ht]
  dsimp only
  cases hr with
  | whole h1 h2 =>
    rw [hs] at h1; cases h1; rw [h2] at ht; cases ht
    simp only [convTK, if_true]
    exact .ok trivial
  | num h1 => simp [Lexeme.kind] at hs
  | part h1 h2 h3 h4 =>
    cases hs
    rw [ho'] at h1; cases h1; rw [h2] at ht; cases ht
    simp only [convTK, if_neg h3, h4, if_true]
    exact .ok trivial

theorem number {n : Number} : Parses toks .number am (.num n :: o) o [convertNumber n] := by
  rintro p ⟨q, hb, -, hr, ho⟩
  refine ⟨q, ho, hb, fun n' => ?_⟩
  obtain ⟨o', t, ho', ht⟩ := current_isSome hb.left
  cases hr with
  | whole h1 => simp [Lexeme.kind] at h1
  | num h1 h2 =>
    refine P.ok_map (Q := fun m => SameKind (.number m) (.number n)) ?_ fun m hm => ?_
    · rw [token_eq, ho', ht]
      rw [h1] at ht; cases ht
      exact .ok h2
    · exact congrArg (fun x => [x]) (convertNumber_sim hm)

theorem simpleNumber {n : Number} (hn : n.intoSimple.isSome = true) :
    Parses toks .simpleNumber am (.num n :: o) o [.ext ⟨0, 0⟩] := by
  rintro p ⟨q, hb, -, hr, ho⟩
  refine ⟨q, ho, hb, fun n' => ?_⟩
  obtain ⟨o', t, ho', ht⟩ := current_isSome hb.left
  cases hr with
  | whole h1 => simp [Lexeme.kind] at h1
  | @num m _ _ h1 h2 =>
    unfold evalG fieldNameNumber
    rw [token_eq, ho', ht]
    rw [h1] at ht; cases ht
    dsimp only [convNumber]
    obtain ⟨e, he⟩ := Option.isSome_iff_exists.mp (show m.intoSimple.isSome = true by
      have := intoSimple_sim h2; revert this hn; generalize n.intoSimple = x; generalize m.intoSimple = y
      intro h3 h4; cases h4 <;> simp_all)
    rw [he]
    exact .ok rfl

theorem r {nt : NT} {g : G} (hr : rules nt = .g g) (h : Parses toks g am i o vs) : Parses toks (.r nt) am i o vs := by
  intro p hp
  obtain ⟨q, hq, hb, hy⟩ := h p hp
  refine ⟨q, hq, hb, fun n => ?_⟩
  cases n with
  | zero => exact .hang
  | succ n => show (evalRule toks (eval toks n) (rules nt) am p).Ok am q _; rw [hr]; exact hy n

theorem seq (h : Parses toks a am i m vs) (h' : Parses toks b am m o ws) : Parses toks (.seq a b) am i o (vs ++ ws) := by
  intro p hp
  obtain ⟨q, hq, hb, hy⟩ := h p hp
  obtain ⟨q', hq', hb', hy'⟩ := h' q hq
  exact ⟨q', hq', hb.trans hb', fun n => P.ok_bind (hy n) fun v hv => P.ok_map (hy' n) fun w hw => hv.append hw⟩

theorem alt_left (h : Parses toks a am i o vs) : Parses toks (.alt a b) am i o vs := by
  intro p hp
  obtain ⟨q, hq, hb, hy⟩ := h p hp
  exact ⟨q, hq, hb, fun n => P.ok_orElse_left (hy n)⟩

theorem alt_right (h : Rejects toks a am i) (h' : Parses toks b am i o vs) : Parses toks (.alt a b) am i o vs := by
  intro p hp
  obtain ⟨q, hq, hb, hy⟩ := h' p hp
  exact ⟨q, hq, hb, fun n => P.ok_orElse_right (h p hp n) (hy n)⟩

theorem alt_right' (h' : Parses toks b am i o vs) (h : Rejects toks a am i) : Parses toks (.alt a b) am i o vs := alt_right h h'

theorem opt_some (h : Parses toks a am i o vs) : Parses toks (.opt a) am i o [.list vs] := by
  intro p hp
  obtain ⟨q, hq, hb, hy⟩ := h p hp
  refine ⟨q, hq, hb, fun n => P.ok_map (P.ok_optional (hy n)) ?_⟩
  rintro _ ⟨v, rfl, hv⟩
  have : shapes v = shapes vs := hv
  simp [Likes, this]

theorem opt_none (h : Rejects toks a am i) : Parses toks (.opt a) am i i [.list []] := by
  intro p hp
  refine ⟨p, hp, .refl hp.valid, fun n => P.ok_map (P.ok_optional_none (h p hp n)) ?_⟩
  rintro _ rfl; rfl

theorem ext (h : Parses toks a am i o vs) : Parses toks (.ext a) am i o [.ext ⟨0, 0⟩] := by
  intro p hp
  obtain ⟨q, hq, hb, hy⟩ := h p hp
  exact ⟨q, hq, hb, fun n => P.ok_map (P.ok_spanned hb (hy n)) fun _ _ => rfl⟩

theorem drop (h : Parses toks a am i o vs) : Parses toks (.drop a) am i o [] := by
  intro p hp
  obtain ⟨q, hq, hb, hy⟩ := h p hp
  exact ⟨q, hq, hb, fun n => P.ok_map (hy n) fun _ _ => rfl⟩

theorem map {f : Fn} (h : Parses toks a am i o vs) : Parses toks (.map f a) am i o (f.app vs) := by
  intro p hp
  obtain ⟨q, hq, hb, hy⟩ := h p hp
  exact ⟨q, hq, hb, fun n => P.ok_map (hy n) fun _ hv => Fn.app_likes f hv⟩

theorem build {f : Mk} (h : Parses toks a am i o vs) : Parses toks (.build f a) am i o (f.app ⟨0, 0⟩ vs) := by
  intro p hp
  obtain ⟨q, hq, hb, hy⟩ := h p hp
  exact ⟨q, hq, hb, fun n => P.ok_map (P.ok_spanned hb (hy n)) fun _ hv => Mk.app_likes f hv⟩

theorem nodeEmpty {k : K} (h : Parses toks a am i o vs) : Parses toks (.nodeEmpty k a) am i o [.node k ⟨0, 0⟩ [] vs] := by
  intro p hp
  obtain ⟨q, hq, hb, hy⟩ := h p hp
  exact ⟨q, hq, hb, fun n => P.ok_map (P.ok_spannedEmpty hb.left (hy n)) fun _ hv =>
    congrArg (fun x => [V.node k ⟨0, 0⟩ [] x]) hv⟩

theorem mapErr {e : PErr} (h : Parses toks a am i o vs) : Parses toks (.mapErr e a) am i o vs := by
  intro p hp
  obtain ⟨q, hq, hb, hy⟩ := h p hp
  exact ⟨q, hq, hb, fun n => P.ok_mapErr (hy n)⟩

theorem peek (h : Parses toks a am i o vs) : Parses toks (.peek a) am i i vs := by
  intro p hp
  obtain ⟨q, hq, hb, hy⟩ := h p hp
  exact ⟨p, hp, .refl hp.valid, fun n => P.ok_peek (hy n)⟩

theorem amb {l : Amb} (h : Parses toks a l i o vs) : Parses toks (.amb l a) am i o vs := by
  intro p hp
  obtain ⟨q, hq, hb, hy⟩ := h p hp
  exact ⟨q, hq, hb, fun n => P.ok_amb (hy n)⟩

theorem ifAmbiguous_true (ha : am.isAmbiguous = true) (h : Parses toks a am i o vs) : Parses toks (.ifAmbiguous a b) am i o vs := by
  intro p hp
  obtain ⟨q, hq, hb, hy⟩ := h p hp
  exact ⟨q, hq, hb, fun n => by unfold evalG; rw [if_pos ha]; exact hy n⟩

theorem ifAmbiguous_false (ha : am.isAmbiguous = false) (h : Parses toks b am i o vs) : Parses toks (.ifAmbiguous a b) am i o vs := by
  intro p hp
  obtain ⟨q, hq, hb, hy⟩ := h p hp
  exact ⟨q, hq, hb, fun n => by unfold evalG; rw [if_neg (by simp [ha])]; exact hy n⟩

theorem notMaximum (ha : am ≠ .Maximum) (h : Parses toks a am i o vs) : Parses toks (.notMaximum a) am i o vs := by
  intro p hp
  obtain ⟨q, hq, hb, hy⟩ := h p hp
  exact ⟨q, hq, hb, fun n => by unfold evalG; rw [if_neg ha]; exact hy n⟩

end Parses

namespace Rejects
variable {g a b : G} {vs ws : List V}

theorem r {nt : NT} {g : G} (hr : rules nt = .g g) (h : Rejects toks g am i) : Rejects toks (.r nt) am i := by
  intro p hp n
  cases n with
  | zero => exact .hang
  | succ n => show (evalRule toks (eval toks n) (rules nt) am p).No am _; rw [hr]; exact h p hp n

theorem seq_left (h : Rejects toks a am i) : Rejects toks (.seq a b) am i := fun p hp n => P.no_bind (h p hp n)

theorem seq_right (h : Parses toks a am i m vs) (h' : Rejects toks b am m) : Rejects toks (.seq a b) am i := by
  intro p hp n
  obtain ⟨q, hq, hb, hy⟩ := h p hp
  exact P.no_bind_right (hy n) fun _ _ => P.no_map (h' q hq n)

theorem alt (h : Rejects toks a am i) (h' : Rejects toks b am i) : Rejects toks (.alt a b) am i :=
  fun p hp n => P.no_orElse (h p hp n) (h' p hp n)

theorem ext (h : Rejects toks a am i) : Rejects toks (.ext a) am i := fun p hp n => P.no_map (P.no_spanned (h p hp n))
theorem drop (h : Rejects toks a am i) : Rejects toks (.drop a) am i := fun p hp n => P.no_map (h p hp n)
theorem map {f : Fn} (h : Rejects toks a am i) : Rejects toks (.map f a) am i := fun p hp n => P.no_map (h p hp n)
theorem build {f : Mk} (h : Rejects toks a am i) : Rejects toks (.build f a) am i := fun p hp n => P.no_map (P.no_spanned (h p hp n))
theorem nodeEmpty {k : K} (h : Rejects toks a am i) : Rejects toks (.nodeEmpty k a) am i :=
  fun p hp n => P.no_map (P.no_spannedEmpty (h p hp n))
theorem mapErr {e : PErr} (h : Rejects toks a am i) : Rejects toks (.mapErr e a) am i := fun p hp n => P.no_mapErr (h p hp n)
theorem amb {l : Amb} (h : Rejects toks a l i) : Rejects toks (.amb l a) am i := fun p hp n => P.no_amb (h p hp n)
theorem notMaximum (h : Rejects toks a am i) : Rejects toks (.notMaximum a) am i := by
  intro p hp n
  unfold evalG
  split
  · exact .fail trivial
  · exact h p hp n
theorem ifAmbiguous (h : Rejects toks a am i) (h' : Rejects toks b am i) : Rejects toks (.ifAmbiguous a b) am i := by
  intro p hp n
  unfold evalG
  split
  · exact h p hp n
  · exact h' p hp n

end Rejects

/-! ## Lists -/

/-- What a list becomes when `vss` and `c` separators are added, and `b` is known of the last separator. -/
def P.Tailed.extend (t : P.Tailed (List V)) (vss : List (List V)) (c : Nat) (b : Option Bool) : P.Tailed (List V) :=
  ⟨t.values ++ vss, t.separatorCount + c, b.getD t.lastHadSeparator⟩

section
variable (toks : List Token)

def ParsesMany (g : G) (am : Amb) (i o : List Lexeme) (vs : List V) : Prop :=
  ∀ p, At toks p i → ∃ q, At toks q o ∧ Btw toks p q ∧ ∀ n fuel,
    (P.zeroOrMore (evalG toks (eval toks n) g) fuel am p).Ok am q (fun vss => Likes vss.flatten vs)

def ParsesTail (sep g : G) (am : Amb) (i o : List Lexeme) (vss : List (List V)) (c : Nat) (b : Option Bool) : Prop :=
  ∀ p, At toks p i → ∃ q, At toks q o ∧ Btw toks p q ∧ ∀ n fuel t u, P.Sim.TL Likes t u →
    (P.zeroOrMoreTailedAppend (evalG toks (eval toks n) sep) (evalG toks (eval toks n) g) fuel t am p).Ok am q
      (fun t' => P.Sim.TL Likes t' (u.extend vss c b))

def ParsesOne (sep g : G) (am : Amb) (i o : List Lexeme) (vss : List (List V)) : Prop :=
  ∀ p, At toks p i → ∃ q, At toks q o ∧ Btw toks p q ∧ ∀ n fuel,
    (P.oneOrMoreTailed (evalG toks (eval toks n) sep) (evalG toks (eval toks n) g) fuel am p).Ok am q
      (fun t' => P.Sim.All Likes t'.values vss)

def ParsesImpl (impl : Impl) (sep g : G) (am : Amb) (i o : List Lexeme) (vss : List (List V)) (c : Nat) (b : Option Bool) : Prop :=
  ∀ p, At toks p i → ∃ q, At toks q o ∧ Btw toks p q ∧ ∀ n fuel t u, P.Sim.TL Likes t u →
    (P.zeroOrMoreImplicitlyTailed impl.app (evalG toks (eval toks n) sep) (evalG toks (eval toks n) g) fuel t am p).Ok am q
      (fun t' => P.Sim.TL Likes t' (u.extend vss c b))

end

theorem All.likes_flatten {vss wss : List (List V)} (h : P.Sim.All Likes vss wss) : Likes vss.flatten wss.flatten := by
  induction h with
  | nil => rfl
  | cons h _ ih => exact h.append ih

section
variable {g a b sep : G} {vs ws : List V} {vss : List (List V)} {c : Nat} {bo : Option Bool} {impl : Impl}

theorem ParsesMany.nil (h : Rejects toks g am i) : ParsesMany toks g am i i [] := by
  intro p hp
  exact ⟨p, hp, .refl hp.valid, fun n fuel => (P.ok_zeroOrMore_nil (h p hp n) fuel).mono fun _ h => h ▸ rfl⟩

theorem ParsesMany.cons (h : Parses toks g am i m vs) (h' : ParsesMany toks g am m o ws) :
    ParsesMany toks g am i o (vs ++ ws) := by
  intro p hp
  obtain ⟨q, hq, hb, hy⟩ := h p hp
  obtain ⟨q', hq', hb', hy'⟩ := h' q hq
  refine ⟨q', hq', hb.trans hb', fun n fuel => (P.ok_zeroOrMore_cons (hy n) (hy' n) fuel).mono ?_⟩
  rintro _ ⟨v, w, rfl, h1, h2⟩
  exact h1.append h2

theorem ParsesMany.many (h : ParsesMany toks g am i o vs) : Parses toks (.many g) am i o [.list vs] := by
  intro p hp
  obtain ⟨q, hq, hb, hy⟩ := h p hp
  refine ⟨q, hq, hb, fun n => P.ok_map (hy n _) fun v hv => ?_⟩
  exact congrArg (fun x => [V.list x]) hv

theorem ParsesTail.nil (h : Stops toks g am i) : ParsesTail toks sep g am i i [] 0 none := by
  intro p hp
  refine ⟨p, hp, .refl hp.valid, fun n fuel t u htu => ?_⟩
  cases fuel with
  | zero => exact .hang
  | succ fuel =>
    unfold P.zeroOrMoreTailedAppend
    refine P.ok_bind (P.ok_parseTailed_nothing' (h p hp n)) ?_
    rintro _ ⟨e, rfl⟩
    exact .ok ⟨by simpa [P.Tailed.extend] using htu.values, by simp [P.Tailed.extend, htu.separatorCount],
      by simp [P.Tailed.extend, htu.lastHadSeparator]⟩

theorem ParsesTail.one (h : Parses toks g am i o vs) (hs : Stops toks sep am o) :
    ParsesTail toks sep g am i o [vs] 0 (some false) := by
  intro p hp
  obtain ⟨q, hq, hb, hy⟩ := h p hp
  refine ⟨q, hq, hb, fun n fuel t u htu => ?_⟩
  cases fuel with
  | zero => exact .hang
  | succ fuel =>
    unfold P.zeroOrMoreTailedAppend
    refine P.ok_bind (P.ok_parseTailed_value (hy n) (hs q hq n)) ?_
    rintro _ ⟨v, rfl, hv⟩
    exact .ok ⟨htu.values.append (.cons hv .nil), by simp [P.Tailed.extend, htu.separatorCount], by simp [P.Tailed.extend]⟩

theorem ParsesTail.more (h : Parses toks g am i m vs) (hs : Parses toks sep am m m' ws)
    (h' : ParsesTail toks sep g am m' o vss c bo) :
    ParsesTail toks sep g am i o (vs :: vss) (c + 1) (bo.or (some true)) := by
  intro p hp
  obtain ⟨q, hq, hb, hy⟩ := h p hp
  obtain ⟨q1, hq1, hb1, hy1⟩ := hs q hq
  obtain ⟨q2, hq2, hb2, hy2⟩ := h' q1 hq1
  refine ⟨q2, hq2, (hb.trans hb1).trans hb2, fun n fuel t u htu => ?_⟩
  cases fuel with
  | zero => exact .hang
  | succ fuel =>
    unfold P.zeroOrMoreTailedAppend
    refine P.ok_bind (P.ok_parseTailed_both (hy n) (hy1 n)) ?_
    rintro _ ⟨v, rfl, hv⟩
    refine (hy2 n fuel ⟨t.values ++ [v], t.separatorCount + 1, true⟩ ⟨u.values ++ [vs], u.separatorCount + 1, true⟩
      ⟨htu.values.append (.cons hv .nil), by simp [htu.separatorCount], rfl⟩).mono fun t' ht' => ?_
    refine ⟨by simpa [P.Tailed.extend] using ht'.values, ?_, ?_⟩
    · have := ht'.separatorCount; simp [P.Tailed.extend] at this ⊢; omega
    · have := ht'.lastHadSeparator
      cases bo <;> simpa [P.Tailed.extend] using this

theorem ParsesTail.tailed {k : TailK} (h : ParsesTail toks sep g am i o vss c bo) :
    Parses toks (.tailed k sep g) am i o (k.out ⟨vss, c, bo.getD false⟩) := by
  intro p hp
  obtain ⟨q, hq, hb, hy⟩ := h p hp
  refine ⟨q, hq, hb, fun n => P.ok_map (hy n _ {} {} ⟨.nil, rfl, rfl⟩) fun t ht => ?_⟩
  have := TailK.out_likes k ht
  simpa [P.Tailed.extend] using this

theorem ParsesTail.values (h : ParsesTail toks sep g am i o vss c bo) :
    Parses toks (.tailedValues sep g) am i o [.list vss.flatten] := h.tailed

theorem ParsesOne.one (h : Parses toks g am i o vs) (hs : Stops toks sep am o) : ParsesOne toks sep g am i o [vs] := by
  intro p hp
  obtain ⟨q, hq, hb, hy⟩ := h p hp
  refine ⟨q, hq, hb, fun n fuel => ?_⟩
  unfold P.oneOrMoreTailed
  refine P.ok_bind (P.ok_parseTailed_value (hy n) (hs q hq n)) ?_
  rintro _ ⟨v, rfl, hv⟩
  exact .ok (.cons hv .nil)

theorem ParsesOne.more (h : Parses toks g am i m vs) (hs : Parses toks sep am m m' ws)
    (h' : ParsesTail toks sep g am m' o vss c bo) : ParsesOne toks sep g am i o (vs :: vss) := by
  intro p hp
  obtain ⟨q, hq, hb, hy⟩ := h p hp
  obtain ⟨q1, hq1, hb1, hy1⟩ := hs q hq
  obtain ⟨q2, hq2, hb2, hy2⟩ := h' q1 hq1
  refine ⟨q2, hq2, (hb.trans hb1).trans hb2, fun n fuel => ?_⟩
  unfold P.oneOrMoreTailed
  refine P.ok_bind (P.ok_parseTailed_both (hy n) (hy1 n)) ?_
  rintro _ ⟨v, rfl, hv⟩
  refine (hy2 n fuel ⟨[v], 1, false⟩ ⟨[vs], 1, false⟩ ⟨.cons hv .nil, rfl, rfl⟩).mono fun t' ht' => ?_
  simpa [P.Tailed.extend] using ht'.values

theorem ParsesOne.values (h : ParsesOne toks sep g am i o vss) :
    Parses toks (.tailed1Values sep g) am i o [.list vss.flatten] := by
  intro p hp
  obtain ⟨q, hq, hb, hy⟩ := h p hp
  refine ⟨q, hq, hb, fun n => P.ok_map (hy n _) fun t ht => ?_⟩
  exact congrArg (fun x => [V.list x]) (All.likes_flatten ht)

theorem ParsesOne.resume (hs : Parses toks sep am i m ws) (h : ParsesOne toks sep g am m o vss) :
    Parses toks (.resume sep g) am i o [.list vss.flatten] := by
  intro p hp
  obtain ⟨q, hq, hb, hy⟩ := hs p hp
  obtain ⟨q', hq', hb', hy'⟩ := h q hq
  refine ⟨q', hq', hb.trans hb', fun n => P.ok_map (Q := fun x => P.Sim.All Likes x vss) ?_ fun t ht =>
    congrArg (fun x => [V.list x]) (All.likes_flatten ht)⟩
  unfold P.zeroOrMoreTailedValuesResume
  have h1 := hy n
  generalize evalG toks (eval toks n) sep am p = r at h1
  obtain ⟨out, a, l⟩ := r
  rcases h1 with h1 | ⟨h1, v, h2, h3⟩
  · dsimp only at h1; subst h1; exact .hang
  dsimp only at h1 h2
  subst h1 h2
  dsimp only
  have h4 := hy' n (loopFuel toks)
  generalize P.oneOrMoreTailed _ _ _ _ _ = r at h4
  obtain ⟨out, a, l⟩ := r
  rcases h4 with h1 | ⟨h1, v, h2, h3⟩
  · dsimp only at h1; subst h1; exact .hang
  dsimp only at h1 h2
  subst h1 h2
  exact .ok h3

theorem Parses.resume_none (hs : Stops toks sep am i) : Parses toks (.resume sep g) am i i [.list []] := by
  intro p hp
  refine ⟨p, hp, .refl hp.valid, fun n => P.ok_map (Q := fun x => x = []) ?_ fun t ht => ht ▸ rfl⟩
  unfold P.zeroOrMoreTailedValuesResume
  have h1 := hs p hp n
  generalize evalG toks (eval toks n) sep am p = r at h1
  obtain ⟨out, a, l⟩ := r
  rcases h1 with h1 | ⟨h1, q, e, h2, rfl⟩
  · dsimp only at h1; subst h1; exact .hang
  dsimp only at h1 h2
  subst h1 h2
  exact .ok rfl

theorem ParsesImpl.nil (h : Stops toks g am i) : ParsesImpl toks impl sep g am i i [] 0 none := by
  intro p hp
  refine ⟨p, hp, .refl hp.valid, fun n fuel t u htu => ?_⟩
  cases fuel with
  | zero => exact .hang
  | succ fuel =>
    unfold P.zeroOrMoreImplicitlyTailed
    refine P.ok_bind (P.ok_parseTailed_nothing' (h p hp n)) ?_
    rintro _ ⟨e, rfl⟩
    exact .ok ⟨by simpa [P.Tailed.extend] using htu.values, by simp [P.Tailed.extend, htu.separatorCount],
      by simp [P.Tailed.extend, htu.lastHadSeparator]⟩

theorem ParsesImpl.one (h : Parses toks g am i o vs) (hi : impl.app vs = false) (hs : Stops toks sep am o) :
    ParsesImpl toks impl sep g am i o [vs] 0 none := by
  intro p hp
  obtain ⟨q, hq, hb, hy⟩ := h p hp
  refine ⟨q, hq, hb, fun n fuel t u htu => ?_⟩
  cases fuel with
  | zero => exact .hang
  | succ fuel =>
    unfold P.zeroOrMoreImplicitlyTailed
    refine P.ok_bind (P.ok_parseTailed_value (hy n) (hs q hq n)) ?_
    rintro _ ⟨v, rfl, hv⟩
    dsimp only
    rw [Impl.app_likes impl hv, hi]
    simp only [Bool.false_eq_true, if_false]
    exact .ok ⟨htu.values.append (.cons hv .nil), by simp [P.Tailed.extend, htu.separatorCount],
      by simp [P.Tailed.extend, htu.lastHadSeparator]⟩

theorem ParsesImpl.implicit (h : Parses toks g am i m vs) (hi : impl.app vs = true) (hs : Stops toks sep am m)
    (h' : ParsesImpl toks impl sep g am m o vss c bo) :
    ParsesImpl toks impl sep g am i o (vs :: vss) (c + 1) (bo.or (some false)) := by
  intro p hp
  obtain ⟨q, hq, hb, hy⟩ := h p hp
  obtain ⟨q2, hq2, hb2, hy2⟩ := h' q hq
  refine ⟨q2, hq2, hb.trans hb2, fun n fuel t u htu => ?_⟩
  cases fuel with
  | zero => exact .hang
  | succ fuel =>
    unfold P.zeroOrMoreImplicitlyTailed
    refine P.ok_bind (P.ok_parseTailed_value (hy n) (hs q hq n)) ?_
    rintro _ ⟨v, rfl, hv⟩
    dsimp only
    rw [Impl.app_likes impl hv, hi]
    simp only [if_true]
    refine (hy2 n fuel ⟨t.values ++ [v], t.separatorCount + 1, false⟩ ⟨u.values ++ [vs], u.separatorCount + 1, false⟩
      ⟨htu.values.append (.cons hv .nil), by simp [htu.separatorCount], rfl⟩).mono fun t' ht' => ?_
    refine ⟨by simpa [P.Tailed.extend] using ht'.values, ?_, ?_⟩
    · have := ht'.separatorCount; simp [P.Tailed.extend] at this ⊢; omega
    · have := ht'.lastHadSeparator
      cases bo <;> simpa [P.Tailed.extend] using this

theorem ParsesImpl.more (h : Parses toks g am i m vs) (hs : Parses toks sep am m m' ws)
    (h' : ParsesImpl toks impl sep g am m' o vss c bo) :
    ParsesImpl toks impl sep g am i o (vs :: vss) (c + 1) (bo.or (some true)) := by
  intro p hp
  obtain ⟨q, hq, hb, hy⟩ := h p hp
  obtain ⟨q1, hq1, hb1, hy1⟩ := hs q hq
  obtain ⟨q2, hq2, hb2, hy2⟩ := h' q1 hq1
  refine ⟨q2, hq2, (hb.trans hb1).trans hb2, fun n fuel t u htu => ?_⟩
  cases fuel with
  | zero => exact .hang
  | succ fuel =>
    unfold P.zeroOrMoreImplicitlyTailed
    refine P.ok_bind (P.ok_parseTailed_both (hy n) (hy1 n)) ?_
    rintro _ ⟨v, rfl, hv⟩
    refine (hy2 n fuel ⟨t.values ++ [v], t.separatorCount + 1, true⟩ ⟨u.values ++ [vs], u.separatorCount + 1, true⟩
      ⟨htu.values.append (.cons hv .nil), by simp [htu.separatorCount], rfl⟩).mono fun t' ht' => ?_
    refine ⟨by simpa [P.Tailed.extend] using ht'.values, ?_, ?_⟩
    · have := ht'.separatorCount; simp [P.Tailed.extend] at this ⊢; omega
    · have := ht'.lastHadSeparator
      cases bo <;> simpa [P.Tailed.extend] using this

theorem ParsesImpl.tailed {k : TailK} (h : ParsesImpl toks impl sep g am i o vss c bo) :
    Parses toks (.implTailed k impl sep g) am i o (k.out ⟨vss, c, bo.getD false⟩) := by
  intro p hp
  obtain ⟨q, hq, hb, hy⟩ := h p hp
  refine ⟨q, hq, hb, fun n => P.ok_map (hy n _ {} {} ⟨.nil, rfl, rfl⟩) fun t ht => ?_⟩
  have := TailK.out_likes k ht
  simpa [P.Tailed.extend] using this

end

/-! ## Alternatives -/

theorem rejects_foldl {gs : List G} {g : G} (h : Rejects toks g am i) (hs : ∀ x ∈ gs, Rejects toks x am i) :
    Rejects toks (gs.foldl .alt g) am i := by
  induction gs generalizing g with
  | nil => exact h
  | cons x xs ih => exact ih (h.alt (hs x (by simp))) fun y hy => hs y (by simp [hy])

theorem parses_foldl_left {gs : List G} {g : G} {vs : List V} (h : Parses toks g am i o vs) :
    Parses toks (gs.foldl .alt g) am i o vs := by
  induction gs generalizing g with
  | nil => exact h
  | cons x xs ih => exact ih h.alt_left

theorem Rejects.alts {gs : List G} (hne : gs ≠ []) (hs : ∀ x ∈ gs, Rejects toks x am i) : Rejects toks (.alts gs) am i := by
  cases gs with
  | nil => exact absurd rfl hne
  | cons g gs => exact rejects_foldl (hs g (by simp)) fun x hx => hs x (by simp [hx])

theorem Parses.alts {gs : List G} {g : G} {vs : List V} (k : Nat) (hk : gs[k]? = some g)
    (hs : ∀ x ∈ gs.take k, Rejects toks x am i) (h : Parses toks g am i o vs) : Parses toks (.alts gs) am i o vs := by
  cases gs with
  | nil => simp at hk
  | cons g' gs =>
    show Parses toks (gs.foldl .alt g') am i o vs
    cases k with
    | zero => simp at hk; subst hk; exact parses_foldl_left h
    | succ k =>
      simp only [List.getElem?_cons_succ] at hk
      have h1 := hs g' (by simp)
      have h2 : ∀ x ∈ gs.take k, Rejects toks x am i := fun x hx => hs x (by simp [hx])
      clear hs
      induction gs generalizing g' k with
      | nil => simp at hk
      | cons x xs ih =>
        cases k with
        | zero => simp at hk; subst hk; exact parses_foldl_left (gs := xs) (g := .alt g' x) (h.alt_right' h1)
        | succ k =>
          simp only [List.getElem?_cons_succ] at hk
          exact ih _ k hk (h1.alt (h2 x (by simp))) fun y hy => h2 y (by simp [hy])

end Verif
