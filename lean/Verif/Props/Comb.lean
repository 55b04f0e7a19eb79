import Verif.Spec.Comb
import Verif.Props.Parse
/-!
# Property theorems about the combinators (C32, C33, C35)
-/

namespace Verif.Props
open Verif Verif.Spec

variable {α β : Type}

/-! ## C35 -/

/-- Looking ahead consumes nothing, whether it succeeds or fails, and reports what the inner parser found. -/
theorem C35_peek (p : P α) (a : Amb) (pt : Pt) :
    (∀ q v, (P.peek p a pt).out = .ok q v → q = pt ∧ ∃ m, (p a pt).out = .ok m v) ∧
    (∀ q e, (P.peek p a pt).out = .fail q e → q = pt ∧ ∃ m, (p a pt).out = .fail m e) ∧
    (∀ m v, (p a pt).out = .ok m v → (P.peek p a pt).out = .ok pt v) ∧
    (∀ m e, (p a pt).out = .fail m e → (P.peek p a pt).out = .fail pt e) := by
  unfold P.peek
  generalize p a pt = r
  obtain ⟨o, a', l⟩ := r
  cases o <;> simp

/-- An optional parser succeeds without consuming when the inner parser fails, wherever that one got to. -/
theorem C35_optional (p : P α) (a : Amb) (pt : Pt) :
    (∀ m e, (p a pt).out = .fail m e → (P.optional p a pt).out = .ok pt none) ∧
    (∀ m v, (p a pt).out = .ok m v → (P.optional p a pt).out = .ok m (some v)) ∧
    (∀ q e, (P.optional p a pt).out ≠ .fail q e) := by
  unfold P.optional
  generalize p a pt = r
  obtain ⟨o, a', l⟩ := r
  cases o <;> simp

/-- Repetition returns what the inner parser yields until it fails, and stops where that failing attempt began. -/
theorem C35_zero_or_more (p : P α) (a : Amb) (pt q : Pt) (vs : List α) :
    (∃ n, (P.zeroOrMore p n a pt).out = .ok q vs) ↔ ∃ a' m, Repeats p a pt vs a' q ∧ Fails p a' q m := by
  constructor
  · rintro ⟨n, h⟩
    induction n generalizing a pt vs with
    | zero => simp [P.zeroOrMore] at h
    | succ n ih =>
      simp only [P.zeroOrMore] at h
      split at h
      · next pt' v a' l hp =>
        split at h
        · next pt'' vs' a'' l' hz =>
          simp only [Out.ok.injEq] at h
          obtain ⟨rfl, rfl⟩ := h
          obtain ⟨b, m, h1, h2⟩ := ih a' pt' vs' (by rw [hz])
          exact ⟨b, m, .cons ⟨l, hp⟩ h1, h2⟩
        · next r a'' l' hne hz =>
          dsimp only at h
          subst h
          exact absurd rfl (hne _ _)
      · next pt' e a' l hp =>
        simp only [Out.ok.injEq] at h
        obtain ⟨rfl, rfl⟩ := h
        exact ⟨a, pt', .nil, e, a', l, hp⟩
      · simp at h
      · simp at h
  · rintro ⟨a', m, hr, e, a'', l, hf⟩
    induction hr with
    | nil => exact ⟨1, by simp [P.zeroOrMore, hf]⟩
    | cons hy _ ih =>
      obtain ⟨l', hy⟩ := hy
      obtain ⟨n, hn⟩ := ih hf
      refine ⟨n + 1, ?_⟩
      simp only [P.zeroOrMore, hy]
      generalize P.zeroOrMore p n _ _ = r at hn
      obtain ⟨o, b, l⟩ := r
      dsimp only at hn
      subst hn
      rfl

/-- For the examples: `a a ,` -/
def exampleTokens : List Token :=
  [.plain .Ident ⟨0, 1⟩, .plain .Ident ⟨2, 3⟩, .plain .Comma ⟨3, 4⟩, .plain .EndOfFile ⟨4, 4⟩]

/-- For the examples: an identifier followed by a comma; fails after having consumed the identifier. -/
def identComma : P Extent :=
  (token exampleTokens (convTK .Ident) (.Expected .Ident)).bind fun e =>
    (token exampleTokens (convTK .Comma) (.Expected .Comma)).map fun _ => e

example : (identComma .Unambiguous ⟨0, none⟩).out = .fail ⟨1, none⟩ (.Expected .Comma) ∧
    (P.optional identComma .Unambiguous ⟨0, none⟩).out = .ok ⟨0, none⟩ none ∧
    (P.zeroOrMore identComma 2 .Unambiguous ⟨1, none⟩).out = .ok ⟨3, none⟩ [⟨2, 3⟩] ∧
    (P.peek identComma .Unambiguous ⟨1, none⟩).out = .ok ⟨1, none⟩ ⟨2, 3⟩ := by decide +kernel

/-! ## C32 -/

theorem elements_element (v : α) (c : List (Piece α)) : elements (.element v :: c) = v :: elements c := rfl
theorem elements_separator (c : List (Piece α)) : elements (.separator :: c) = elements c := rfl
theorem separators_element (v : α) (c : List (Piece α)) : separators (.element v :: c) = separators c := by
  simp [separators]
theorem separators_separator (c : List (Piece α)) : separators (.separator :: c) = separators c + 1 := by
  simp [separators]
theorem trailing_cons2 (x y : Piece α) (c : List (Piece α)) : trailing (x :: y :: c) = trailing (y :: c) := by
  simp [trailing]
theorem endsInElement_cons2 (x y : Piece α) (c : List (Piece α)) :
    endsInElement (x :: y :: c) = endsInElement (y :: c) := by
  simp [endsInElement]
theorem trailing_sep (c : List (Piece α)) : trailing (.separator :: c) = if c = [] then true else trailing c := by
  cases c <;> simp [trailing]
theorem endsInElement_sep (c : List (Piece α)) : endsInElement (.separator :: c) = endsInElement c := by
  cases c <;> simp [endsInElement]

/-- In an alternating sequence there are as many separators as elements, or one less. -/
theorem alternating_counts (c : List (Piece α)) (h : alternating c = true) :
    if trailing c = true ∨ c = [] then separators c = (elements c).length
    else separators c + 1 = (elements c).length := by
  match c, h with
  | [], _ => simp [separators, elements]
  | [.element _], _ => simp [trailing, separators, elements]
  | .element v :: .separator :: c, h =>
    have ih := alternating_counts c h
    rw [trailing_cons2, trailing_sep, separators_element, separators_separator, elements_element, elements_separator]
    cases c with
    | nil => simp [separators, elements]
    | cons x c => simpa using ih

/-- What `parse_tailed` tells. -/
theorem parseTailed_ok {sep : P β} {f : P α} {a pt q s a' l} (h : P.parseTailed sep f a pt = ⟨.ok q s, a', l⟩) :
    (∃ e, s = .nothing e ∧ Fails f a pt q) ∨
    (∃ v b m, s = .valueOnly v ∧ Succeeds f a pt v b m ∧ Fails sep b m q) ∨
    (∃ v b m w, s = .valueAndSeparator v ∧ Succeeds f a pt v b m ∧ Succeeds sep b m w a' q) := by
  unfold P.parseTailed at h
  split at h
  · next hf => cases h; exact .inl ⟨_, rfl, _, _, _, hf⟩
  · next hf =>
    split at h
    · next hs => cases h; exact .inr (.inl ⟨_, _, _, rfl, ⟨_, hf⟩, _, _, _, hs⟩)
    · next hs => cases h; exact .inr (.inr ⟨_, _, _, _, rfl, ⟨_, hf⟩, _, hs⟩)
    · cases h
    · cases h
  · cases h
  · cases h

theorem bind_ok {p : P α} {f : α → P β} {a pt q v} (h : (P.bind p f a pt).out = .ok q v) :
    ∃ m w a' l, p a pt = ⟨.ok m w, a', l⟩ ∧ (f w a' m).out = .ok q v := by
  unfold P.bind at h
  split at h
  · next hp => exact ⟨_, _, _, _, hp, h⟩
  all_goals simp at h

/-- What is read when a list already read is extended. -/
theorem append_reads {sep : P β} {f : P α} {n : Nat} {t : P.Tailed α} {a : Amb} {p q : Pt} {t' : P.Tailed α}
    (h : (P.zeroOrMoreTailedAppend sep f n t a p).out = .ok q t') :
    ∃ c a' m, Reads sep f a p c a' m ∧ Stops sep f c a' m q ∧ alternating c = true ∧
      t'.values = t.values ++ elements c ∧ t'.separatorCount = t.separatorCount + separators c ∧
      t'.lastHadSeparator = if c = [] then t.lastHadSeparator else trailing c := by
  induction n generalizing t a p with
  | zero => simp [P.zeroOrMoreTailedAppend] at h
  | succ n ih =>
    obtain ⟨m, s, a', l, hp, h⟩ := bind_ok h
    rcases parseTailed_ok hp with ⟨e, rfl, hf⟩ | ⟨v, b, m', rfl, hf, hs⟩ | ⟨v, b, m', w, rfl, hf, hs⟩
    · cases h
      exact ⟨[], _, _, .nil, by simpa [Stops, endsInElement] using hf, rfl, by simp [elements], by simp [separators], by simp⟩
    · cases h
      exact ⟨[.element v], _, _, .element hf .nil, by simpa [Stops, endsInElement] using hs, rfl, by simp [elements],
        by simp [separators], by simp [trailing]⟩
    · obtain ⟨c, a'', m'', hr, hst, halt, hv, hc, hl⟩ := ih h
      refine ⟨.element v :: .separator :: c, a'', m'', .element hf (.separator hs hr), ?_, halt, ?_, ?_, ?_⟩
      · unfold Stops at hst ⊢
        rw [endsInElement_cons2, endsInElement_sep]; exact hst
      · rw [hv, elements_element, elements_separator]; simp
      · rw [hc, separators_element, separators_separator]; dsimp only; omega
      · rw [hl, trailing_cons2, trailing_sep]; simp

/-- `zero_or_more_tailed`: the elements in order, the number of separators, and whether the last thing read is a separator. -/
theorem C32_zero_or_more (sep : P β) (f : P α) (n : Nat) (a : Amb) (p q : Pt) (t : P.Tailed α)
    (h : (P.zeroOrMoreTailed sep f n a p).out = .ok q t) :
    ∃ c a' m, Reads sep f a p c a' m ∧ Stops sep f c a' m q ∧ alternating c = true ∧
      t.values = elements c ∧ t.separatorCount = separators c ∧ t.lastHadSeparator = trailing c ∧
      (t.separatorCount = t.values.length ∨ t.separatorCount + 1 = t.values.length) := by
  obtain ⟨c, a', m, hr, hs, halt, hv, hc, hl⟩ := append_reads h
  have hv : t.values = elements c := by simpa using hv
  have hc : t.separatorCount = separators c := by simpa using hc
  have hl : t.lastHadSeparator = trailing c := by
    rw [hl]; cases c <;> simp [trailing]
  refine ⟨c, a', m, hr, hs, halt, hv, hc, hl, ?_⟩
  have := alternating_counts c halt
  rw [hv, hc]
  split at this
  · exact .inl this
  · exact .inr this

/-- `one_or_more_tailed`: the elements in order, at least one, and the number of separators.  What is missing: it does not
always report a trailing separator (`C32_false`), though it never reports one that is not there. -/
theorem C32_one_or_more_partial (sep : P β) (f : P α) (n : Nat) (a : Amb) (p q : Pt) (t : P.Tailed α)
    (h : (P.oneOrMoreTailed sep f n a p).out = .ok q t) :
    ∃ c a' m, Reads sep f a p c a' m ∧ Stops sep f c a' m q ∧ alternating c = true ∧ t.values ≠ [] ∧
      t.values = elements c ∧ t.separatorCount = separators c ∧ (t.lastHadSeparator = true → trailing c = true) ∧
      (2 ≤ t.values.length → t.lastHadSeparator = trailing c) ∧
      (t.separatorCount = t.values.length ∨ t.separatorCount + 1 = t.values.length) := by
  obtain ⟨m, s, a', l, hp, h⟩ := bind_ok h
  rcases parseTailed_ok hp with ⟨e, rfl, hf⟩ | ⟨v, b, m', rfl, hf, hs⟩ | ⟨v, b, m', w, rfl, hf, hs⟩
  · simp [P.failure] at h
  · cases h
    exact ⟨[.element v], _, _, .element hf .nil, by simpa [Stops, endsInElement] using hs, rfl, by simp, by simp [elements],
        by simp [separators], by simp, by simp, by simp⟩
  · obtain ⟨c, a'', m'', hr, hst, halt, hv, hc, hl⟩ := append_reads h
    have hv : t.values = elements (.element v :: .separator :: c) := hv
    have hc : t.separatorCount = separators (.element v :: .separator :: c) := by
      rw [hc, separators_element, separators_separator]; dsimp only; omega
    have hl' : c ≠ [] → t.lastHadSeparator = trailing (.element v :: .separator :: c) := by
      intro hne; rw [hl, trailing_cons2, trailing_sep, if_neg hne, if_neg hne]
    have halt' : alternating (.element v :: .separator :: c) = true := halt
    refine ⟨.element v :: .separator :: c, a'', m'', .element hf (.separator hs hr), ?_, halt', ?_, hv, hc, ?_, ?_, ?_⟩
    · unfold Stops at hst ⊢
      rw [endsInElement_cons2, endsInElement_sep]; exact hst
    · rw [hv]; simp [elements]
    · intro hlt
      cases c with
      | nil => simp [trailing]
      | cons x c => rw [← hl' (by simp)]; exact hlt
    · intro h2
      apply hl'
      rintro rfl
      rw [hv] at h2
      simp [elements] at h2
    · have := alternating_counts _ halt'
      rw [hv, hc]
      split at this
      · exact .inl this
      · exact .inr this

/-- For the examples: commas, and identifiers. -/
def comma : P Extent := token exampleTokens (convTK .Comma) (.Expected .Comma)
def ident : P Extent := token exampleTokens (convTK .Ident) (.Expected .Ident)

/-- The negation for `one_or_more_tailed`: from `a ,` it reads an element and a separator, and does not report the separator
as trailing. -/
theorem C32_false : ∃ (sep f : P Extent) (n : Nat) (a : Amb) (p q : Pt) (t : P.Tailed Extent),
    (P.oneOrMoreTailed sep f n a p).out = .ok q t ∧
    (∃ v a', Reads sep f a p [.element v, .separator] a' q) ∧ t.lastHadSeparator = false :=
  ⟨comma, ident, 1, .Unambiguous, ⟨1, none⟩, ⟨3, none⟩, { values := [⟨2, 3⟩], separatorCount := 1 }, rfl,
    ⟨⟨2, 3⟩, .Unambiguous, .element ⟨[], rfl⟩ (.separator (v := ⟨3, 4⟩) ⟨[], rfl⟩ .nil)⟩, rfl⟩

/-- A parser that fails without consuming, like that of a single token. -/
def FailsInPlace (p : P α) : Prop := ∀ a pt q e a' l, p a pt = ⟨.fail q e, a', l⟩ → q = pt ∧ a' = a

theorem token_failsInPlace (toks : List Token) (conv : Token → Option α) (e : PErr) : FailsInPlace (token toks conv e) := by
  intro a pt q e' a' l h
  unfold token at h
  dsimp only at h
  split at h
  · cases h; exact ⟨rfl, rfl⟩
  · split at h
    · cases h
    · split at h
      · cases h
      · split at h
        · split at h <;> cases h
          exact ⟨rfl, rfl⟩
        · cases h; exact ⟨rfl, rfl⟩

theorem parseTailed_only {sep : P β} {f : P α} {a pt q v a' l} (hsep : FailsInPlace sep)
    (h : P.parseTailed sep f a pt = ⟨.ok q (.valueOnly v), a', l⟩) : Succeeds f a pt v a' q ∧ Fails sep a' q q := by
  unfold P.parseTailed at h
  split at h
  · cases h
  · next hf =>
    split at h
    · next hs =>
      cases h
      obtain ⟨rfl, rfl⟩ := hsep _ _ _ _ _ _ hs
      exact ⟨⟨_, hf⟩, _, _, _, hs⟩
    all_goals cases h
  all_goals cases h

/-- An element that is not complete without a separator is last. -/
def endsOpen (impl : α → Bool) (c : List (Piece α)) : Bool :=
  match c.getLast? with | some (.element v) => !impl v | _ => false

/-- What is read by a list with elements that need no separator. -/
theorem implicit_reads {impl : α → Bool} {sep : P β} {f : P α} (hsep : FailsInPlace sep) {n : Nat} {t : P.Tailed α}
    {a : Amb} {p q : Pt} {t' : P.Tailed α} (h : (P.zeroOrMoreImplicitlyTailed impl sep f n t a p).out = .ok q t') :
    ∃ c a' m, Reads sep f a p c a' m ∧ alternatingImpl impl c = true ∧
      (if endsOpen impl c then Fails sep a' m q else Fails f a' m q) ∧ t'.values = t.values ++ elements c ∧
      t'.lastHadSeparator =
        (let c' := if endsOpen impl c then c.dropLast else c; if c' = [] then t.lastHadSeparator else trailing c') := by
  induction n generalizing t a p with
  | zero => simp [P.zeroOrMoreImplicitlyTailed] at h
  | succ n ih =>
    obtain ⟨m, s, a', l, hp, h⟩ := bind_ok h
    rcases parseTailed_ok hp with ⟨e, rfl, hf⟩ | ⟨v, b, m', rfl, hf, hs⟩ | ⟨v, b, m', w, rfl, hf, hs⟩
    · cases h
      exact ⟨[], _, _, .nil, rfl, by simpa [endsOpen] using hf, by simp [elements], by simp [endsOpen]⟩
    · obtain ⟨hf, hs⟩ := parseTailed_only hsep hp
      dsimp only at h
      split at h
      · next hi =>
        obtain ⟨c, a'', m'', hr, halt, hst, hv, hl⟩ := ih h
        refine ⟨.element v :: c, a'', m'', .element hf hr, ?_, ?_, ?_, ?_⟩
        · cases c with
          | nil => rfl
          | cons x c =>
            cases x with
            | element w => simpa [alternatingImpl, hi] using halt
            | separator => simp [alternatingImpl] at halt
        · cases c with
          | nil => simpa [endsOpen, hi] using hst
          | cons x c =>
            have he : endsOpen impl (.element v :: x :: c) = endsOpen impl (x :: c) := by simp [endsOpen]
            rw [he]; exact hst
        · rw [hv, elements_element]; simp
        · rw [hl]
          cases c with
          | nil => simp [endsOpen, hi, trailing]
          | cons x c =>
            have he : endsOpen impl (.element v :: x :: c) = endsOpen impl (x :: c) := by simp [endsOpen]
            rw [he]
            cases endsOpen impl (x :: c) with
            | false => simp [trailing]
            | true =>
              cases c with
              | nil => simp [trailing]
              | cons y c => simp [trailing]
      · next hi =>
        have hi : impl v = false := by simpa using hi
        cases h
        exact ⟨[.element v], _, _, .element hf .nil, rfl, by simpa [endsOpen, hi] using hs, by simp [elements],
          by simp [endsOpen, hi]⟩
    · obtain ⟨c, a'', m'', hr, halt, hst, hv, hl⟩ := ih h
      refine ⟨.element v :: .separator :: c, a'', m'', .element hf (.separator hs hr), halt, ?_, ?_, ?_⟩
      · cases c with
        | nil => simpa [endsOpen] using hst
        | cons x c =>
          have he : endsOpen impl (.element v :: .separator :: x :: c) = endsOpen impl (x :: c) := by simp [endsOpen]
          rw [he]; exact hst
      · rw [hv, elements_element, elements_separator]; simp
      · rw [hl]
        cases c with
        | nil => simp [endsOpen, trailing]
        | cons x c =>
          have he : endsOpen impl (.element v :: .separator :: x :: c) = endsOpen impl (x :: c) := by simp [endsOpen]
          rw [he]
          cases endsOpen impl (x :: c) with
          | false => simp [trailing]
          | true =>
            cases c with
            | nil => simp [trailing]
            | cons y c => simp [trailing]

/-- `zero_or_more_implicitly_tailed`: the elements in order, and whether a separator was read before an unfinished last element
or, if there is none, last.  What is missing: the trailing separator is not reported right when the last element is unfinished
(`C32_false_implicit`); and the separator is assumed to fail without consuming, as a token does. -/
theorem C32_implicit_partial (impl : α → Bool) (sep : P β) (f : P α) (hsep : FailsInPlace sep) (n : Nat) (a : Amb)
    (p q : Pt) (t : P.Tailed α) (h : (P.zeroOrMoreImplicitlyTailed impl sep f n {} a p).out = .ok q t) :
    ∃ c a' m, Reads sep f a p c a' m ∧ alternatingImpl impl c = true ∧
      (if endsOpen impl c then Fails sep a' m q else Fails f a' m q) ∧ t.values = elements c ∧
      t.lastHadSeparator = trailing (if endsOpen impl c then c.dropLast else c) := by
  obtain ⟨c, a', m, hr, halt, hst, hv, hl⟩ := implicit_reads hsep h
  refine ⟨c, a', m, hr, halt, hst, by simpa using hv, ?_⟩
  rw [hl]
  generalize (if endsOpen impl c = true then c.dropLast else c) = c'
  cases c' <;> rfl

/-- For the examples: `a , a` -/
def exampleTokens' : List Token :=
  [.plain .Ident ⟨0, 1⟩, .plain .Comma ⟨1, 2⟩, .plain .Ident ⟨2, 3⟩, .plain .EndOfFile ⟨3, 3⟩]

def comma' : P Extent := token exampleTokens' (convTK .Comma) (.Expected .Comma)
def ident' : P Extent := token exampleTokens' (convTK .Ident) (.Expected .Ident)

/-- The negation for `zero_or_more_implicitly_tailed`: from `a , a` the last thing read is an element, and a trailing
separator is reported. -/
theorem C32_false_implicit : ∃ (sep f : P Extent) (n : Nat) (a : Amb) (p q : Pt) (t : P.Tailed Extent),
    (P.zeroOrMoreImplicitlyTailed (fun _ => false) sep f n {} a p).out = .ok q t ∧ FailsInPlace sep ∧
    (∃ v w a', Reads sep f a p [.element v, .separator, .element w] a' q) ∧ t.lastHadSeparator = true :=
  ⟨comma', ident', 3, .Unambiguous, ⟨0, none⟩, ⟨3, none⟩,
    { values := [⟨0, 1⟩, ⟨2, 3⟩], separatorCount := 1, lastHadSeparator := true }, rfl, token_failsInPlace _ _ _,
    ⟨⟨0, 1⟩, ⟨2, 3⟩, .Unambiguous,
      .element ⟨[], rfl⟩ (.separator (v := ⟨1, 2⟩) ⟨[], rfl⟩ (.element ⟨[], rfl⟩ .nil))⟩, rfl⟩

example : (P.zeroOrMoreTailed comma' ident' 3 .Unambiguous ⟨0, none⟩).out =
      .ok ⟨3, none⟩ { values := [⟨0, 1⟩, ⟨2, 3⟩], separatorCount := 1, lastHadSeparator := false } ∧
    (P.zeroOrMoreTailed comma ident 3 .Unambiguous ⟨1, none⟩).out =
      .ok ⟨3, none⟩ { values := [⟨2, 3⟩], separatorCount := 1, lastHadSeparator := true } ∧
    (P.oneOrMoreTailed comma' ident' 3 .Unambiguous ⟨0, none⟩).out =
      .ok ⟨3, none⟩ { values := [⟨0, 1⟩, ⟨2, 3⟩], separatorCount := 1, lastHadSeparator := false } := ⟨rfl, rfl, rfl⟩

/-! ## C33 -/

/-- A list that reports no elements stands where its first element failed; if that one failed in place then nothing is
consumed.  What is missing: an element that fails after having consumed something is swallowed (`C33_false`). -/
theorem C33_empty_list_partial (sep : P β) (f : P α) (n : Nat) (a : Amb) (p q : Pt) (t : P.Tailed α)
    (h : (P.zeroOrMoreTailed sep f n a p).out = .ok q t) (ht : t.values = []) :
    Fails f a p q ∧ t.separatorCount = 0 ∧ t.lastHadSeparator = false ∧ (FailsInPlace f → q = p) := by
  obtain ⟨c, a', m, hr, hs, halt, hv, hc, hl, -⟩ := C32_zero_or_more sep f n a p q t h
  have : c = [] := by
    match c, halt with
    | [], _ => rfl
    | [.element _], _ => simp [ht, elements] at hv
    | .element _ :: .separator :: _, _ => simp [ht, elements] at hv
  subst this
  cases hr
  have hf : Fails f a p q := by simpa [Stops, endsInElement] using hs
  refine ⟨hf, by simpa [separators] using hc, by simpa [trailing] using hl, fun hp => ?_⟩
  obtain ⟨e, b, l, h⟩ := hf
  exact (hp _ _ _ _ _ _ h).1

/-- The same for lists with elements that need no separator. -/
theorem C33_empty_implicit_partial (impl : α → Bool) (sep : P β) (f : P α) (hsep : FailsInPlace sep) (n : Nat) (a : Amb)
    (p q : Pt) (t : P.Tailed α) (h : (P.zeroOrMoreImplicitlyTailed impl sep f n {} a p).out = .ok q t)
    (ht : t.values = []) : Fails f a p q ∧ (FailsInPlace f → q = p) := by
  obtain ⟨c, a', m, hr, halt, hs, hv, -⟩ := C32_implicit_partial impl sep f hsep n a p q t h
  have : c = [] := by
    match c, halt with
    | [], _ => rfl
    | .element _ :: _, _ => simp [ht, elements] at hv
  subst this
  cases hr
  have hf : Fails f a p q := by simpa [endsOpen] using hs
  refine ⟨hf, fun hp => ?_⟩
  obtain ⟨e, b, l, h⟩ := hf
  exact (hp _ _ _ _ _ _ h).1

/-- The arguments of the functions in a file, as lists. -/
def argumentCounts (f : File) : List Nat :=
  (subsL f.items).filterMap fun
    | .node .FunctionHeader _ _ vs =>
      (vs.zip (K.fields .FunctionHeader)).findSome? fun | (.list as, ⟨"arguments", _, _⟩) => some as.length | _ => none
    | _ => none

/-- The negation, in a whole file: `a` is consumed by the argument list, which is empty. -/
theorem C33_false : ∃ f, parseRustFile asciiXid true true c!"fn f(a) {}" = .ok f ∧
    decide (argumentCounts f = [0]) = true := FileResult.of_okWith (by decide +kernel)

example : ∃ f, parseRustFile asciiXid true true c!"fn f(a: u8, b: u8) {}" = .ok f ∧
    decide (argumentCounts f = [2]) = true := FileResult.of_okWith (by decide +kernel)

end Verif.Props
