import Verif.Proofs.Layout
import Verif.Props.Space
/-!
# Property theorem: the layout between two tokens can be replaced (C70)
-/

namespace Verif.Props
open Verif Verif.Spec

/-- A place where one token ends and the next starts cuts the tokens in two. -/
theorem spelled_at {X : Xid} (hX : Sane X) {i : Nat} {o : Nat} {ts : List Token} {s : Text} (h : Spec.Spelled X o ts s) :
    o ≤ i → i ≤ o + blen s → (∀ t ∈ ts, t.extent.e ≤ i ∨ i ≤ t.extent.s) →
    ∃ A u R, ts = A ++ u :: R ∧ u.extent.s = i ∧ (∀ t ∈ A, t.extent.e ≤ i ∧ t.extent.s < t.extent.e ∧ o ≤ t.extent.s) := by
  induction h with
  | @done o =>
    intro h1 h2 _
    refine ⟨[], _, [], rfl, ?_, by simp⟩
    simp at h2
    simp [Token.extent]
    omega
  | @token o t body post ts hs h2 ih =>
    intro h1 h3 h4
    obtain ⟨hne, he, -⟩ := spelling_ext hX hs
    rcases h4 t (by simp) with h5 | h5
    · rw [he] at h5
      obtain ⟨A, u, R, rfl, h6, h7⟩ := ih h5 (by rw [blen_append] at h3; omega) fun t ht => h4 t (by simp [ht])
      refine ⟨t :: A, u, R, rfl, h6, ?_⟩
      intro v hv
      rcases List.mem_cons.mp hv with rfl | hv
      · rw [he]
        obtain ⟨x, xs, rfl⟩ := List.exists_cons_of_ne_nil hne
        have := x.utf8Size_pos
        simp at h5 ⊢
        omega
      · have := h7 v hv
        exact ⟨this.1, this.2.1, by omega⟩
    · rw [he] at h5
      exact ⟨[], t, ts, rfl, by rw [he]; simp at h5 ⊢; omega, by simp⟩

/-- White space and comments start with white space or with a slash. -/
theorem spelling_trivia {X : Xid} {o : Nat} {t : Token} {body post : Text} (h : Spelling X o t body post) (ht : isTrivia t = true) :
    StartsIn (fun c => c ∈ wsChars ∨ c = '/') body := by
  cases t with
  | number => simp [isTrivia, Token.kind?] at ht
  | plain k e =>
    by_cases hk : k = .Whitespace
    · obtain ⟨c, cs, h1, h2⟩ := (spelling_blank h (by rw [hk]; rfl)).1
      exact ⟨c, cs, h1, .inl h2⟩
    · obtain ⟨d, r, rfl, -⟩ := (spelling_comment h (k := k) rfl (by
        cases k <;> first | exact absurd rfl hk | decide | (simp [isTrivia, Token.kind?] at ht))).head
      exact ⟨_, _, rfl, .inr rfl⟩

/-- The text with the tokens `ts` is `a ++ w ++ b`, and `w` is white space and comments between two tokens. -/
def LayoutAt (ts : List Token) (a w : Text) : Prop :=
  ∀ t ∈ ts, t.extent.e ≤ blen a ∨ (isTrivia t = true ∧ blen a ≤ t.extent.s ∧ t.extent.e ≤ blen (a ++ w)) ∨ blen (a ++ w) ≤ t.extent.s

/-- The tokens of a text that starts with a layout. -/
theorem layout_split {X : Xid} (hX : Sane X) {ts : List Token} {a w b : Text} (h : Spec.Spelled X 0 ts (a ++ (w ++ b))) (hl : LayoutAt ts a w) :
    ∃ A W U, ts = A ++ (W ++ U.map (·.moved (blen (a ++ w)))) ∧ (∀ t ∈ A, t.extent.e ≤ blen a ∧ t.extent.s < t.extent.e) ∧ (∀ t ∈ W, isTrivia t = true) ∧
      Spec.Spelled X (blen a) (W ++ U.map (·.moved (blen (a ++ w)))) (w ++ b) ∧ Spec.Spelled X 0 U b ∧ U ≠ [] ∧ (w ≠ [] → W ≠ []) := by
  obtain ⟨A, u, R, rfl, h1, h2⟩ := spelled_at hX (i := blen a) h (Nat.zero_le _) (by simp) (fun t ht => by
    rcases hl t ht with h | ⟨-, h, -⟩ | h
    · exact .inl h
    · exact .inr h
    · exact .inr (by simp at h; omega))
  obtain ⟨P, z, he, h3, h4⟩ := spelled_from hX h
  obtain ⟨rfl, rfl⟩ := front_unique he (by omega)
  rw [Nat.zero_add] at h3
  obtain ⟨W, v, B, hWB, h5, h6⟩ := spelled_at hX (i := blen (a ++ w)) h3 (by simp) (by simp) (fun t ht => by
    rcases hl t (by simp at ht ⊢; exact .inr ht) with h | ⟨-, -, h⟩ | h
    · exact .inl (by simp; omega)
    · exact .inl h
    · exact .inr h)
  rw [hWB] at h3
  obtain ⟨P, z, he, h7, h8⟩ := spelled_from hX h3
  obtain ⟨rfl, rfl⟩ := front_unique he (by simp at h5; omega)
  rw [← blen_append] at h7
  obtain ⟨U, hU, hB⟩ := spelled_base hX h7
  rw [hB] at hWB h3
  refine ⟨A, W, U, by rw [← hWB], fun t ht => ⟨(h2 t ht).1, (h2 t ht).2.1⟩, ?_, h3, hU, ?_, ?_⟩
  · intro t ht
    have hm : t ∈ A ++ u :: R := by rw [hWB]; simp [ht]
    have := h6 t ht
    rcases hl t hm with h | ⟨h, -, -⟩ | h
    · omega
    · exact h
    · omega
  · rintro rfl
    simp at hB
  · rintro hw rfl
    rw [List.nil_append, ← hB] at hWB
    cases hWB
    rw [h1] at h5
    obtain ⟨x, xs, rfl⟩ := List.exists_cons_of_ne_nil hw
    have := x.utf8Size_pos
    simp at h5
    omega

/-- What may be put between `a` and `b` instead of `w`: it starts with white space, with a newline if there is a line comment before it,
and has no quote in it.  The other three conditions are on what is before: white space there belongs to `w`; a comment there is not one
that goes on to the end of the text; and if there is nothing yet between a number with a period and what follows, nothing comes there,
because it would make the period a part of the number. -/
structure Fits (ts : List Token) (a w w' b : Text) : Prop where
  blank : StartsIn (· ∈ wsChars) w'
  newline : ∀ u ∈ ts, ∀ k, u.kind? = some k → isLineKind k → u.extent.e = blen a → StartsIn (· = '\n') w'
  quote : '"' ∉ w'
  all : ∀ u ∈ ts, u.kind? = some .Whitespace → u.extent.e ≠ blen a
  more : w ++ b ≠ []
  period : ∀ n, .number n ∈ ts → n.extent.e + 1 = blen a → ['.'] <:+ a → w ≠ []

theorem spelled_after {X : Xid} (hX : Sane X) {o : Nat} {ts : List Token} {s : Text} (h : Spec.Spelled X o ts s) : ∀ t ∈ ts, o ≤ t.extent.s := by
  induction h with
  | done => intro t ht; simp at ht; subst ht; exact Nat.le_refl _
  | token hs _ ih =>
    intro t ht
    rcases List.mem_cons.mp ht with rfl | ht
    · rw [(spelling_ext hX hs).2.1]
      exact Nat.le_refl _
    · have := ih t ht; omega

theorem layout_tokens {X : Xid} (hX : Sane X) {cl : Bool} {a w w' b : Text} {ts us : List Token}
    (h : lex X cl (a ++ w ++ b) = .ok ts) (hl : LayoutAt ts a w) (hf : Fits ts a w w' b)
    (h' : lex X cl (w' ++ b) = .ok us) :
    ∃ A W U, ts = A ++ (W ++ U.map (·.moved (blen (a ++ w)))) ∧ (∀ t ∈ A, t.extent.e ≤ blen a) ∧ (∀ t ∈ W, isTrivia t = true) ∧
      (∀ t ∈ W ++ U.map (·.moved (blen (a ++ w))), blen a ≤ t.extent.s) ∧ Spec.Spelled X 0 U b ∧
      lex X cl (a ++ w' ++ b) = .ok (A ++ us.map (·.moved (blen a))) := by
  rw [lex_spelled hX, List.append_assoc] at h
  rw [lex_spelled hX] at h'
  obtain ⟨A, W, U, rfl, h1, h2, h3, h4, h5, h6⟩ := layout_split hX h hl
  obtain ⟨P, z, he, h7, -, h8⟩ := spelled_layout hX (R := W ++ U.map (·.moved (blen (a ++ w)))) (by simp [h5]) A h
  obtain ⟨t, h9, h10⟩ := spelled_start hX h3
  obtain ⟨t', h11, h12⟩ := spelled_start hX h7
  rw [h9] at h11
  cases h11
  obtain ⟨rfl, rfl⟩ := front_unique he (by omega)
  refine ⟨A, W, U, rfl, fun t ht => (h1 t ht).1, h2, ?_, h4, ?_⟩
  · intro t ht
    exact spelled_after hX h3 t ht
  · rw [lex_spelled hX, List.append_assoc]
    refine h8 rfl hf.more hf.blank hf.quote (fun u hu hk => ?_) (fun n hn he hP => ?_) (fun u hu k hk hlk he => ?_) ?_
    · rw [Nat.zero_add]; exact hf.all u (by simp [hu]) hk
    · rw [Nat.zero_add] at he
      have hw := hf.period n (by simp [hn]) he hP
      have hW := h6 hw
      obtain ⟨x, W, rfl⟩ := List.exists_cons_of_ne_nil hW
      rw [List.cons_append] at h3
      generalize hv : W ++ U.map (·.moved (blen (a ++ w))) = V at h3
      generalize hy : w ++ b = y at h3
      cases h3 with
      | done => exact absurd (List.append_eq_nil_iff.mp hy).1 hw
      | token hs _ =>
        obtain ⟨c, cs, rfl, hc⟩ := spelling_trivia hs (h2 _ (by simp))
        rintro (⟨d, r, e, hd⟩ | ⟨d, r, e, hd⟩)
        · cases e
          subst hd
          rcases hc with hc | hc
          · exact absurd hc (by decide)
          · cases hc
        · cases e
          rcases hc with hc | rfl
          · exact ws_not_start hX hc hd
          · exact not_start hX '/' (by decide) hd
    · rw [Nat.zero_add] at he; exact hf.newline u (by simp [hu]) k hk hlk he
    · have := spelled_moved h' (blen a)
      simpa using this

/-- The layout between two tokens, or nothing, is replaced by another layout.  What is before has the tokens that it had; the new layout
and what is behind it have the tokens that they have without what is before. -/
theorem C70_layout_tokens (X : Xid) (hX : Sane X) (cl : Bool) (a w w' b : Text) (ts us : List Token)
    (h : lex X cl (a ++ w ++ b) = .ok ts) (hl : LayoutAt ts a w) (hf : Fits ts a w w' b)
    (h' : lex X cl (w' ++ b) = .ok us) :
    ∃ A R, ts = A ++ R ∧ (∀ t ∈ A, t.extent.e ≤ blen a) ∧ (∀ t ∈ R, blen a ≤ t.extent.s) ∧
      lex X cl (a ++ w' ++ b) = .ok (A ++ us.map (·.moved (blen a))) := by
  obtain ⟨A, W, U, h1, h2, -, h3, -, h4⟩ := layout_tokens hX h hl hf h'
  exact ⟨A, _, h1, h2, h3, h4⟩

/-- The layout between two tokens, or nothing, is replaced by another layout.  If the text was accepted, it still is, with a tree of the
same shape; if it was rejected, it still is, for the same reasons and at the same token. -/
theorem C70_layout (X : Xid) (hX : Sane X) (cl cp : Bool) (a w w' b : Text) (ts us : List Token)
    (h : lex X cl (a ++ w ++ b) = .ok ts) (hl : LayoutAt ts a w) (hf : Fits ts a w w' b)
    (h' : lex X cl (w' ++ b) = .ok us) (hl' : LayoutAt us [] w') :
    ∃ ts', lex X cl (a ++ w' ++ b) = .ok ts' ∧
      SameOutcome (ts.filter fun t => !isTrivia t) (ts'.filter fun t => !isTrivia t)
        (parseRustFile X cl cp (a ++ w ++ b)) (parseRustFile X cl cp (a ++ w' ++ b)) := by
  obtain ⟨A, W, U, rfl, -, h1, -, h2, h3⟩ := layout_tokens hX h hl hf h'
  refine ⟨_, h3, C41_layout X X cl cl cp _ _ _ _ h h3 ?_⟩
  rw [lex_spelled hX] at h'
  obtain ⟨A', W', U', rfl, h4, h5, h6, h7, -⟩ := layout_split hX (a := []) h' hl'
  have hnil : A' = [] := by
    cases A' with
    | nil => rfl
    | cons x A' =>
      have := h4 x (by simp)
      simp at this
      omega
  subst hnil
  have e : U' = U := spelled_unique hX h2 h7
  subst e
  have tr : ∀ (d : Nat) (B : List Token), (B.map (·.moved d)).filter (fun t => !isTrivia t) = (B.filter fun t => !isTrivia t).map (·.moved d) := by
    intro d B
    rw [List.filter_map]
    congr 1
    exact List.filter_congr fun t _ => by simp [isTrivia_moved]
  have no : ∀ W : List Token, (∀ t ∈ W, isTrivia t = true) → W.filter (fun t => !isTrivia t) = [] := by
    intro W h
    rw [List.filter_eq_nil_iff]
    intro t ht
    simp [h t ht]
  simp only [List.nil_append, List.map_append, List.filter_append, tr, no W h1, no W' h5]
  refine sameKinds_append (sameKinds_refl _) ?_
  rw [List.map_nil, List.nil_append, List.map_map]
  generalize U'.filter (fun t => !isTrivia t) = L
  induction L with
  | nil => exact .nil
  | cons t L ih => exact .cons (by cases t <;> simp [SameKind, Token.moved, Number.moved]) ih

/-- The layout between two tokens, or nothing, is replaced by white space: so comments can be left out, and white space can be put between
two tokens. -/
theorem C70_space (X : Xid) (hX : Sane X) (cl cp : Bool) (a w w' b : Text) (ts : List Token)
    (h : lex X cl (a ++ w ++ b) = .ok ts) (hl : LayoutAt ts a w) (hf : Fits ts a w w' b) (hw : ∀ c ∈ w', c ∈ wsChars)
    (hb : ¬ StartsIn (· ∈ wsChars) b) :
    ∃ ts', lex X cl (a ++ w' ++ b) = .ok ts' ∧
      SameOutcome (ts.filter fun t => !isTrivia t) (ts'.filter fun t => !isTrivia t)
        (parseRustFile X cl cp (a ++ w ++ b)) (parseRustFile X cl cp (a ++ w' ++ b)) := by
  have hs := h
  rw [lex_spelled hX, List.append_assoc] at hs
  obtain ⟨A, W, U, -, -, -, -, h1, -⟩ := layout_split hX hs hl
  have h2 := spelled_moved h1 (blen w')
  have hne : w' ≠ [] := by
    obtain ⟨c, cs, rfl, -⟩ := hf.blank
    simp
  have h3 : Spec.Spelled X 0 (.plain .Whitespace ⟨0, 0 + blen w'⟩ :: U.map (·.moved (blen w'))) (w' ++ b) := .token (.ws hne hw hb) h2
  refine C70_layout X hX cl cp a w w' b ts _ h hl hf ((lex_spelled hX cl _ _).mpr h3) ?_
  intro t ht
  rcases List.mem_cons.mp ht with rfl | ht
  · exact .inr (.inl ⟨rfl, by simp, by simp [Token.extent]⟩)
  · exact .inr (.inr (by have := spelled_after hX h2 t ht; simpa using this))

instance (ts : List Token) (a w : Text) : Decidable (LayoutAt ts a w) := by unfold LayoutAt; infer_instance

/-- The hypotheses are met: a comment, next to the tokens around it, is replaced by white space and a comment of another kind. -/
example : ∃ ts us, lex asciiXid true (c!"fn f(x: u8" ++ c!"/* c */" ++ c!") {}") = .ok ts ∧ LayoutAt ts c!"fn f(x: u8" c!"/* c */" ∧
    Fits ts c!"fn f(x: u8" c!"/* c */" c!" // d\n" c!") {}" ∧ lex asciiXid true (c!" // d\n" ++ c!") {}") = .ok us ∧ LayoutAt us [] c!" // d\n" := by
  obtain ⟨ts, h1, h2⟩ := LexResult.of_okWith (r := lex asciiXid true (c!"fn f(x: u8" ++ c!"/* c */" ++ c!") {}"))
    (p := fun ts => decide (LayoutAt ts c!"fn f(x: u8" c!"/* c */" ∧ ∀ u ∈ ts, u.extent.e = blen c!"fn f(x: u8" → u.kind? = some .Ident)) (by decide +kernel)
  obtain ⟨us, h3, h4⟩ := LexResult.of_okWith (r := lex asciiXid true (c!" // d\n" ++ c!") {}"))
    (p := fun us => decide (LayoutAt us [] c!" // d\n")) (by decide +kernel)
  obtain ⟨h2, h5⟩ := of_decide_eq_true h2
  refine ⟨ts, us, h1, h2, ⟨⟨_, _, rfl, by decide⟩, ?_, by decide, ?_, by decide, fun _ _ _ _ => by decide⟩, h3, of_decide_eq_true h4⟩
  · intro u hu k hk hlk he
    rw [h5 u hu he] at hk
    cases hk
    rcases hlk with h | h | h <;> cases h
  · intro u hu hk he
    rw [h5 u hu he] at hk
    cases hk

/-- The hypotheses are met: white space is put where there was nothing, behind a number. -/
example : ∃ ts, lex asciiXid true (c!"const A: u8 = 1" ++ [] ++ c!"..2;") = .ok ts ∧ LayoutAt ts c!"const A: u8 = 1" [] ∧
    Fits ts c!"const A: u8 = 1" [] c!"\t\n" c!"..2;" ∧ (∀ c ∈ c!"\t\n", c ∈ wsChars) ∧ ¬ StartsIn (· ∈ wsChars) c!"..2;" := by
  obtain ⟨ts, h1, h2⟩ := LexResult.of_okWith (r := lex asciiXid true (c!"const A: u8 = 1" ++ [] ++ c!"..2;"))
    (p := fun ts => decide (LayoutAt ts c!"const A: u8 = 1" [] ∧ ∀ u ∈ ts, u.extent.e = blen c!"const A: u8 = 1" → u.kind? = none)) (by decide +kernel)
  obtain ⟨h2, h5⟩ := of_decide_eq_true h2
  refine ⟨ts, h1, h2, ⟨⟨_, _, rfl, by decide⟩, ?_, by decide, ?_, by decide, fun _ _ _ h => absurd h (by decide)⟩, by decide, ?_⟩
  · intro u hu k hk hlk he
    rw [h5 u hu he] at hk
    cases hk
  · intro u hu hk he
    rw [h5 u hu he] at hk
    cases hk
  · rintro ⟨d, t, e, hd⟩
    cases e
    exact absurd hd (by decide)

/-- The condition on numbers is needed: `1.f` is a number, a period and a name, `1. f` a number and a name. -/
example : (∃ ts, lex asciiXid true (c!"1." ++ [] ++ c!"f") = .ok ts ∧ (ts.filter fun t => !isTrivia t).length = 4) ∧
    ∃ ts, lex asciiXid true (c!"1." ++ c!" " ++ c!"f") = .ok ts ∧ (ts.filter fun t => !isTrivia t).length = 3 := by
  refine ⟨?_, ?_⟩
  · obtain ⟨ts, h1, h2⟩ := LexResult.of_okWith (r := lex asciiXid true (c!"1." ++ [] ++ c!"f"))
      (p := fun ts => (ts.filter fun t => !isTrivia t).length == 4) (by decide +kernel)
    exact ⟨ts, h1, by simpa using h2⟩
  · obtain ⟨ts, h1, h2⟩ := LexResult.of_okWith (r := lex asciiXid true (c!"1." ++ c!" " ++ c!"f"))
      (p := fun ts => (ts.filter fun t => !isTrivia t).length == 3) (by decide +kernel)
    exact ⟨ts, h1, by simpa using h2⟩

/-- The condition on quotes is needed: behind `br#`, a quote and a hash in the new comment end a raw byte string. -/
example : (∃ ts, lex asciiXid true (c!"br#\"a\"" ++ c!" " ++ c!"b") = .ok ts ∧ (ts.filter fun t => !isTrivia t).length = 5) ∧
    ∃ ts, lex asciiXid true (c!"br#\"a\"" ++ c!" /*\"#x*/ " ++ c!"b") = .ok ts ∧ (ts.filter fun t => !isTrivia t).length ≠ 5 := by
  refine ⟨?_, ?_⟩
  · obtain ⟨ts, h1, h2⟩ := LexResult.of_okWith (r := lex asciiXid true (c!"br#\"a\"" ++ c!" " ++ c!"b"))
      (p := fun ts => (ts.filter fun t => !isTrivia t).length == 5) (by decide +kernel)
    exact ⟨ts, h1, by simpa using h2⟩
  · obtain ⟨ts, h1, h2⟩ := LexResult.of_okWith (r := lex asciiXid true (c!"br#\"a\"" ++ c!" /*\"#x*/ " ++ c!"b"))
      (p := fun ts => (ts.filter fun t => !isTrivia t).length != 5) (by decide +kernel)
    exact ⟨ts, h1, by simpa using h2⟩

end Verif.Props
