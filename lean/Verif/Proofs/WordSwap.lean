import Verif.Proofs.LiteralSwap
/-!
# The tokens before a number, a byte literal or a raw string do not depend on which one it is
-/

namespace Verif
open Spec

attribute [local irreducible] singleToken

/-- The digits. -/
def digitHeads : Text := c!"0123456789"

/-- A character that may both start and continue a word. -/
def Letter (X : Xid) (c : Char) : Prop := WordStart X c ∧ X.cont c = true

/-- Two texts that both start with a digit, or both with a letter. -/
def LikeHead (X : Xid) (z z' : Text) : Prop :=
  ∃ c c' t t', z = c :: t ∧ z' = c' :: t' ∧ ((c ∈ digitHeads ∧ c' ∈ digitHeads) ∨ (Letter X c ∧ Letter X c'))

theorem digit_cont {X : Xid} (hX : Sane X) : ∀ c ∈ digitHeads, X.cont c = true := by
  have key : ∀ c ∈ digitHeads, c.toNat < 128 ∧ (c.isAlphanum || decide (c = '_')) = true := by decide
  intro c hc
  rw [hX.cont c (key c hc).1, (key c hc).2]

theorem letter_ascii {X : Xid} (hX : Sane X) : ∀ c ∈ c!"br", Letter X c := by
  have key : ∀ c ∈ c!"br", c.toNat < 128 ∧ c.isAlpha = true ∧ (c.isAlphanum || decide (c = '_')) = true := by decide
  intro c hc
  obtain ⟨h1, h2, h3⟩ := key c hc
  exact ⟨.inl (by rw [hX.start c h1, h2]), by rw [hX.cont c h1, h3]⟩

/-- What such a head is not. -/
theorem wordHead_plain {X : Xid} (hX : Sane X) {c : Char} (h : c ∈ digitHeads ∨ Letter X c) :
    X.cont c = true ∧ c ∉ c!"'\"#" ∧ c ∉ c!"/*!" ∧ c ∉ wsChars ∧ c ≠ '\n' ∧ c ∉ symHeads := by
  rcases h with h | h
  · have key : ∀ c ∈ digitHeads, c ∉ c!"'\"#" ∧ c ∉ c!"/*!" ∧ c ∉ wsChars ∧ c ≠ '\n' ∧ c ∉ symHeads := by decide
    exact ⟨digit_cont hX c h, key c h⟩
  · have no : ∀ d ∈ symHeads ++ c!"'\"0123456789", c ≠ d := fun d hd e => not_start hX d hd (e ▸ h.1)
    have hws : c ∉ wsChars := fun hm => by have := (hX.ws c hm).2; rw [h.2] at this; cases this
    have k1 : ∀ d ∈ c!"'\"#", d ∈ symHeads ++ c!"'\"0123456789" := by decide
    have k2 : ∀ d ∈ c!"/*!", d ∈ symHeads ++ c!"'\"0123456789" := by decide
    exact ⟨h.2, fun hm => no _ (k1 _ hm) rfl, fun hm => no _ (k2 _ hm) rfl, hws, fun e => hws (by rw [e]; decide),
      fun hm => no _ (List.mem_append_left _ hm) rfl⟩

theorem numText_word {X : Xid} (hX : Sane X) {p : NumParts} {x c c' : Char} {P r r' : Text}
    (hc : (c ∈ digitHeads ∧ c' ∈ digitHeads) ∨ (Letter X c ∧ Letter X c'))
    (h : NumText X p (x :: P ++ c :: r)) : NumText X p (x :: P ++ c' :: r') := by
  have sw : ∀ {Q : Char → Prop} (a : Text), ¬ StartsIn Q (a ++ (x :: P ++ c :: r)) → ¬ StartsIn Q (a ++ (x :: P ++ c' :: r')) := by
    intro Q a h
    rw [List.cons_append] at h ⊢
    exact fun h' => h ((startsIn_swap a x _ _).mp h')
  have alpha : ∀ m ∈ c!"boxeE", WordStart X m := by
    have key : ∀ m ∈ c!"boxeE", m.toNat < 128 ∧ m.isAlpha = true := by decide
    intro m hm
    exact .inl (by rw [hX.start m (key m hm).1, (key m hm).2])
  -- what is cut off the front is not more than what stands before the place
  have cut : ∀ (a q t : Text), q.length ≤ (a ++ x :: P).length → a ++ (x :: P ++ c' :: r') = q ++ t →
      ∃ y, a ++ x :: P = q ++ y ∧ t = y ++ c' :: r' := by
    intro a q t hl e
    rw [← List.append_assoc] at e
    rcases List.append_eq_append_iff.mp e with ⟨y, h1, h2⟩ | ⟨y, h1, h2⟩
    · have : y = [] := by
        rw [h1, List.length_append] at hl
        exact List.length_eq_zero_iff.mp (by omega)
      subst this
      exact ⟨[], by simpa using h1.symm, by simpa using h2.symm⟩
    · exact ⟨y, h1, h2⟩
  have nosuf : ∀ m : Char, WordStart X m → x = m → p.sufText = [] → False := by
    intro m hm e hs
    cases hp : p.suf with
    | none => exact h.noSuf hp ⟨_, _, rfl, by rw [e]; exact hm⟩
    | some w =>
      obtain ⟨y, ys, rfl, -⟩ := (h.suf w hp).1
      simp [NumParts.sufText, hp] at hs
  constructor
  · exact h.ne
  · exact h.digits
  · exact sw _ h.longest
  · intro hb b hb' t e
    have hne : p.text ≠ [] := by simp [NumParts.text, h.ne]
    have hlen : (basePrefix b).length ≤ 2 := by cases b <;> decide
    obtain ⟨y, h1, rfl⟩ := cut _ _ _ (by
      have : p.text.length ≠ 0 := fun h => hne (List.length_eq_zero_iff.mp h)
      simp
      omega) e
    cases y with
    | cons d y =>
      have := h.decimal hb b hb' (d :: y ++ c :: r) (by rw [← List.append_assoc, h1, List.append_assoc])
      exact fun h' => this ((startsIn_swap [] d _ _).mp h')
    | nil =>
      exfalso
      obtain ⟨m, hm, hbm⟩ : ∃ m ∈ c!"boxeE", basePrefix b = ['0', m] := by
        cases b with
        | Decimal => exact absurd rfl hb'
        | _ => exact ⟨_, by decide, rfl⟩
      rw [hbm] at h1
      obtain ⟨i, is, hi⟩ := List.exists_cons_of_ne_nil h.ne
      have hb0 : basePrefix p.base = [] := by rw [hb]; rfl
      simp only [NumParts.text, hb0, hi, List.nil_append, List.cons_append, List.append_nil, List.cons.injEq] at h1
      have h2 := congrArg List.length h1.2
      simp at h2
      have hs : p.sufText = [] := List.length_eq_zero_iff.mp (by omega)
      have h3 := h1.2
      have e1 : is = [] := List.length_eq_zero_iff.mp (by omega)
      have e2 : p.fracText = [] := List.length_eq_zero_iff.mp (by omega)
      have e3 : p.expText = [] := List.length_eq_zero_iff.mp (by omega)
      rw [e1, e2, e3, hs] at h3
      simp at h3
      exact nosuf m (alpha m hm) h3.1 hs
  · intro ds hf
    have h1 := h.frac ds hf
    refine ⟨h1.digits, sw _ h1.longest, ?_, ?_⟩
    · have := h1.notRange
      rw [← List.append_assoc] at this ⊢
      exact sw _ this
    · have := h1.notAccess
      rw [← List.append_assoc] at this ⊢
      exact sw _ this
  · intro hf t e
    obtain ⟨y, h1, rfl⟩ := cut (p.expText ++ p.sufText) ['.'] t (by simp; omega) (by simpa using e)
    have h0 := h.noFrac hf (y ++ c :: r) (by rw [← List.append_assoc, h1]; rfl)
    cases y with
    | cons d y => exact h0.imp (startsIn_swap [] d _ _).mp (startsIn_swap [] d _ _).mp
    | nil =>
      rcases hc with ⟨h2, -⟩ | ⟨-, h2⟩
      · exfalso
        rcases h0 with ⟨d, t, e, hd⟩ | ⟨d, t, e, hd⟩
        · cases e; subst hd; exact absurd h2 (by decide)
        · cases e
          have key : ∀ d ∈ digitHeads, d ∈ symHeads ++ c!"'\"0123456789" := by decide
          exact not_start hX _ (key _ h2) hd
      · exact .inr ⟨_, _, rfl, h2.1⟩
  · intro m ds he
    obtain ⟨h1, h2, h3, h4⟩ := h.exp m ds he
    exact ⟨h1, h2, h3, sw _ h4⟩
  · intro he m t e hm
    obtain ⟨y, h1, rfl⟩ := cut p.sufText [m] t (by simp; omega) (by simpa using e)
    cases y with
    | cons d y =>
      have := h.noExp he m (d :: y ++ c :: r) (by rw [← List.append_assoc, h1]; rfl) hm
      exact fun h' => this ((startsIn_swap [] d _ _).mp h')
    | nil =>
      exfalso
      have h2 := congrArg List.length h1
      simp at h2
      have hs : p.sufText = [] := List.length_eq_zero_iff.mp (by omega)
      rw [hs] at h1
      simp at h1
      exact nosuf m (alpha m (by rcases hm with rfl | rfl <;> decide)) h1.1 hs
  · intro w hs
    refine ⟨(h.suf w hs).1, fun d t e => ?_⟩
    cases e
    exact (h.suf w hs).2 _ _ rfl
  · intro hs
    exact sw [] (h.noSuf hs)

/-- A token stays the same if what comes later, which starts with a digit or a letter, is replaced. -/
theorem spelling_word {X : Xid} (hX : Sane X) {o : Nat} {t : Token} {body P z z' : Text} (hz : LikeHead X z z') (hcl : ClosesIn z z')
    (hn : StartsIn (· ∈ digitHeads) z → ∀ n, t = .number n → P ≠ [])
    (hP : P = [] ∨ ∃ o2 t2 body2 P2, P = body2 ++ P2 ∧ Spelling X o2 t2 body2 (P2 ++ z))
    (h : Spelling X o t body (P ++ z)) : Spelling X o t body (P ++ z') := by
  obtain ⟨c, c', r, r', rfl, rfl, hc⟩ := hz
  have hm : c ∈ digitHeads ∨ Letter X c := hc.imp And.left And.left
  have hm' : c' ∈ digitHeads ∨ Letter X c' := hc.imp And.right And.right
  have hh := wordHead_plain hX hm
  have hh' := wordHead_plain hX hm'
  have plain := hh'.2.1
  have some' : NoCont X (P ++ c :: r) → ∃ x P', P = x :: P' := by
    intro h
    cases P with
    | nil => have := h c _ rfl; rw [hh.1] at this; cases this
    | cons x P => exact ⟨x, P, rfl⟩
  have noc' : NoCont X (P ++ c :: r) → NoCont X (P ++ c' :: r') := by
    intro h d t e
    obtain ⟨x, P, rfl⟩ := some' h
    cases e; exact h _ _ rfl
  generalize hx : P ++ c :: r = post at h
  cases h with
  | @ident w0 _ hw hk hp' hl hr' =>
    subst hx
    obtain ⟨h1, h2⟩ := literal_layout hX plain (fun h0 => by obtain ⟨x, P', rfl⟩ := some' hp'; cases h0) hcl hP hw hp' hl hr'
    exact .ident hw hk (noc' hp') h1 h2
  | keyword hk hp' => subst hx; exact .keyword hk (noc' hp')
  | rawIdent hw hp' => subst hx; exact .rawIdent hw (noc' hp')
  | @symbol k w0 _ hk hlong hck =>
    subst hx
    refine .symbol hk (fun k' w1 hk' hp' => hlong k' w1 hk' ?_) ?_
    · have key : ∀ r ∈ symbolTable, ∀ d ∈ r.1, d ∈ symHeads := by decide
      rw [← List.append_assoc, prefix_stop (fun hm => hh'.2.2.2.2.2 (key _ (symbolText_table k' w1 hk') _ hm))] at hp'
      rw [← List.append_assoc]
      exact prefix_more hp' _
    · rw [← List.append_assoc, commentKind_stop hh'.2.2.1]
      rw [← List.append_assoc, commentKind_stop hh.2.2.1] at hck
      exact hck
  | char hb => exact .char hb
  | str hb => exact .str hb
  | strRaw hb => exact .strRaw (rawStr_post hb)
  | byte hb => exact .byte hb
  | byteStr hb => exact .byteStr hb
  | byteStrRaw hb => exact .byteStrRaw (rawStr_post hb)
  | lifetime hw hp' hq =>
    subst hx
    refine .lifetime hw (noc' hp') fun h => hq ⟨h.1, ?_⟩
    obtain ⟨x, P, rfl⟩ := some' hp'
    exact (startsIn_swap [] x _ _).mp h.2
  | @number p _ hnum hu =>
    subst hx
    obtain ⟨x, P, rfl⟩ : ∃ x P', P = x :: P' := by
      cases P with
      | cons x P => exact ⟨x, P, rfl⟩
      | nil =>
        exfalso
        rcases hc with ⟨h1, -⟩ | ⟨h1, -⟩
        · exact hn ⟨_, _, rfl, h1⟩ _ rfl rfl
        · cases hs : p.suf with
          | none => exact hnum.noSuf hs ⟨_, _, rfl, h1.1⟩
          | some w => have := (hnum.suf w hs).2 _ _ rfl; rw [hh.1] at this; cases this
    exact .number (numText_word hX hc hnum) hu
  | @line k body _ hk hck hlt =>
    subst hx
    obtain ⟨P', rfl⟩ : ∃ P', P = '\n' :: P' := by
      cases P with
      | nil => exact absurd (hlt.2 c _ rfl) hh.2.2.2.2.1
      | cons x P => exact ⟨P, by rw [hlt.2 x _ rfl]⟩
    refine .line hk ?_ ⟨hlt.1, fun d t e => by cases e; rfl⟩
    rw [List.cons_append, commentKind_stop (by decide)] at hck ⊢
    exact hck
  | @block k op _ _ hk hck hb =>
    subst hx
    rcases hb with ⟨inner, rfl, hf⟩ | ⟨inner, rfl, hn, h⟩
    · refine .block hk ?_ (.inl ⟨inner, rfl, firstOcc_post hf⟩)
      rw [← hck]
      refine commentKind_long ?_ _ _
      have : 2 ≤ op.length := by cases k <;> simp [blockOpener] at hk <;> subst hk <;> decide
      simp
      omega
    · simp at h
  | ws h1 h2 h3 =>
    subst hx
    refine .ws h1 h2 ?_
    cases P with
    | nil =>
      rintro ⟨d, t, e, hd⟩
      cases e
      exact hh'.2.2.2.1 hd
    | cons x P => exact fun h => h3 ((startsIn_swap [] x _ _).mp h)

/-- What starts with a digit or a letter behind the tokens `A` can be replaced. -/
theorem spelled_word {X : Xid} (hX : Sane X) {t : Token} (hk : t.kind? ≠ some .EndOfFile) {B : List Token} :
    ∀ (A : List Token) {o : Nat} {s : Text}, Spelled X o (A ++ t :: B) s → ∃ P w b, s = P ++ (w ++ b) ∧ Spelling X (o + blen P) t w b ∧
      Spelled X (o + blen P + blen w) B b ∧
      (P = [] ∨ ∃ o2 t2 body2 P2, P = body2 ++ P2 ∧ Spelling X o2 t2 body2 (P2 ++ (w ++ b))) ∧
      ∀ {w' : Text} {t' : Token} {B' : List Token}, LikeHead X (w ++ b) (w' ++ b) → ClosesIn (w ++ b) (w' ++ b) →
        (StartsIn (· ∈ digitHeads) (w ++ b) → ∀ n, .number n ∈ A → n.extent.e ≠ o + blen P) →
        Spelling X (o + blen P) t' w' b → Spelled X (o + blen P + blen w') B' b → Spelled X o (A ++ t' :: B') (P ++ (w' ++ b)) := by
  intro A
  induction A with
  | nil =>
    intro o s h
    cases h with
    | done => exact absurd rfl hk
    | @token _ _ body post _ h1 h2 =>
      exact ⟨[], body, post, rfl, h1, h2, .inl rfl, fun {w' t' B'} _ _ _ h3 h4 => Spelled.token (off := o) (body := w') h3 h4⟩
  | cons a A ih =>
    intro o s h
    rw [List.cons_append] at h
    generalize hx : A ++ t :: B = us at h
    cases h with
    | done => simp at hx
    | @token _ _ body post _ h1 h2 =>
      subst hx
      obtain ⟨P, w, b, rfl, h3, h4, h5, h6⟩ := ih h2
      have e : ∀ x : Text, o + blen body + blen P + blen x = o + blen (body ++ P) + blen x := fun x => by rw [blen_append]; omega
      have e0 : o + blen body + blen P = o + blen (body ++ P) := by rw [blen_append]; omega
      rw [e] at h4
      rw [e0] at h3 h6
      have hend := (spelling_ext hX h1).2.1
      refine ⟨body ++ P, w, b, by simp, h3, h4, .inr ⟨o, a, body, P, rfl, h1⟩, fun {w' t' B'} hh hcl hn h7 h8 => ?_⟩
      rw [List.append_assoc]
      refine .token (spelling_word hX hh hcl ?_ h5 h1) (h6 hh hcl (fun hd n hm => hn hd n (by simp [hm])) h7 h8)
      rintro hd n rfl rfl
      have : n.extent = ⟨o, o + blen body⟩ := hend
      exact hn hd n (by simp) (by rw [this]; simp)

end Verif
