import Verif.Proofs.LiteralSwap
/-!
# The tokens before a layout do not depend on which layout it is
-/

namespace Verif
open Spec

attribute [local irreducible] singleToken

theorem numText_layout {X : Xid} (hX : Sane X) {p : NumParts} {c' : Char} {P z r' : Text} (hc' : c' ∈ wsChars)
    (hd : P = ['.'] → ¬ (StartsIn (· = '.') z ∨ StartsIn (WordStart X) z)) (h : NumText X p (P ++ z)) : NumText X p (P ++ c' :: r') := by
  obtain ⟨-, -, m1, m2, m3, m4⟩ := ws_plain hc'
  have w2 := ws_not_start hX hc'
  have sw : ∀ {Q : Char → Prop} (a : Text), ¬ Q c' → ¬ StartsIn Q (a ++ (P ++ z)) → ¬ StartsIn Q (a ++ (P ++ c' :: r')) := by
    intro Q a hQ h
    rw [← List.append_assoc] at h ⊢
    rintro ⟨d, t, e, hd⟩
    cases hy : a ++ P with
    | nil => rw [hy] at e; cases e; exact hQ hd
    | cons y ys => rw [hy] at e h; cases e; exact h ⟨_, _, rfl, hd⟩
  have sw' : ∀ {Q : Char → Prop} (x : Char) (a : Text), StartsIn Q (x :: a ++ z) → StartsIn Q (x :: a ++ c' :: r') := by
    rintro Q x a ⟨d, t, e, hd⟩
    cases e
    exact ⟨_, _, rfl, hd⟩
  have sw2 : ∀ {Q : Char → Prop} (a : Text), ¬ Q c' → ¬ StartsIn Q (a ++ z) → ¬ StartsIn Q (a ++ c' :: r') := by
    rintro Q a hQ h ⟨d, t, e, hd⟩
    cases a with
    | nil => cases e; exact hQ hd
    | cons y ys => cases e; exact h ⟨_, _, rfl, hd⟩
  have dg : ∀ b, ¬ DigitOr_ b c' := fun b h => h.elim (m3 b) m2
  have dot : ¬ c' = '.' := fun h => m1 (by rw [h]; decide)
  have dotted : p.expText ++ p.sufText ++ P = ['.'] ++ [] → ¬ (StartsIn (· = '.') z ∨ StartsIn (WordStart X) z) := by
    intro e
    cases he : p.exp with
    | some r =>
      obtain ⟨m, ds⟩ := r
      simp [NumParts.expText, he] at e
      have := (h.exp m ds he).1
      rw [e.1] at this
      rcases this with h | h <;> cases h
    | none =>
      cases hs : p.suf with
      | some w =>
        obtain ⟨x, xs, rfl, hx, -⟩ := (h.suf w hs).1
        simp [NumParts.expText, NumParts.sufText, he, hs] at e
        rw [e.1] at hx
        exact absurd hx (not_start hX '.' (by decide))
      | none =>
        simp [NumParts.expText, NumParts.sufText, he, hs] at e
        exact hd e
  constructor
  · exact h.ne
  · exact h.digits
  · exact sw _ (dg _) h.longest
  · intro hb b hb' t e
    rw [← List.append_assoc] at e
    obtain ⟨y, h1, rfl⟩ := cut_stop (m4 b) e
    exact sw2 y (dg _) (h.decimal hb b hb' (y ++ z) (by rw [← List.append_assoc, h1, List.append_assoc]))
  · intro ds hf
    have h1 := h.frac ds hf
    refine ⟨h1.digits, sw _ (dg _) h1.longest, ?_, ?_⟩
    · have := h1.notRange
      rw [← List.append_assoc] at this ⊢
      exact sw _ dot this
    · have := h1.notAccess
      rw [← List.append_assoc] at this ⊢
      exact sw _ w2 this
  · intro hf t e
    rw [← List.append_assoc] at e
    obtain ⟨y, h1, rfl⟩ := cut_stop (p := ['.']) (t := t) (by simpa using dot) e
    have h0 := h.noFrac hf (y ++ z) (by rw [← List.append_assoc, h1]; rfl)
    cases y with
    | nil =>
      exfalso
      simp at h0
      exact dotted h1 h0
    | cons x y => exact h0.imp (sw' x y) (sw' x y)
  · intro m ds he
    obtain ⟨h1, h2, h3, h4⟩ := h.exp m ds he
    exact ⟨h1, h2, h3, sw _ (dg _) h4⟩
  · intro he m t e hm
    rw [← List.append_assoc] at e
    obtain ⟨y, h1, rfl⟩ := cut_stop (p := [m]) (t := t) (by
      intro hx
      simp at hx
      rcases hm with rfl | rfl <;> exact m1 (by rw [hx]; decide)) e
    exact sw2 y (dg _) (h.noExp he m (y ++ z) (by rw [← List.append_assoc, h1]; rfl) hm)
  · intro w hs
    refine ⟨(h.suf w hs).1, fun d t e => ?_⟩
    cases P with
    | nil => cases e; exact (hX.ws c' hc').2
    | cons x P => cases e; exact (h.suf w hs).2 _ _ rfl
  · intro hs
    exact sw [] w2 (h.noSuf hs)

/-- A token stays the same if what comes later, between two tokens, is replaced by something that starts with white space. -/
theorem spelling_layout {X : Xid} (hX : Sane X) {o : Nat} {t : Token} {body P w w' b : Text}
    (hne : w ++ b ≠ []) (hw' : StartsIn (· ∈ wsChars) w') (hq : '"' ∉ w')
    (hs : t.kind? = some .Whitespace → P ≠ [])
    (hdot : ∀ n, t = .number n → P = ['.'] → ¬ (StartsIn (· = '.') (w ++ b) ∨ StartsIn (WordStart X) (w ++ b)))
    (hl : ∀ k, t.kind? = some k → isLineKind k → P = [] → StartsIn (· = '\n') w')
    (hP : P = [] ∨ ∃ o2 t2 body2 P2, P = body2 ++ P2 ∧ Spelling X o2 t2 body2 (P2 ++ (w ++ b)))
    (h : Spelling X o t body (P ++ (w ++ b))) : Spelling X o t body (P ++ (w' ++ b)) := by
  obtain ⟨c', cs', rfl, hc'⟩ := hw'
  have plain := (ws_plain hc').1
  have noc' : NoCont X (P ++ (w ++ b)) → NoCont X (P ++ (c' :: cs' ++ b)) := by
    intro h d t e
    cases P with
    | nil => cases e; exact (hX.ws c' hc').2
    | cons x P => cases e; exact h _ _ rfl
  generalize hx : P ++ (w ++ b) = post at h
  cases h with
  | @ident w0 _ hw hk hp' hl hr' =>
    subst hx
    obtain ⟨h1, h2⟩ := literal_layout hX plain (fun _ h => by rw [h] at hc'; exact absurd hc' (by decide))
      (closes_plain (w' := c' :: cs') hq) hP hw hp' hl hr'
    exact .ident hw hk (noc' hp') h1 h2
  | keyword hk hp' => subst hx; exact .keyword hk (noc' hp')
  | rawIdent hw hp' => subst hx; exact .rawIdent hw (noc' hp')
  | @symbol k w0 _ hk hlong hck =>
    subst hx
    refine .symbol hk (fun k' w1 hk' hp' => hlong k' w1 hk' ?_) ?_
    · have key : ∀ r ∈ symbolTable, ∀ d ∈ r.1, d ∉ wsChars := by decide
      rw [← List.append_assoc, List.cons_append, prefix_stop (fun hm => key _ (symbolText_table k' w1 hk') _ hm hc')] at hp'
      rw [← List.append_assoc]
      exact prefix_more hp' _
    · rw [← List.append_assoc, List.cons_append, commentKind_stop (ws_plain hc').2.1, commentKind_none]
      rw [← List.append_assoc, commentKind_none] at hck
      exact ⟨fun h => hck.1 (prefix_more h _), fun h => hck.2 (prefix_more h _)⟩
  | char hb => exact .char hb
  | str hb => exact .str hb
  | strRaw hb => exact .strRaw (rawStr_post hb)
  | byte hb => exact .byte hb
  | byteStr hb => exact .byteStr hb
  | byteStrRaw hb => exact .byteStrRaw (rawStr_post hb)
  | lifetime hw hp' hq =>
    subst hx
    refine .lifetime hw (noc' hp') fun h => hq ⟨h.1, ?_⟩
    obtain ⟨-, d, t, e, hd⟩ := h
    cases P with
    | nil => cases e; rw [hd] at hc'; exact absurd hc' (by decide)
    | cons x P => cases e; exact ⟨_, _, rfl, hd⟩
  | number hn hu => subst hx; exact .number (numText_layout hX hc' (hdot _ rfl) hn) hu
  | @line k body _ hk hck hlt =>
    subst hx
    have nl : commentKind body = some k := by
      cases hz : P ++ (w ++ b) with
      | nil => simp at hz; exact absurd (by simp [hz]) hne
      | cons d t =>
        have := hlt.2 _ _ hz
        subst this
        rw [hz, commentKind_newline] at hck
        exact hck
    refine .line hk ?_ ⟨hlt.1, fun d t e => ?_⟩
    · cases P with
      | nil => rw [List.nil_append, List.cons_append, commentKind_stop (ws_plain hc').2.1]; exact nl
      | cons x P =>
        have : x = '\n' := hlt.2 _ _ rfl
        subst this
        rw [List.cons_append, commentKind_newline]
        exact nl
    · cases P with
      | nil =>
        obtain ⟨d', t', e', hd'⟩ := hl _ rfl hk rfl
        cases e
        cases e'
        exact hd'
      | cons x P => cases e; exact hlt.2 _ _ rfl
  | @block k op _ _ hk hck hb =>
    subst hx
    rcases hb with ⟨inner, rfl, hf⟩ | ⟨inner, rfl, hn, h⟩
    · refine .block hk ?_ (.inl ⟨inner, rfl, firstOcc_post hf⟩)
      rw [commentKind_long (a := op ++ inner ++ c!"*/") (by
        have : 2 ≤ op.length := by cases k <;> simp [blockOpener] at hk <;> subst hk <;> decide
        simp; omega) _ (P ++ (w ++ b))]
      exact hck
    · simp at h
      exact absurd (by simp [h]) hne
  | ws h1 h2 h3 =>
    subst hx
    refine .ws h1 h2 ?_
    cases P with
    | nil => exact absurd rfl (hs rfl)
    | cons x P => exact fun h => h3 ((startsIn_swap [] x _ _).mp h)

/-- What is between two tokens is replaced by something that starts with white space. -/
theorem spelled_layout {X : Xid} (hX : Sane X) {R : List Token} (hR : R ≠ []) :
    ∀ (A : List Token) {o : Nat} {s : Text}, Spelled X o (A ++ R) s → ∃ P z, s = P ++ z ∧ Spelled X (o + blen P) R z ∧
      (P = [] ∨ ∃ o2 t2 body2 P2, P = body2 ++ P2 ∧ Spelling X o2 t2 body2 (P2 ++ z)) ∧
      ∀ {w w' b : Text} {R' : List Token}, z = w ++ b → z ≠ [] → StartsIn (· ∈ wsChars) w' → '"' ∉ w' →
        (∀ u ∈ A, u.kind? = some .Whitespace → u.extent.e ≠ o + blen P) →
        (∀ n, .number n ∈ A → n.extent.e + 1 = o + blen P → ['.'] <:+ P → ¬ (StartsIn (· = '.') z ∨ StartsIn (WordStart X) z)) →
        (∀ u ∈ A, ∀ k, u.kind? = some k → isLineKind k → u.extent.e = o + blen P → StartsIn (· = '\n') w') →
        Spelled X (o + blen P) R' (w' ++ b) → Spelled X o (A ++ R') (P ++ (w' ++ b)) := by
  intro A
  induction A with
  | nil =>
    intro o s h
    exact ⟨[], s, rfl, h, .inl rfl, fun _ _ _ _ _ _ _ h => h⟩
  | cons a A ih =>
    intro o s h
    rw [List.cons_append] at h
    generalize hx : A ++ R = us at h
    cases h with
    | done => exact absurd (List.append_eq_nil_iff.mp hx).2 hR
    | @token _ _ body post _ h1 h2 =>
      subst hx
      obtain ⟨P, z, rfl, h3, h5, h6⟩ := ih h2
      have e0 : o + blen body + blen P = o + blen (body ++ P) := by rw [blen_append]; omega
      rw [e0] at h3 h6
      have hend := (spelling_ext hX h1).2.1
      refine ⟨body ++ P, z, by simp, h3, .inr ⟨o, a, body, P, rfl, h1⟩, fun {w w' b R'} hz hne hw' hq hs hd hl h8 => ?_⟩
      subst hz
      rw [List.append_assoc]
      refine .token (spelling_layout hX hne hw' hq ?_ ?_ ?_ h5 h1) (h6 rfl hne hw' hq (fun u hu => hs u (by simp [hu])) ?_
        (fun u hu => hl u (by simp [hu])) h8)
      · intro hk hP
        exact hs a (by simp) hk (by rw [hend, hP]; simp)
      · rintro n rfl hP
        refine hd n (by simp) ?_ ⟨body, by rw [hP]⟩
        have : n.extent = ⟨o, o + blen body⟩ := hend
        rw [this, hP]
        have : ('.' : Char).utf8Size = 1 := by decide
        simp [blen]
        omega
      · intro k hk hlk hP
        refine hl a (by simp) k hk hlk ?_
        rw [hend, hP]
        simp
      · intro n hn he hP
        exact hd n (by simp [hn]) he (hP.trans ⟨body, rfl⟩)

end Verif
