import Verif.Proofs.HeadSwap
/-!
# The tokens before white space do not depend on which white space it is
-/

namespace Verif
open Spec

attribute [local irreducible] singleToken

theorem ws_plain {c : Char} (hc : c ∈ wsChars) : c ∉ c!"'\"#" ∧ c ∉ c!"/*!" ∧ c ∉ c!".eE" ∧ c ≠ '_' ∧ (∀ b, c ∉ digitChars b) ∧ (∀ b, c ∉ basePrefix b) := by
  have key : ∀ c ∈ wsChars, c ∉ c!"'\"#" ∧ c ∉ c!"/*!" ∧ c ∉ c!".eE" ∧ c ≠ '_' := by decide
  have k2 : ∀ c ∈ wsChars, ∀ b ∈ [NumBase.Binary, .Octal, .Decimal, .Hexadecimal], c ∉ digitChars b ∧ c ∉ basePrefix b := by decide
  have all : ∀ b : NumBase, b ∈ [NumBase.Binary, .Octal, .Decimal, .Hexadecimal] := by intro b; cases b <;> decide
  exact ⟨(key c hc).1, (key c hc).2.1, (key c hc).2.2.1, (key c hc).2.2.2, fun b => (k2 c hc b (all b)).1, fun b => (k2 c hc b (all b)).2⟩

theorem numText_space {X : Xid} (hX : Sane X) {p : NumParts} {c c' : Char} {P r r' : Text} (hc : c ∈ wsChars) (hc' : c' ∈ wsChars)
    (h : NumText X p (P ++ c :: r)) : NumText X p (P ++ c' :: r') := by
  obtain ⟨-, -, n1, n2, n3, n4⟩ := ws_plain hc
  obtain ⟨-, -, m1, m2, m3, m4⟩ := ws_plain hc'
  have w1 := ws_not_start hX hc
  have w2 := ws_not_start hX hc'
  have sw : ∀ {Q : Char → Prop} (a : Text), ¬ Q c' → ¬ StartsIn Q (a ++ (P ++ c :: r)) → ¬ StartsIn Q (a ++ (P ++ c' :: r')) := by
    intro Q a hQ h
    rw [← List.append_assoc] at h ⊢
    rintro ⟨d, t, e, hd⟩
    cases hy : a ++ P with
    | nil => rw [hy] at e; cases e; exact hQ hd
    | cons y ys => rw [hy] at e h; cases e; exact h ⟨_, _, rfl, hd⟩
  have sw' : ∀ {Q : Char → Prop} (a : Text), ¬ Q c → StartsIn Q (a ++ c :: r) → StartsIn Q (a ++ c' :: r') := by
    rintro Q a hQ ⟨d, t, e, hd⟩
    cases a with
    | nil => cases e; exact absurd hd hQ
    | cons y ys => cases e; exact ⟨_, _, rfl, hd⟩
  have sw2 : ∀ {Q : Char → Prop} (a : Text), ¬ Q c' → ¬ StartsIn Q (a ++ c :: r) → ¬ StartsIn Q (a ++ c' :: r') := by
    rintro Q a hQ h ⟨d, t, e, hd⟩
    cases a with
    | nil => cases e; exact hQ hd
    | cons y ys => cases e; exact h ⟨_, _, rfl, hd⟩
  have dg : ∀ b, ¬ DigitOr_ b c' := fun b h => h.elim (m3 b) m2
  have dot : ¬ c' = '.' := fun h => m1 (by rw [h]; decide)
  have dot0 : ¬ c = '.' := fun h => n1 (by rw [h]; decide)
  constructor
  · exact h.ne
  · exact h.digits
  · exact sw _ (dg _) h.longest
  · intro hb b hb' t e
    rw [← List.append_assoc] at e
    obtain ⟨y, h1, rfl⟩ := cut_stop (m4 b) e
    exact sw2 y (dg _) (h.decimal hb b hb' (y ++ c :: r) (by rw [← List.append_assoc, h1, List.append_assoc]))
  · intro ds hf
    have h1 := h.frac ds hf
    refine ⟨h1.digits, sw _ (dg _) h1.longest, ?_, ?_⟩
    · have := h1.notRange
      rw [← List.append_assoc] at this ⊢
      exact sw _ dot this
    · have := h1.notAccess
      rw [← List.append_assoc] at this ⊢
      exact sw _ w2 this
  · intro hf t e
    rw [← List.append_assoc] at e
    obtain ⟨y, h1, rfl⟩ := cut_stop (p := ['.']) (t := t) (by simpa using dot) e
    rcases h.noFrac hf (y ++ c :: r) (by rw [← List.append_assoc, h1]; rfl) with h2 | h2
    · exact .inl (sw' y dot0 h2)
    · exact .inr (sw' y w1 h2)
  · intro m ds he
    obtain ⟨h1, h2, h3, h4⟩ := h.exp m ds he
    exact ⟨h1, h2, h3, sw _ (dg _) h4⟩
  · intro he m t e hm
    rw [← List.append_assoc] at e
    obtain ⟨y, h1, rfl⟩ := cut_stop (p := [m]) (t := t) (by
      intro hx
      simp at hx
      rcases hm with rfl | rfl <;> exact m1 (by rw [hx]; decide)) e
    exact sw2 y (dg _) (h.noExp he m (y ++ c :: r) (by rw [← List.append_assoc, h1]; rfl) hm)
  · intro w hs
    refine ⟨(h.suf w hs).1, fun d t e => ?_⟩
    cases P with
    | nil => cases e; exact (hX.ws c' hc').2
    | cons x P => cases e; exact (h.suf w hs).2 _ _ rfl
  · intro hs
    exact sw [] w2 (h.noSuf hs)

/-- A token stays the same if white space that comes later is replaced by other white space, which starts with a newline if it follows a
line comment. -/
theorem spelling_space {X : Xid} (hX : Sane X) {o : Nat} {t : Token} {body P w w' b : Text}
    (hw : StartsIn (· ∈ wsChars) w) (hne : w' ≠ []) (hw' : ∀ c ∈ w', c ∈ wsChars)
    (hl : ∀ k, t.kind? = some k → isLineKind k → P = [] → StartsIn (· = '\n') w')
    (hP : P = [] ∨ ∃ o2 t2 body2 P2, P = body2 ++ P2 ∧ Spelling X o2 t2 body2 (P2 ++ (w ++ b)))
    (h : Spelling X o t body (P ++ (w ++ b))) : Spelling X o t body (P ++ (w' ++ b)) := by
  obtain ⟨c, cs, rfl, hc⟩ := hw
  obtain ⟨c', cs', rfl⟩ := List.exists_cons_of_ne_nil hne
  have hc' : c' ∈ wsChars := hw' c' (by simp)
  have plain : ∀ d ∈ c' :: cs', d ∉ c!"'\"#" := fun d hd => (ws_plain (hw' d hd)).1
  have noc' : NoCont X (P ++ (c :: cs ++ b)) → NoCont X (P ++ (c' :: cs' ++ b)) := by
    intro h d t e
    cases P with
    | nil => cases e; exact (hX.ws c' hc').2
    | cons x P => cases e; exact h _ _ rfl
  have comment : ∀ body : Text, commentKind (body ++ (P ++ (c :: cs ++ b))) = commentKind (body ++ (P ++ (c' :: cs' ++ b))) := by
    intro body
    rw [← List.append_assoc body, ← List.append_assoc body, List.cons_append, List.cons_append, commentKind_stop (ws_plain hc).2.1,
      commentKind_stop (ws_plain hc').2.1]
  generalize hx : P ++ (c :: cs ++ b) = post at h
  cases h with
  | @ident w0 _ hw hk hp' hl hr' =>
    subst hx
    obtain ⟨y0, ys0, rfl, hy0, hys0⟩ := hw
    have no : ∀ d ∈ ys0, d ∉ c!"'\"#" := fun d hd hm => by
      have := hys0 d hd
      rw [not_cont hX d hm] at this
      cases this
    refine .ident ⟨y0, ys0, rfl, hy0, hys0⟩ hk (noc' hp') ?_ ?_
    · intro hl'
      -- there is something before the white space
      have hsome : ∃ x P', P = x :: P' := by
        cases P with
        | cons x P => exact ⟨x, P, rfl⟩
        | nil =>
          exfalso
          rcases literalAt_cases hl' with ⟨d, t, e, hd⟩ | ⟨d, t, e, hd⟩ | ⟨d, t, e, hd⟩
          · cases ys0 with
            | nil => simp at e; exact plain c' (by simp) (by rw [e.2.1]; rcases hd with rfl | rfl <;> decide)
            | cons x xs => simp at e; exact no x (by simp) (by rw [e.2.1]; rcases hd with rfl | rfl <;> decide)
          · cases ys0 with
            | nil => simp at e; exact plain c' (by simp) (by rw [e.2.1]; rcases hd with rfl | rfl <;> decide)
            | cons x xs => simp at e; exact no x (by simp) (by rw [e.2.1]; rcases hd with rfl | rfl <;> decide)
          · match ys0 with
            | [] => simp at e; rw [e.2.1] at hc'; exact absurd hc' (by decide)
            | [x] => simp at e; exact plain c' (by simp) (by rw [e.2.2.1]; rcases hd with rfl | rfl <;> decide)
            | x :: y :: ys => simp at e; exact no y (by simp) (by rw [e.2.2.1]; rcases hd with rfl | rfl <;> decide)
      obtain ⟨x, P', rfl⟩ := hsome
      obtain ⟨o2, t2, body2, P2, hP2, h2⟩ : ∃ o2 t2 body2 P2, x :: P' = body2 ++ P2 ∧ Spelling X o2 t2 body2 (P2 ++ (c :: cs ++ b)) := by
        rcases hP with hP | hP
        · cases hP
        · exact hP
      obtain ⟨ys, hb2, hP'⟩ : ∃ ys, body2 = x :: ys ∧ P' = ys ++ P2 := by
        cases hb : body2 with
        | nil => exact absurd hb (spelling_ext hX h2).1
        | cons y ys => rw [hb] at hP2; simp at hP2; exact ⟨ys, by rw [hP2.1], hP2.2⟩
      have str : x = '"' → StrLit body2 := fun e => spelling_quote hX h2 (r := ys) (by rw [hb2, e])
      rcases literalAt_cases hl' with ⟨d, t, e, hd⟩ | ⟨d, t, e, hd⟩ | ⟨d, t, e, hd⟩
      · cases ys0 with
        | nil =>
          simp at e
          obtain ⟨rfl, rfl, -⟩ := e
          rcases hd with rfl | rfl
          · exact hr' ⟨_, rfl⟩
          · obtain ⟨a, p3, e3, h3⟩ := rawStr_of_str (str rfl) (P2 ++ (c :: cs ++ b))
            exact hl ⟨a, p3, by rw [← e3, hP2]; simp, .inl h3⟩
        | cons x xs => simp at e; exact no x (by simp) (by rw [e.2.1]; rcases hd with rfl | rfl <;> decide)
      · cases ys0 with
        | nil =>
          simp at e
          obtain ⟨rfl, rfl, -⟩ := e
          rcases hd with rfl | rfl
          · -- a character or a lifetime
            rcases spelling_tick hX h2 hb2 with h3 | ⟨h3, h4⟩
            · exact hl ⟨'b' :: body2, P2 ++ (c :: cs ++ b), by rw [hP2]; simp, .inr ⟨_, rfl, .inl h3⟩⟩
            · obtain ⟨z, zs, rfl, hz, hzs⟩ := h3
              obtain ⟨a, p3, e3, h5⟩ := hl'
              have h6 : ∃ q, CharLit q ∧ q <+: '\'' :: z :: zs ++ (P2 ++ (c' :: cs' ++ b)) := by
                rcases h5 with h5 | ⟨q, rfl, h5 | h5 | h5⟩
                · obtain ⟨n, cc, rfl, -⟩ := h5; simp at e3
                · refine ⟨q, h5, p3, ?_⟩
                  rw [hP2, hb2] at e3
                  simp at e3 ⊢
                  exact e3.symm
                · obtain ⟨bb, -, rfl⟩ := h5; simp at e3
                · obtain ⟨n, cc, rfl, -⟩ := h5; simp at e3
              obtain ⟨q, ⟨cb, hcb, rfl⟩, r, hr2⟩ := h6
              cases hcb with
              | single hne =>
                simp at hr2
                obtain ⟨rfl, hr2⟩ := hr2
                cases zs with
                | cons z2 zs2 =>
                  simp at hr2
                  have := hzs z2 (by simp)
                  rw [← hr2.1, not_cont hX '\'' (by decide)] at this
                  cases this
                | nil =>
                  simp at hr2
                  cases P2 with
                  | nil =>
                    simp at hr2
                    rw [← hr2.1] at hc'
                    exact absurd hc' (by decide)
                  | cons z2 zs2 =>
                    simp at hr2
                    exact h4 ⟨rfl, _, _, rfl, hr2.1.symm⟩
              | esc hne =>
                simp at hr2
                exact not_start hX '\\' (by decide) (by rw [hr2.1]; exact hz)
          · exact hl ⟨'b' :: body2, P2 ++ (c :: cs ++ b), by rw [hP2]; simp, .inr ⟨_, rfl, .inr (.inl (str rfl))⟩⟩
        | cons x xs => simp at e; exact no x (by simp) (by rw [e.2.1]; rcases hd with rfl | rfl <;> decide)
      · cases ys0 with
        | nil =>
          simp at e
          obtain ⟨-, rfl, -⟩ := e
          exact absurd (hp' _ _ rfl) (by rw [hX.cont 'r' (by decide)]; decide)
        | cons x1 xs =>
          cases xs with
          | nil =>
            simp at e
            obtain ⟨rfl, rfl, rfl, -⟩ := e
            rcases hd with rfl | rfl
            · obtain ⟨a, p3, e3, h5⟩ := hl'
              have h6 : ∃ n cc, '#' :: P' ++ (c' :: cs' ++ b) = (List.replicate n '#' ++ c!"\"") ++ (cc ++ rawClose n ++ p3) := by
                rcases h5 with h5 | ⟨q, rfl, h5 | h5 | h5⟩
                · obtain ⟨n, cc, rfl, -⟩ := h5; simp at e3
                · obtain ⟨bb, -, rfl⟩ := h5; simp at e3
                · obtain ⟨bb, -, rfl⟩ := h5; simp at e3
                · obtain ⟨n, cc, rfl, -⟩ := h5
                  exact ⟨n, cc, by simp at e3 ⊢; exact e3⟩
              obtain ⟨n, cc, hn⟩ := h6
              have hpre : List.replicate n '#' ++ c!"\"" <+: '#' :: P' := by
                refine (prefix_stop (c := c') (t := cs' ++ b) ?_).mp ⟨_, hn.symm⟩
                intro hm
                refine plain c' (by simp) ?_
                rcases List.mem_append.mp hm with h | h
                · rw [(List.mem_replicate.mp h).2]; decide
                · simp at h; rw [h]; decide
              obtain ⟨P3, hP3⟩ := hpre
              rw [← hP3, List.append_assoc] at hn
              have hn := List.append_cancel_left hn
              obtain ⟨u, v, huv⟩ := occurs_swap (w := c :: cs) (by simp [rawClose]) (by simp) (fun d hd hm => by
                refine plain d hd ?_
                rcases List.mem_cons.mp hm with h | h
                · rw [h]; decide
                · rw [(List.mem_replicate.mp h).2]; decide) hn
              obtain ⟨u, v, huv, hfo⟩ := firstOcc_exists _ u v (Nat.le_refl _) huv
              refine hl ⟨'b' :: (c!"r" ++ List.replicate n '#' ++ c!"\"" ++ u ++ rawClose n), v, ?_, .inr ⟨_, rfl, .inr (.inr ⟨n, u, rfl, ?_⟩)⟩⟩
              · rw [← hP3]
                simp at huv ⊢
                exact huv
              · rw [← huv]
                exact hfo
            · obtain ⟨a, p3, e3, h3⟩ := rawStr_of_str (str rfl) (P2 ++ (c :: cs ++ b))
              exact hl ⟨'b' :: a, p3, by rw [hP2]; simp at e3 ⊢; exact e3, .inr ⟨_, rfl, .inr (.inr h3)⟩⟩
          | cons y ys => simp at e; exact no y (by simp) (by rw [e.2.2.1]; rcases hd with rfl | rfl <;> decide)
    · rintro ⟨r, hr⟩
      refine hr' ?_
      cases ys0 with
      | nil =>
        cases P with
        | nil => simp at hr; rw [← hr.2.1] at hc'; exact absurd hc' (by decide)
        | cons x P' => simp at hr; exact ⟨P' ++ (c :: cs ++ b), by simp [← hr.1, ← hr.2.1]⟩
      | cons y1 ys0 => simp at hr; exact ⟨ys0 ++ (P ++ (c :: cs ++ b)), by simp [← hr.1, ← hr.2.1]⟩
  | keyword hk hp' => subst hx; exact .keyword hk (noc' hp')
  | rawIdent hw hp' => subst hx; exact .rawIdent hw (noc' hp')
  | @symbol k w0 _ hk hlong hck =>
    subst hx
    refine .symbol hk (fun k' w1 hk' hp' => hlong k' w1 hk' ?_) (by rw [← comment]; exact hck)
    have key : ∀ r ∈ symbolTable, ∀ d ∈ r.1, d ∉ wsChars := by decide
    have k1 : ∀ {d}, d ∈ wsChars → d ∉ w1 := fun hd hm => key _ (symbolText_table k' w1 hk') _ hm hd
    rw [← List.append_assoc, List.cons_append] at hp' ⊢
    rw [prefix_stop (k1 hc)]
    rw [prefix_stop (k1 hc')] at hp'
    exact hp'
  | char hb => exact .char hb
  | str hb => exact .str hb
  | strRaw hb => exact .strRaw (rawStr_post hb)
  | byte hb => exact .byte hb
  | byteStr hb => exact .byteStr hb
  | byteStrRaw hb => exact .byteStrRaw (rawStr_post hb)
  | lifetime hw hp' hq =>
    subst hx
    refine .lifetime hw (noc' hp') fun h => hq ⟨h.1, ?_⟩
    obtain ⟨-, d, t, e, hd⟩ := h
    cases P with
    | nil => cases e; rw [hd] at hc'; exact absurd hc' (by decide)
    | cons x P => cases e; exact ⟨_, _, rfl, hd⟩
  | number hn hu => subst hx; exact .number (numText_space hX hc hc' hn) hu
  | line hk hck hlt =>
    subst hx
    refine .line hk (by rw [← comment]; exact hck) ⟨hlt.1, fun d t e => ?_⟩
    cases P with
    | nil =>
      obtain ⟨d', t', e', hd'⟩ := hl _ rfl hk rfl
      cases e
      cases e'
      exact hd'
    | cons x P => cases e; exact hlt.2 _ _ rfl
  | @block k op _ _ hk hck hb =>
    subst hx
    refine .block hk (by rw [← comment]; exact hck) ?_
    rcases hb with ⟨inner, rfl, hf⟩ | ⟨inner, rfl, hn, h⟩
    · exact .inl ⟨inner, rfl, firstOcc_post hf⟩
    · simp at h
  | ws h1 h2 h3 =>
    subst hx
    refine .ws h1 h2 ?_
    cases P with
    | nil => exact absurd ⟨c, _, rfl, hc⟩ h3
    | cons x P => exact fun h => h3 ((startsIn_swap [] x _ _).mp h)

/-- The text of white space. -/
theorem spelling_blank {X : Xid} {o : Nat} {t : Token} {body post : Text} (h : Spelling X o t body post) (hk : t.kind? = some .Whitespace) :
    StartsIn (· ∈ wsChars) body ∧ ¬ StartsIn (· ∈ wsChars) post := by
  cases h with
  | ws h1 h2 h3 =>
    obtain ⟨c, cs, rfl⟩ := List.exists_cons_of_ne_nil h1
    exact ⟨⟨c, cs, rfl, h2 c (by simp)⟩, h3⟩
  | keyword h1 => cases hk; cases h1
  | symbol h1 => cases hk; cases h1
  | line h1 => cases hk; rcases h1 with h | h | h <;> cases h
  | block h1 => cases hk; cases h1
  | number => cases hk
  | _ => cases hk

/-- Other white space can be written where white space is. -/
theorem spelled_space {X : Xid} (hX : Sane X) {t : Token} (hk : t.kind? = some .Whitespace) {B : List Token} :
    ∀ (A : List Token) {o : Nat} {s : Text}, Spelled X o (A ++ t :: B) s → ∃ P w b, s = P ++ (w ++ b) ∧ Spelling X (o + blen P) t w b ∧
      Spelled X (o + blen P + blen w) B b ∧
      (P = [] ∨ ∃ o2 t2 body2 P2, P = body2 ++ P2 ∧ Spelling X o2 t2 body2 (P2 ++ (w ++ b))) ∧
      ∀ {w' : Text} {t' : Token} {B' : List Token}, w' ≠ [] → (∀ c ∈ w', c ∈ wsChars) →
        (∀ u ∈ A, ∀ k, u.kind? = some k → isLineKind k → u.extent.e = o + blen P → StartsIn (· = '\n') w') →
        Spelling X (o + blen P) t' w' b → Spelled X (o + blen P + blen w') B' b →
        Spelled X o (A ++ t' :: B') (P ++ (w' ++ b)) := by
  intro A
  induction A with
  | nil =>
    intro o s h
    cases h with
    | done => cases hk
    | @token _ _ body post _ h1 h2 => exact ⟨[], body, post, rfl, h1, h2, .inl rfl, fun {w' t' B'} _ _ _ h3 h4 => Spelled.token (off := o) (body := w') h3 h4⟩
  | cons a A ih =>
    intro o s h
    rw [List.cons_append] at h
    generalize hx : A ++ t :: B = us at h
    cases h with
    | done => simp at hx
    | @token _ _ body post _ h1 h2 =>
      subst hx
      obtain ⟨P, w, b, rfl, h3, h4, h5, h6⟩ := ih h2
      have e : ∀ x : Text, o + blen body + blen P + blen x = o + blen (body ++ P) + blen x := fun x => by rw [blen_append]; omega
      have e0 : o + blen body + blen P = o + blen (body ++ P) := by rw [blen_append]; omega
      rw [e] at h4
      rw [e0] at h3 h6
      refine ⟨body ++ P, w, b, by simp, h3, h4, .inr ⟨o, a, body, P, rfl, h1⟩, fun {w' t' B'} hne hw' hl h7 h8 => ?_⟩
      rw [List.append_assoc]
      refine .token (spelling_space hX (spelling_blank h3 hk).1 hne hw' ?_ h5 h1) (h6 hne hw' (fun u hu => hl u (by simp [hu])) h7 h8)
      intro k hk hlk hP
      refine hl a (by simp) k hk hlk ?_
      rw [(spelling_ext hX h1).2.1, hP]
      simp

end Verif
