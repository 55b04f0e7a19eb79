import Verif.Props.Layout
import Verif.Props.Number
import Verif.Spec.Relaid
/-!
# Property theorem: a text can be laid out anew (C76)
-/

namespace Verif.Props
open Verif Verif.Spec

/-- White space and comments depend only on the first character behind them. -/
theorem trivia_front {X : Xid} {o : Nat} {t : Token} {w r r' : Text} {c : Char} (ht : isTrivia t = true) (h : Spelling X o t w (c :: r)) :
    Spelling X o t w (c :: r') := by
  have no : ∀ {k : TK} {e : Extent}, isTrivia (.plain k e) = true → k = .Whitespace ∨ k = .CommentLine ∨ k = .CommentBlock := by
    intro k e h
    simpa [isTrivia, Token.kind?, or_assoc] using h
  cases h with
  | line h1 h2 h3 =>
    have hc : c = '\n' := h3.2 _ _ rfl
    subst hc
    refine .line h1 ?_ ⟨h3.1, by rintro d t ⟨⟩; rfl⟩
    rw [commentKind_newline] at h2 ⊢
    exact h2
  | @block k op _ _ h1 h2 h3 =>
    rcases h3 with ⟨inner, rfl, hf⟩ | ⟨inner, rfl, -, hn⟩
    · refine .block h1 ?_ (.inl ⟨inner, rfl, firstOcc_post hf⟩)
      rw [commentKind_long _ _ (c :: r)]
      · exact h2
      · have : 2 ≤ op.length := by cases k <;> simp [blockOpener] at h1 <;> subst h1 <;> decide
        simp; omega
    · cases hn
  | ws h1 h2 h3 =>
    refine .ws h1 h2 ?_
    rw [startsIn_cons] at h3 ⊢
    exact h3
  | number => cases ht
  | keyword h1 => rcases no ht with rfl | rfl | rfl <;> cases h1
  | symbol h1 => rcases no ht with rfl | rfl | rfl <;> cases h1
  | _ => cases ht

/-- The two texts are both empty or start with the same character. -/
def LikeFront (x y : Text) : Prop := (x = [] ∧ y = []) ∨ ∃ c r r', x = c :: r ∧ y = c :: r'

theorem LikeFront.append {x y : Text} (h : LikeFront x y) (g : Text) : LikeFront (g ++ x) (g ++ y) := by
  cases g with
  | nil => exact h
  | cons c g => exact .inr ⟨c, _, _, rfl, rfl⟩

/-- The tokens of a layout. -/
theorem LayoutText.spelled {X : Xid} (hX : Sane X) {x : Text} : ∀ {g : Text}, LayoutText X x g → ∀ {y : Text} {U : List Token}, LikeFront x y → Spec.Spelled X 0 U y →
    ∀ o, ∃ W, (∀ t ∈ W, isTrivia t = true ∧ t.extent.e ≤ o + blen g) ∧ Spec.Spelled X o (W ++ U.map (·.moved (o + blen g))) (g ++ y) := by
  intro g hg
  induction hg with
  | nil =>
    intro y U _ hU o
    have := spelled_moved hU o
    exact ⟨[], by simp, by simpa using this⟩
  | @cons t w g ht hs _ ih =>
    intro y U hxy hU o
    obtain ⟨W, h1, h2⟩ := ih hxy hU (o + blen w)
    have hs' : Spelling X 0 t w (g ++ y) := by
      rcases hxy.append g with ⟨e1, e2⟩ | ⟨c, r, r', e1, e2⟩
      · rw [e2]; rw [e1] at hs; exact hs
      · rw [e2]; rw [e1] at hs; exact trivia_front ht hs
    have hs' := spelling_moved hs' o
    rw [Nat.zero_add] at hs'
    refine ⟨t.moved o :: W, ?_, ?_⟩
    · intro u hu
      rw [blen_append]
      rcases List.mem_cons.mp hu with rfl | hu
      · rw [isTrivia_moved, (spelling_ext hX hs').2.1]
        exact ⟨ht, by simp⟩
      · have := h1 u hu
        exact ⟨this.1, by omega⟩
    · have := Spec.Spelled.token hs' h2
      simpa [Nat.add_assoc] using this

/-- What is written with just a period is a period. -/
theorem period_kind {X : Xid} (hX : Sane X) {o : Nat} {t : Token} {post : Text} (h : Spelling X o t ['.'] post) : t.kind? = some .Period := by
  generalize hw : ['.'] = w at h
  cases h with
  | @symbol k _ _ h1 _ _ =>
    subst hw
    cases k <;> first | rfl | (simp [symbolText] at h1)
  | ident h1 =>
    obtain ⟨c, cs, rfl, hc, -⟩ := h1
    cases hw
    exact absurd hc (not_start hX '.' (by decide))
  | @keyword k _ _ h1 =>
    subst hw
    cases k <;> simp [keywordText] at h1
  | number h1 h2 =>
    obtain ⟨c, s, e, hc⟩ := NumText.head h1 h2
    rw [← hw] at e
    cases e
    exact absurd hc (by decide)
  | char h1 => obtain ⟨x, -, rfl⟩ := h1; cases hw
  | str h1 => obtain ⟨x, -, rfl⟩ := h1; cases hw
  | strRaw h1 => obtain ⟨c, r, e, -⟩ := rawStr_head h1 []; rw [← hw] at e; cases e
  | line _ h2 => subst hw; simp [commentKind, List.isPrefixOf] at h2
  | block _ h2 => subst hw; simp [commentKind, List.isPrefixOf] at h2
  | ws _ h2 => exact absurd (h2 '.' (by rw [← hw]; simp)) (by decide)
  | _ => cases hw

/-- The first token that is no layout is written as before. -/
theorem relaid_front {X : Xid} (hX : Sane X) {code : Text} {t : Token} {ts : List Token} {x p0 s : Text}
    (hr : Relaid X code (some .Whitespace) (t :: ts) x) (hc : code = p0 ++ s) (hs : Spec.Spelled X (blen p0) (t :: ts) s) : LikeFront x s := by
  generalize hk : some TK.Whitespace = k at hr
  generalize hL : t :: ts = L at hr hs
  cases hr with
  | done =>
    cases hs with
    | done => exact .inl ⟨rfl, rfl⟩
    | token h1 => exact absurd rfl (spelling_ext hX h1).2.2
  | keep h1 h2 _ =>
    cases hs with
    | done => exact absurd rfl h1
    | @token _ _ body post _ h3 h4 =>
      obtain ⟨hne, he, -⟩ := spelling_ext hX h3
      rw [he, hc, sliceText_append] at h2
      cases h2
      obtain ⟨c, r, rfl⟩ := List.exists_cons_of_ne_nil hne
      exact .inr ⟨c, _, _, rfl, rfl⟩
  | layout _ _ h => exact absurd hk.symm h

theorem moveds_eq {U : List Token} {d b : Nat} : (U.map (·.moved b)).map (·.moved d) = U.map (·.moved (d + b)) := by
  rw [List.map_map]
  exact List.map_congr_left fun t _ => by simp [Token.moved_add, Nat.add_comm]

/-- The tokens of a layout, and what is behind it. -/
theorem spelled_drop {X : Xid} (hX : Sane X) : ∀ {V R : List Token} {o : Nat} {s : Text}, Spec.Spelled X o (V ++ R) s → R ≠ [] →
    ∃ w s2, s = w ++ s2 ∧ Spec.Spelled X (o + blen w) R s2 ∧ (V ≠ [] → w ≠ [] ∧ ∀ v V', V = v :: V' → ∃ body post, w ++ s2 = body ++ post ∧
      Spelling X o v body post)
  | [], R, o, s, h, _ => ⟨[], s, rfl, h, fun h => absurd rfl h⟩
  | v :: V, R, o, s, h, hR => by
    rw [List.cons_append] at h
    generalize hL : V ++ R = L at h
    cases h with
    | done => exact absurd (List.append_eq_nil_iff.mp hL).2 hR
    | @token _ _ body post _ h1 h2 =>
      subst hL
      obtain ⟨w, s2, rfl, h3, -⟩ := spelled_drop hX h2 hR
      refine ⟨body ++ w, s2, by simp, by rw [blen_append, ← Nat.add_assoc]; exact h3, fun _ => ⟨?_, ?_⟩⟩
      · have := (spelling_ext hX h1).1
        simp [this]
      · rintro v' V' ⟨⟩
        exact ⟨body, w ++ s2, by simp, h1⟩

theorem relay {X : Xid} (hX : Sane X) {code : Text} {k : Option TK} {L : List Token} {x : Text} (hr : Relaid X code k L x) :
    ∀ {U : List Token} {p0 p s : Text} {A : List Token}, L = U.map (·.moved (blen p0)) → code = p0 ++ s → Spec.Spelled X 0 U s →
      Spec.Spelled X 0 (A ++ U.map (·.moved (blen p))) (p ++ s) → (∀ a ∈ A, a.extent.e ≤ blen p ∧ (a.extent.e = blen p → k ≠ some .Whitespace → a.kind? = k)) →
      (∀ n, .number n ∈ A → n.extent.e + 1 = blen p → ['.'] <:+ p → k ≠ some .Whitespace → k = some .Period) →
      ∃ T, Spec.Spelled X 0 (A ++ T) (p ++ x) ∧ SameKinds (L.filter fun t => !isTrivia t) (T.filter fun t => !isTrivia t) := by
  induction hr with
  | @done k e =>
    intro U p0 p s A hL _ hU h _ _
    cases hU with
    | done =>
      refine ⟨_, h, ?_⟩
      rw [hL]
      exact .cons rfl (.nil)
    | token h1 h2 =>
      simp only [List.map_cons, List.cons.injEq] at hL
      have := (spelling_ext hX h1).2.2
      rw [← Token.moved_kind (blen p0), ← hL.1] at this
      exact absurd rfl this
  | @keep k t w ts x hk hw _ ih =>
    intro U p0 p s A hL hc hU h hA hn
    match U, hL with
    | u :: U, hL =>
      simp only [List.map_cons, List.cons.injEq] at hL
      obtain ⟨rfl, rfl⟩ := hL
      rw [Token.moved_kind] at hk ih
      cases hU with
      | done => exact absurd rfl hk
      | @token _ _ body s1 _ h1 h2 =>
        rw [Nat.zero_add] at h2
        obtain ⟨U1, hU1, rfl⟩ := spelled_base hX h2
        obtain ⟨hne, hext, -⟩ := spelling_ext hX h1
        have he : ∀ d, (u.moved d).extent = ⟨d, d + blen body⟩ := by
          intro d
          rw [show (u.moved d).extent = u.extent.moved d by cases u <;> rfl, hext]
          simp [Extent.moved, Nat.add_comm]
        rw [he, hc, sliceText_append] at hw
        have hbw : body = w := by simpa using hw
        subst hbw
        have hpos : 0 < blen body := by
          obtain ⟨c, r, rfl⟩ := List.exists_cons_of_ne_nil hne
          have := c.utf8Size_pos
          simp; omega
        rw [List.map_cons, moveds_eq, ← blen_append] at h
        have i1 : ∀ a ∈ A ++ [u.moved (blen p)], a.extent.e ≤ blen (p ++ body) ∧ (a.extent.e = blen (p ++ body) → u.kind? ≠ some .Whitespace → a.kind? = u.kind?) := by
          intro a ha
          rcases List.mem_append.mp ha with ha | ha
          · have := (hA a ha).1
            rw [blen_append]
            exact ⟨by omega, fun h => by omega⟩
          · simp at ha
            subst ha
            rw [he, blen_append, Token.moved_kind]
            exact ⟨Nat.le_refl _, fun _ _ => rfl⟩
        have i2 : ∀ n, .number n ∈ A ++ [u.moved (blen p)] → n.extent.e + 1 = blen (p ++ body) → ['.'] <:+ p ++ body → u.kind? ≠ some .Whitespace →
            u.kind? = some .Period := by
          intro n hm h3 h4 _
          rw [blen_append] at h3
          rcases List.mem_append.mp hm with hm | hm
          · have := (hA _ hm).1
            simp only [Token.extent] at this
            have hb : body = ['.'] := by
              obtain ⟨r, hr⟩ := h4
              obtain ⟨c, cs, rfl⟩ := List.exists_cons_of_ne_nil hne
              have := c.utf8Size_pos
              cases cs with
              | nil =>
                have := congrArg List.getLast? hr
                simp at this
                rw [← this]
              | cons d cs =>
                have := d.utf8Size_pos
                simp at h3
                omega
            subst hb
            exact period_kind hX h1
          · simp at hm
            have := he (blen p)
            rw [← hm] at this
            simp only [Token.extent] at this
            rw [this] at h3
            simp at h3
        obtain ⟨T, k1, k2⟩ := ih (U := U1) (p0 := p0 ++ body) (p := p ++ body) (s := s1) (A := A ++ [u.moved (blen p)])
          (by rw [moveds_eq, ← blen_append]) (by rw [hc]; simp) hU1 (by simpa using h) i1 i2
        refine ⟨u.moved (blen p) :: T, by simpa using k1, ?_⟩
        simp only [List.filter_cons, isTrivia_moved]
        cases hv : isTrivia u with
        | true => exact k2
        | false => exact .cons (by cases u <;> simp [SameKind, Token.moved, Number.moved]) k2
  | @layout k old g t ts x hold ht hk hg hws hnl hq h0 hr ih =>
    intro U p0 p s A hL hc hU h hA hn
    obtain ⟨V, R, rfl, rfl, hR⟩ := List.append_eq_map_iff.mp hL
    have hRne : R ≠ [] := by rintro rfl; cases hR
    rw [List.map_append] at h
    obtain ⟨w, s2, rfl, g1, g2⟩ := spelled_drop hX hU hRne
    rw [Nat.zero_add] at g1
    obtain ⟨U1, hU1, rfl⟩ := spelled_base hX g1
    rw [moveds_eq, ← blen_append] at hR h
    have hfront : LikeFront x s2 := by
      refine relaid_front hX hr (p0 := p0 ++ w) (by rw [hc]; simp) ?_
      rw [← hR]
      have := spelled_moved hU1 (blen (p0 ++ w))
      simpa using this
    have hold' : ∀ v ∈ V, isTrivia v = true := fun v hv => by
      have := hold _ (List.mem_map_of_mem hv)
      rwa [isTrivia_moved] at this
    obtain ⟨P, z, hP, k1, -, k2⟩ := spelled_layout hX (R := V.map (·.moved (blen p)) ++ U1.map (·.moved (blen (p ++ w)))) (by
      have : U1 ≠ [] := by rintro rfl; cases hR
      simp [this]) A h
    have hmove := spelled_moved hU (blen p)
    rw [List.map_append, moveds_eq, ← blen_append] at hmove
    obtain ⟨a1, e1, e2⟩ := spelled_start hX hmove
    obtain ⟨a2, e3, e4⟩ := spelled_start hX k1
    rw [e1] at e3
    cases e3
    obtain ⟨rfl, rfl⟩ := front_unique hP (by omega)
    obtain ⟨W, m1, m2⟩ := LayoutText.spelled hX hg hfront hU1 (blen p)
    rw [← blen_append] at m1 m2
    have h' := k2 rfl ?_ hws hq ?_ ?_ ?_ (by rw [Nat.zero_add]; exact m2)
    · have i1 : ∀ a ∈ A ++ W, a.extent.e ≤ blen (p ++ g) ∧
          (a.extent.e = blen (p ++ g) → some TK.Whitespace ≠ some .Whitespace → a.kind? = some .Whitespace) := by
        intro a ha
        refine ⟨?_, fun _ h => absurd rfl h⟩
        rcases List.mem_append.mp ha with ha | ha
        · have := (hA a ha).1
          rw [blen_append]; omega
        · exact (m1 a ha).2
      obtain ⟨T, q1, q2⟩ := ih (U := U1) (p0 := p0 ++ w) (p := p ++ g) (s := s2) (A := A ++ W) hR.symm (by rw [hc]; simp) hU1 (by simpa using h')
        i1 (fun _ _ _ _ h => absurd rfl h)
      · refine ⟨W ++ T, by simpa using q1, ?_⟩
        have no : ∀ {W : List Token}, (∀ t ∈ W, isTrivia t = true) → W.filter (fun t => !isTrivia t) = [] := by
          intro W h
          rw [List.filter_eq_nil_iff]
          intro t ht
          simp [h t ht]
        rw [List.filter_append, List.filter_append, no hold, no fun t ht => (m1 t ht).1]
        exact q2
    · intro e
      obtain ⟨e5, e6⟩ := List.append_eq_nil_iff.mp e
      subst e6
      have hU' := spelled_nil hX hU1
      have hV : V = [] := Classical.byContradiction fun hV => (g2 hV).1 e5
      refine (h0 (by rw [hV]; rfl)).2 ?_
      rw [hU'] at hR
      simp only [List.map_cons, List.cons.injEq] at hR
      rw [← hR.1]
      rfl
    · intro u hu hk' he
      rw [Nat.zero_add] at he
      exact hk (((hA u hu).2 he hk).symm.trans hk')
    · intro n hm h3 h4
      rw [Nat.zero_add] at h3
      have hper := hn n hm h3 h4 hk
      have hV : V ≠ [] := by
        rintro rfl
        exact (h0 rfl).1 hper
      obtain ⟨v, V', rfl⟩ := List.exists_cons_of_ne_nil hV
      obtain ⟨body, post, e5, e6⟩ := (g2 hV).2 v V' rfl
      obtain ⟨c, cs, rfl, hcc⟩ := spelling_trivia e6 (hold' v (by simp))
      rw [e5]
      rintro (⟨d, r, e, hd⟩ | ⟨d, r, e, hd⟩)
      · cases e
        subst hd
        rcases hcc with hcc | hcc
        · exact absurd hcc (by decide)
        · cases hcc
      · cases e
        rcases hcc with hcc | rfl
        · exact ws_not_start hX hcc hd
        · exact not_start hX '/' (by decide) hd
    · intro u hu l hl hll he
      rw [Nat.zero_add] at he
      exact hnl l (((hA u hu).2 he hk).symm.trans hl) hll

/-- The text is laid out anew.  It has the same tokens as before but for white space and comments, and the result is the same: a tree of
the same shape, or the same errors at the same token. -/
theorem C76_relaid (X : Xid) (hX : Sane X) (cl : Bool) (code text : Text) (ts : List Token) (h : lex X cl code = .ok ts)
    (hr : Relaid X code none ts text) :
    ∃ ts', lex X cl text = .ok ts' ∧ SameKinds (ts.filter fun t => !isTrivia t) (ts'.filter fun t => !isTrivia t) ∧
      ∀ cp, SameOutcome (ts.filter fun t => !isTrivia t) (ts'.filter fun t => !isTrivia t)
        (parseRustFile X cl cp code) (parseRustFile X cl cp text) := by
  have hs := h
  rw [lex_spelled hX] at hs
  have h0 : ts.map (·.moved (blen [])) = ts := by
    refine (List.map_congr_left fun t _ => ?_).trans (List.map_id _)
    have he : ∀ x : Extent, x.moved 0 = x := fun x => rfl
    cases t with
    | plain k e => rfl
    | number n => simp [Token.moved, Number.moved, blen, he]
  obtain ⟨T, h1, h2⟩ := relay hX hr (p0 := []) (p := []) (A := []) h0.symm rfl hs (by rw [h0]; exact hs) (by simp) (by simp)
  simp only [List.nil_append] at h1
  have h' := (lex_spelled hX cl _ _).mpr h1
  exact ⟨T, h', h2, fun cp => C41_layout X X cl cl cp _ _ _ _ h h' h2⟩

/-- The hypotheses are met: white space becomes other white space, white space and a comment are put between two tokens, and a comment and
white space become white space. -/
example : ∃ ts, lex asciiXid true c!"mod a;//x\n" = .ok ts ∧ Relaid asciiXid c!"mod a;//x\n" none ts c!"mod\t\na /*y*/ ;\n" := by
  have blank : ∀ {w g post : Text}, w ≠ [] → (∀ c ∈ w, c ∈ wsChars) → ¬ StartsIn (· ∈ wsChars) (g ++ post) → LayoutText asciiXid post g →
      LayoutText asciiXid post (w ++ g) := fun h1 h2 h3 h4 => .cons rfl (.ws h1 h2 h3) h4
  have no : ∀ {c : Char} {t : Text}, c ∉ wsChars → ¬ StartsIn (· ∈ wsChars) (c :: t) := by
    rintro c t h ⟨d, u, e, hd⟩
    cases e
    exact h hd
  have kinds : ∀ {k : TK} {g : Text}, ¬ isLineKind k → ∀ l, some k = some l → isLineKind l → StartsIn (· = '\n') g := by
    rintro k g h l ⟨⟩ hl
    exact absurd hl h
  refine ⟨[.plain .Mod ⟨0, 3⟩, .plain .Whitespace ⟨3, 4⟩, .plain .Ident ⟨4, 5⟩, .plain .Semicolon ⟨5, 6⟩, .plain .CommentLine ⟨6, 9⟩,
    .plain .Whitespace ⟨9, 10⟩, .plain .EndOfFile ⟨10, 10⟩], by decide +kernel, ?_⟩
  refine .keep (w := c!"mod") (by decide) (by decide) ?_
  refine .layout (old := [.plain .Whitespace ⟨3, 4⟩]) (g := c!"\t\n") (by decide) (by decide) (by decide)
    (blank (g := []) (w := c!"\t\n") (by decide) (by decide) (no (by decide)) .nil) ⟨_, _, rfl, by decide⟩ (kinds (by simp [isLineKind])) (by decide)
    (fun h => by cases h) ?_
  refine .keep (w := c!"a") (by decide) (by decide) ?_
  refine .layout (old := []) (g := c!" /*y*/ ") (by decide) (by decide) (by decide) ?_ ⟨_, _, rfl, by decide⟩ (kinds (by simp [isLineKind])) (by decide)
    (fun _ => ⟨by decide, by decide⟩) ?_
  · refine blank (w := c!" ") (g := c!"/*y*/ ") (by decide) (by decide) (no (by decide)) ?_
    refine .cons (w := c!"/*y*/") (g := c!" ") (t := .plain .CommentBlock ⟨0, 0 + blen c!"/*y*/"⟩) rfl (.block rfl (by decide) (.inl ⟨c!"y", rfl, ⟨_, rfl⟩, ?_⟩)) ?_
    · intro a' b' e
      cases a' with
      | nil => cases e
      | cons d a' => simp
    · exact blank (w := c!" ") (g := []) (by decide) (by decide) (no (by decide)) .nil
  refine .keep (w := c!";") (by decide) (by decide) ?_
  refine .layout (old := [.plain .CommentLine ⟨6, 9⟩, .plain .Whitespace ⟨9, 10⟩]) (g := c!"\n") (x := []) (by decide) (by decide) (by decide)
    (blank (g := []) (w := c!"\n") (by decide) (by decide) (by rintro ⟨_, _, e, _⟩; cases e) .nil) ⟨_, _, rfl, by decide⟩ (kinds (by simp [isLineKind])) (by decide)
    (fun h => by cases h) .done

end Verif.Props
