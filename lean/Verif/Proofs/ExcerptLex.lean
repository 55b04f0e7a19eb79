import Verif.Proofs.Join
import Verif.Proofs.Balanced
/-!
# The tokens of a part of a text
-/

namespace Verif
open Spec

attribute [local irreducible] singleToken

theorem commentKind_none {s : Text} : commentKind s = none ↔ ¬ c!"//" <+: s ∧ ¬ c!"/*" <+: s := by
  simp only [← List.isPrefixOf_iff_prefix]
  unfold commentKind
  constructor
  · intro h
    split at h
    · split at h
      · cases h
      · split at h <;> cases h
    · split at h
      · split at h
        · cases h
        · split at h <;> cases h
      · exact ⟨by assumption, by assumption⟩
  · rintro ⟨h1, h2⟩
    rw [if_neg h1, if_neg h2]

/-- Four characters decide. -/
theorem commentKind_four {s : Text} (h : 4 ≤ s.length) (rest : Text) : commentKind (s ++ rest) = commentKind s := by
  match s, h with
  | a :: b :: c :: d :: s, _ => simp [commentKind, List.isPrefixOf]

theorem prefix_more {p s : Text} (h : p <+: s) (rest : Text) : p <+: s ++ rest := h.trans ⟨rest, rfl⟩

theorem startsIn_more {P : Char → Prop} {s : Text} (h : StartsIn P s) (rest : Text) : StartsIn P (s ++ rest) := by
  obtain ⟨d, t, rfl, hd⟩ := h
  exact ⟨d, t ++ rest, rfl, hd⟩

theorem noCont_less {X : Xid} {post rest : Text} (h : NoCont X (post ++ rest)) : NoCont X post := by
  intro d t e
  subst e
  exact h d (t ++ rest) rfl

theorem literalAt_more {s : Text} (h : LiteralAt s) (rest : Text) : LiteralAt (s ++ rest) := by
  obtain ⟨a, post, rfl, h⟩ := h
  refine ⟨a, post ++ rest, by simp, ?_⟩
  rcases h with h | ⟨b, rfl, h | h | h⟩
  · exact .inl (rawStr_post h)
  · exact .inr ⟨b, rfl, .inl h⟩
  · exact .inr ⟨b, rfl, .inr (.inl h)⟩
  · exact .inr ⟨b, rfl, .inr (.inr (rawStr_post h))⟩

theorem numText_less {X : Xid} (hX : Sane X) {p : NumParts} {post rest : Text} (h : NumText X p (post ++ rest)) (hdot : post ≠ c!".") :
    NumText X p post := by
  refine ⟨h.ne, h.digits, fun hs => h.longest ?_, ?_, ?_, ?_, ?_, ?_, ?_, ?_⟩
  · have := startsIn_more hs rest
    simpa using this
  · intro hb b hb' t e hs
    exact h.decimal hb b hb' (t ++ rest) (by rw [← List.append_assoc, e]; simp) (startsIn_more hs rest)
  · intro ds hd
    have := h.frac ds hd
    refine ⟨this.digits, fun hs => this.longest ?_, fun hs => this.notRange ?_, fun hs => this.notAccess ?_⟩
    · simpa using startsIn_more hs rest
    · simpa using startsIn_more hs rest
    · simpa using startsIn_more hs rest
  · intro hn t e
    have := h.noFrac hn (t ++ rest) (by rw [← List.append_assoc, e]; rfl)
    cases t with
    | cons c t =>
      rcases this with ⟨d, u, e', hd⟩ | ⟨d, u, e', hd⟩
      · exact .inl ⟨c, t, rfl, by cases e'; exact hd⟩
      · exact .inr ⟨c, t, rfl, by cases e'; exact hd⟩
    | nil =>
      exfalso
      -- the period is what follows
      have hexp : p.expText = [] := by
        cases he : p.exp with
        | none => simp [NumParts.expText, he]
        | some r =>
          obtain ⟨m, ds⟩ := r
          have h1 := (h.exp m ds he).1
          simp [NumParts.expText, he] at e
          obtain ⟨rfl, -⟩ := e
          rcases h1 with h1 | h1 <;> cases h1
      rw [hexp] at e
      cases hs : p.suf with
      | none => simp [NumParts.sufText, hs] at e; exact hdot e
      | some w =>
        obtain ⟨⟨c, cs, rfl, hc, -⟩, -⟩ := h.suf w hs
        simp [NumParts.sufText, hs] at e
        rw [e.1] at hc
        rcases hc with hc | hc
        · rw [hX.start '.' (by decide)] at hc
          exact absurd hc (by decide)
        · cases hc
  · intro m ds he
    obtain ⟨h1, h2, h3, h4⟩ := h.exp m ds he
    exact ⟨h1, h2, h3, fun hs => h4 (by simpa using startsIn_more hs rest)⟩
  · intro hn m t e hm hs
    exact h.noExp hn m (t ++ rest) (by rw [← List.append_assoc, e]; rfl) hm (startsIn_more hs rest)
  · intro w hw
    exact ⟨(h.suf w hw).1, noCont_less (h.suf w hw).2⟩
  · exact fun hn hs => h.noSuf hn (startsIn_more hs rest)

/-- A token is the same if some of what comes after it is missing. -/
theorem spelling_less {X : Xid} (hX : Sane X) {o : Nat} {t : Token} {body post rest : Text} (h : Spelling X o t body (post ++ rest)) (hdot : post ≠ c!".") :
    Spelling X o t body post := by
  generalize hx : post ++ rest = x at h
  cases h with
  | ident h1 h2 h3 h4 h5 =>
    subst hx
    refine .ident h1 h2 (noCont_less h3) (fun h => h4 ?_) (fun h => h5 ?_)
    · simpa using literalAt_more h rest
    · simpa using prefix_more h rest
  | keyword h1 h2 => subst hx; exact .keyword h1 (noCont_less h2)
  | rawIdent h1 h2 => subst hx; exact .rawIdent h1 (noCont_less h2)
  | symbol h1 h2 h3 =>
    subst hx
    refine .symbol h1 (fun k' w' h4 h5 => h2 k' w' h4 (by simpa using prefix_more h5 rest)) ?_
    rw [commentKind_none] at h3 ⊢
    exact ⟨fun h => h3.1 (by simpa using prefix_more h rest), fun h => h3.2 (by simpa using prefix_more h rest)⟩
  | char h1 => exact .char h1
  | str h1 => exact .str h1
  | strRaw h1 => subst hx; exact .strRaw (rawStr_post h1)
  | byte h1 => exact .byte h1
  | byteStr h1 => exact .byteStr h1
  | byteStrRaw h1 => subst hx; exact .byteStrRaw (rawStr_post h1)
  | lifetime h1 h2 h3 => subst hx; exact .lifetime h1 (noCont_less h2) (fun h => h3 ⟨h.1, startsIn_more h.2 rest⟩)
  | number h1 h2 => subst hx; exact .number (numText_less hX h1 hdot) h2
  | line h1 h2 h3 =>
    subst hx
    refine .line h1 ?_ ⟨h3.1, fun d t e => h3.2 d (t ++ rest) (by rw [e]; rfl)⟩
    rw [← h2]
    cases post with
    | nil =>
      cases rest with
      | nil => rfl
      | cons d r =>
        have := h3.2 d r rfl
        subst this
        rw [List.append_nil, List.nil_append, commentKind_newline]
    | cons d r =>
      have := h3.2 d (r ++ rest) rfl
      subst this
      rw [List.cons_append, commentKind_newline, commentKind_newline]
  | @block k op _ _ h1 h2 h3 =>
    subst hx
    rcases h3 with ⟨inner, rfl, h3⟩ | ⟨inner, rfl, h3, h4⟩
    · refine .block h1 ?_ (.inl ⟨inner, rfl, firstOcc_post h3⟩)
      have : 4 ≤ (op ++ inner ++ c!"*/").length := by
        have : 2 ≤ op.length := by cases k <;> cases h1 <;> decide
        simp; omega
      rw [commentKind_four this] at h2 ⊢
      exact h2
    · obtain ⟨rfl, rfl⟩ := List.append_eq_nil_iff.mp h4
      exact .block h1 h2 (.inr ⟨inner, rfl, h3, rfl⟩)
  | ws h1 h2 h3 => subst hx; exact .ws h1 h2 (fun h => h3 (startsIn_more h rest))

/-! ## Parts of a text -/

theorem spelled_nil {X : Xid} (hX : Sane X) {o : Nat} {ts : List Token} (h : Spelled X o ts []) : ts = [.plain .EndOfFile ⟨o, o⟩] := by
  generalize hx : ([] : Text) = x at h
  cases h with
  | done => rfl
  | token hs _ => exact absurd (List.nil_eq_append_iff.mp hx).1 (spelling_ext hX hs).1

theorem spelled_unique {X : Xid} (hX : Sane X) {o : Nat} {ts : List Token} {s : Text} (h : Spelled X o ts s) :
    ∀ {vs}, Spelled X o vs s → vs = ts := by
  induction h with
  | done => intro vs h; exact spelled_nil hX h
  | token hs _ ih =>
    intro vs h
    obtain ⟨us, rfl, h1⟩ := spelled_head hX hs h
    rw [ih h1]

theorem spelled_period {X : Xid} (hX : Sane X) {o : Nat} {ts : List Token} (h : Spelled X o ts c!".") :
    ts = [.plain .Period ⟨o, o + 1⟩, .plain .EndOfFile ⟨o + 1, o + 1⟩] := by
  have h1 : Spelling X o (.plain .Period ⟨o, o + blen c!"."⟩) c!"." [] :=
    .symbol rfl (fun k' w' _ h => by simpa using h.length_le) (by decide)
  obtain ⟨us, rfl, h2⟩ := spelled_head hX h1 h
  rw [spelled_nil hX h2]
  rfl

/-- The text from a token on. -/
theorem spelled_from {X : Xid} (hX : Sane X) : ∀ {T : List Token} {o : Nat} {u : Token} {S : List Token} {s : Text},
    Spelled X o (T ++ u :: S) s → ∃ pre post, s = pre ++ post ∧ Spelled X (o + blen pre) (u :: S) post ∧ u.extent.s = o + blen pre := by
  intro T
  induction T with
  | nil =>
    intro o u S s h
    refine ⟨[], s, rfl, h, ?_⟩
    cases h with
    | done => rfl
    | token hs _ => rw [(spelling_ext hX hs).2.1]; rfl
  | cons x T ih =>
    intro o u S s h
    generalize hy : x :: T ++ u :: S = y at h
    cases h with
    | done => simp at hy
    | @token _ _ body post _ hs h1 =>
      simp at hy
      obtain ⟨rfl, rfl⟩ := hy
      obtain ⟨pre, p2, rfl, h2, h3⟩ := ih h1
      refine ⟨body ++ pre, p2, by simp, ?_, ?_⟩
      · rw [blen_append, ← Nat.add_assoc]; exact h2
      · rw [blen_append, ← Nat.add_assoc]; exact h3

/-- The text up to the end of a token. -/
theorem spelled_upto {X : Xid} (hX : Sane X) : ∀ {Q : List Token} {o : Nat} {u : Token} {S : List Token} {s : Text},
    Spelled X o (Q ++ u :: S) s → u.kind? ≠ some .Period → u.kind? ≠ some .EndOfFile →
    ∃ mid post, s = mid ++ post ∧ u.extent.e = o + blen mid ∧ Spelled X o (Q ++ u :: [.plain .EndOfFile ⟨o + blen mid, o + blen mid⟩]) mid := by
  intro Q
  induction Q with
  | nil =>
    intro o u S s h hp he
    cases h with
    | done => exact absurd rfl he
    | @token _ _ body post _ hs h1 =>
      refine ⟨body, post, rfl, by rw [(spelling_ext hX hs).2.1], ?_⟩
      have h2   := spelling_less hX (post := []) (rest := post) hs (by simp)
      have := Spelled.token h2 .done
      simpa using this
  | cons x Q ih =>
    intro o u S s h hp he
    generalize hy : x :: Q ++ u :: S = y at h
    cases h with
    | done => simp at hy
    | @token _ _ body post _ hs h1 =>
      simp at hy
      obtain ⟨rfl, rfl⟩ := hy
      obtain ⟨mid, p2, rfl, h2, h3⟩ := ih h1 hp he
      refine ⟨body ++ mid, p2, by simp, by rw [blen_append, ← Nat.add_assoc]; exact h2, ?_⟩
      have h4 : mid ≠ c!"." := by
        rintro rfl
        have e := spelled_period hX h3
        cases Q with
        | nil => simp at e; rw [e.1] at hp; exact hp rfl
        | cons y Q =>
          have := congrArg List.length e
          simp at this
      rw [blen_append, ← Nat.add_assoc]
      exact .token (spelling_less hX hs h4) h3

/-- The text from the start of one token to the end of another one has the tokens in between, but moved. -/
theorem spelled_excerpt {X : Xid} (hX : Sane X) {ts P Q R : List Token} {x u : Token} {code : Text} (h : Spelled X 0 ts code)
    (e : significant ts = P ++ (Q ++ u :: R)) (hx : (Q ++ [u]).head? = some x) (hp : u.kind? ≠ some .Period)
    (he : u.kind? ≠ some .EndOfFile) :
    ∃ pre mid post ts' eof, code = pre ++ (mid ++ post) ∧ x.extent.s = blen pre ∧ u.extent.e = blen pre + blen mid ∧ Spelled X 0 ts' mid ∧
      (significant ts').map (·.moved (blen pre)) = Q ++ u :: [eof] ∧ eof.isEOF = true ∧
      (∀ t ∈ ts', t.moved (blen pre) ∈ ts ∨ t.isEOF = true) ∧
      ∃ before body after, ts = before ++ (body ++ after) ∧ ts'.map (·.moved (blen pre)) = body ++ [eof] ∧ body.head? = some x ∧
        body.getLast? = some u := by
  rw [Props.significant_eq] at e
  obtain ⟨T1, T2, rfl, h1, h2⟩ := List.filter_eq_append_iff.mp e
  -- the first of the tokens
  obtain ⟨S, hS⟩ : ∃ S, Q ++ u :: R = x :: S := by
    cases Q with
    | nil => simp at hx; exact ⟨R, by rw [hx]; rfl⟩
    | cons y Q => simp at hx; exact ⟨_, by rw [hx]; rfl⟩
  rw [hS] at h2
  obtain ⟨T3, T4, rfl, h3, h4, h5⟩ := List.filter_eq_cons_iff.mp h2
  rw [← List.append_assoc] at h
  obtain ⟨pre, s, rfl, h6, h7⟩ := spelled_from hX h
  rw [Nat.zero_add] at h6 h7
  -- the last of them
  have h8 : (x :: T4).filter (fun t => !isTrivia t) = Q ++ u :: R := by rw [List.filter_cons, if_pos h4, h5, hS]
  obtain ⟨W, T5, e1, h9, h10⟩ := List.filter_eq_append_iff.mp h8
  obtain ⟨T6, T7, rfl, h11, h12, h13⟩ := List.filter_eq_cons_iff.mp h10
  rw [e1, ← List.append_assoc] at h6
  obtain ⟨mid, post, rfl, h14, h15⟩ := spelled_upto hX h6 hp he
  obtain ⟨ts', h16⟩ := spelled_somewhere h15 0
  have h17 := spelled_unique hX h15 (by simpa using spelled_moved h16 (blen pre))
  refine ⟨pre, mid, post, ts', .plain .EndOfFile ⟨blen pre + blen mid, blen pre + blen mid⟩, rfl, h7, h14, h16, ?_, rfl, ?_,
    T1 ++ T3, W ++ (T6 ++ [u]), T7, by rw [e1]; simp, by rw [h17]; simp, ?_, by simp⟩
  · have e2 : (fun t => !isTrivia t) = ((fun t => !isTrivia t) ∘ fun t => Token.moved (blen pre) t) := by
      funext t
      simp [isTrivia_moved]
    rw [Props.significant_eq, e2, ← List.filter_map, h17, List.filter_append, List.filter_append, h9,
      List.filter_eq_nil_iff.mpr (fun a ha => h11 a ha), List.filter_cons, if_pos h12, List.append_nil]
    rfl
  · intro t ht
    have h18 : t.moved (blen pre) ∈ W ++ T6 ++ u :: [.plain .EndOfFile ⟨blen pre + blen mid, blen pre + blen mid⟩] := by
      rw [← h17]
      exact List.mem_map.mpr ⟨t, ht, rfl⟩
    have h19 : t.moved (blen pre) ∈ W ++ (T6 ++ u :: T7) ∨ t.moved (blen pre) = .plain .EndOfFile ⟨blen pre + blen mid, blen pre + blen mid⟩ := by
      simp at h18 ⊢
      rcases h18 with h | h | h | h
      · exact .inl (.inl h)
      · exact .inl (.inr (.inl h))
      · exact .inl (.inr (.inr (.inl h)))
      · exact .inr h
    rcases h19 with h19 | h19
    · left
      rw [← e1] at h19
      exact List.mem_append.mpr (.inr (List.mem_append.mpr (.inr h19)))
    · right
      rw [Move.MT.eof (d := blen pre) (t' := t.moved (blen pre)) rfl, h19]
      rfl
  · cases W with
    | cons y W => simp at e1 ⊢; exact e1.1.symm
    | nil =>
      cases T6 with
      | cons y T6 => simp at e1 ⊢; exact e1.1.symm
      | nil => simp at e1 ⊢; exact e1.1.symm

/-- What is left open in a part of a text is left open in the text. -/
theorem _root_.Verif.Spec.Finished.part {X : Xid} (hX : Sane X) {pre mid post : Text} {ts ts' : List Token} (hf : Finished (pre ++ (mid ++ post)) ts)
    (h9 : Spelled X 0 ts' mid) (hsub : ∀ t ∈ ts', t.moved (blen pre) ∈ ts ∨ t.isEOF = true) : Finished mid ts' := by
  constructor
  · intro t ht k op hk ho
    rcases hsub t ht with h17 | h17
    · obtain ⟨inner, h18⟩ := hf.comments _ h17 k op (by rw [Token.moved_kind]; exact hk) ho
      refine ⟨inner, ?_⟩
      rw [← h18]
      obtain ⟨T, S, rfl⟩ := List.append_of_mem ht
      obtain ⟨a, b, rfl, h19, -⟩ := spelled_from hX h9
      generalize hy : t :: S = y at h19
      cases h19 with
      | done => cases hy; cases hk; cases ho
      | @token _ _ body c _ h20 _ =>
        cases hy
        have h21 := (spelling_ext hX h20).2.1
        rw [Nat.zero_add] at h21
        have h22 : (t.moved (blen pre)).extent = ⟨blen (pre ++ a), blen (pre ++ a) + blen body⟩ := by
          have : (t.moved (blen pre)).extent = t.extent.moved (blen pre) := by cases t <;> rfl
          rw [this, h21, blen_append]
          simp [Extent.moved]; omega
        rw [h21, h22, sliceText_append a body c,
          show pre ++ (a ++ (body ++ c) ++ post) = (pre ++ a) ++ (body ++ (c ++ post)) by simp, sliceText_append (pre ++ a) body]
    · rw [isEOF_kind h17] at hk; cases hk; cases ho
  · rintro p n q rfl ht
    rcases hsub _ ht with h17 | h17
    · refine hf.rawBytes (pre ++ p) n (q ++ post) (by simp) ?_
      rw [blen_append]
      have : Token.moved (blen pre) (.plain .Ident ⟨blen p, blen p + 2⟩) = .plain .Ident ⟨blen pre + blen p, blen pre + blen p + 2⟩ := by
        simp [Token.moved, Extent.moved]; omega
      rw [← this]
      exact h17
    · cases h17

/-- The tokens of the text before a token, unless they end in a period. -/
theorem spelled_split {X : Xid} (hX : Sane X) : ∀ {A : List Token} {o : Nat} {B : List Token} {s : Text}, Spelled X o (A ++ B) s → B ≠ [] →
    (∀ u, A.getLast? = some u → u.kind? ≠ some .Period) →
    ∃ s₁ s₂, s = s₁ ++ s₂ ∧ Spelled X (o + blen s₁) B s₂ ∧ Spelled X o (A ++ [.plain .EndOfFile ⟨o + blen s₁, o + blen s₁⟩]) s₁ := by
  intro A
  induction A with
  | nil =>
    intro o B s h _ _
    exact ⟨[], s, rfl, h, .done⟩
  | cons x A ih =>
    intro o B s h hB hp
    generalize hy : x :: A ++ B = y at h
    cases h with
    | done => simp at hy; exact absurd hy.2.2 hB
    | @token _ _ body post _ hs h1 =>
      simp at hy
      obtain ⟨rfl, rfl⟩ := hy
      obtain ⟨s₁, s₂, rfl, h2, h3⟩ := ih h1 hB (fun u hu => hp u (by cases A with
        | nil => cases hu
        | cons y A => rw [List.getLast?_cons_cons]; exact hu))
      have h4 : s₁ ≠ c!"." := by
        rintro rfl
        have e := spelled_period hX h3
        cases A with
        | nil => simp at e
        | cons y A =>
          cases A with
          | nil => simp at e; exact hp y (by simp) (by rw [e.1]; rfl)
          | cons z A =>
            have := congrArg List.length e
            simp at this
      refine ⟨body ++ s₁, s₂, by simp, ?_, ?_⟩
      · rw [blen_append, ← Nat.add_assoc]; exact h2
      · rw [blen_append, ← Nat.add_assoc]
        exact .token (spelling_less hX hs h4) h3

/-- The last token is the end of the text. -/
theorem spelled_eof {X : Xid} {o : Nat} {ts : List Token} {s : Text} (h : Spelled X o ts s) :
    ∃ init, ts = init ++ [.plain .EndOfFile ⟨o + blen s, o + blen s⟩] := by
  induction h with
  | done => exact ⟨[], rfl⟩
  | @token o t body post ts hs _ ih =>
    obtain ⟨init, rfl⟩ := ih
    exact ⟨t :: init, by rw [blen_append, ← Nat.add_assoc]; rfl⟩

/-- The first token starts where the text does. -/
theorem spelled_start {X : Xid} (hX : Sane X) {o : Nat} {ts : List Token} {s : Text} (h : Spelled X o ts s) : ∃ t, ts.head? = some t ∧ t.extent.s = o := by
  cases h with
  | done => exact ⟨_, rfl, rfl⟩
  | token hs _ => exact ⟨_, rfl, by rw [(spelling_ext hX hs).2.1]⟩

/-- Between two tokens there is nothing. -/
theorem spelled_next {X : Xid} (hX : Sane X) : ∀ {A : List Token} {o : Nat} {t u : Token} {B : List Token} {s : Text}, Spelled X o (A ++ t :: u :: B) s →
    t.extent.e = u.extent.s := by
  intro A
  induction A with
  | nil =>
    intro o t u B s h
    rw [List.nil_append] at h
    cases h with
    | token hs h1 =>
      obtain ⟨v, h2, h3⟩ := spelled_start hX h1
      cases h2
      rw [(spelling_ext hX hs).2.1, h3]
  | cons x A ih =>
    intro o t u B s h
    generalize hy : x :: A ++ t :: u :: B = y at h
    cases h with
    | done => simp at hy
    | token hs h1 => simp at hy; obtain ⟨-, rfl⟩ := hy; exact ih h1

/-- The part of a list from the first to the last of some elements that are kept. -/
theorem filter_cut {α : Type} {p : α → Bool} {l P Q R : List α} (h : l.filter p = P ++ (Q ++ R)) (hQ : Q ≠ []) :
    ∃ a b c, l = a ++ (b ++ c) ∧ a.filter p = P ∧ b.filter p = Q ∧ c.filter p = R ∧ b.head? = Q.head? ∧ b.getLast? = Q.getLast? := by
  obtain ⟨a, l₂, rfl, h1, h2⟩ := List.filter_eq_append_iff.mp h
  obtain ⟨q, Q', rfl⟩ := List.exists_cons_of_ne_nil hQ
  obtain ⟨a', l₃, rfl, h3, h4, h5⟩ := List.filter_eq_cons_iff.mp h2
  have h6 : (q :: l₃).filter p = (q :: Q') ++ R := by rw [List.filter_cons, if_pos h4, h5]; rfl
  obtain ⟨Q'', u, e⟩ : ∃ Q'' u, q :: Q' = Q'' ++ [u] := ⟨_, _, (List.dropLast_concat_getLast (by simp)).symm⟩
  rw [e, List.append_assoc] at h6
  obtain ⟨b, l₄, e2, h7, h8⟩ := List.filter_eq_append_iff.mp h6
  obtain ⟨b', c, rfl, h9, h10, h11⟩ := List.filter_eq_cons_iff.mp h8
  refine ⟨a ++ a', b ++ (b' ++ [u]), c, by rw [e2]; simp, ?_, ?_, h11, ?_, ?_⟩
  · rw [List.filter_append, h1, List.filter_eq_nil_iff.mpr fun x hx => h3 x hx, List.append_nil]
  · rw [e, List.filter_append, List.filter_append, h7, List.filter_eq_nil_iff.mpr fun x hx => h9 x hx, List.nil_append, List.filter_cons, if_pos h10]
    rfl
  · cases b with
    | cons y b => simp at e2 ⊢; exact e2.1.symm
    | nil =>
      cases b' with
      | cons y b' => simp at e2 ⊢; exact e2.1.symm
      | nil => simp at e2 ⊢; exact e2.1.symm
  · rw [e]; simp

end Verif
