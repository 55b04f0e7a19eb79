import Verif.Proofs.LexStuck
/-!
# Where the tokenizer stops: the texts at which no token can be read
-/

namespace Verif
open Spec

attribute [local irreducible] singleToken

variable {X : Xid}

theorem str_split (t : Text) : (∃ a b, t = a ++ '"' :: b ∧ StrBody a) ∨ OpenStr t := by
  have key : ∀ n (t : Text), t.length ≤ n → (∃ a b, t = a ++ '"' :: b ∧ StrBody a) ∨ OpenStr t := by
    intro n
    induction n with
    | zero =>
      intro t ht
      have : t = [] := by simpa using ht
      subst this
      exact .inr .nil
    | succ n ih =>
      intro t ht
      match t with
      | [] => exact .inr .nil
      | c :: cs =>
        by_cases h1 : c = '\\'
        · subst h1
          match cs with
          | [] => exact .inr .slash
          | d :: ds =>
            rcases ih ds (by simp at ht; omega) with ⟨a, b, rfl, ha⟩ | h
            · exact .inl ⟨'\\' :: d :: a, b, rfl, .esc ha⟩
            · exact .inr (.esc h)
        · by_cases h2 : c = '"'
          · subst h2
            exact .inl ⟨[], cs, rfl, .nil⟩
          · rcases ih cs (by simp at ht; omega) with ⟨a, b, rfl, ha⟩ | h
            · exact .inl ⟨c :: a, b, rfl, .plain h2 h1 ha⟩
            · exact .inr (.plain h2 h1 h)
  exact key t.length t (Nat.le_refl _)

theorem hash_split (t : Text) : ∃ n u, t = List.replicate n '#' ++ u ∧ ¬ StartsIn (· = '#') u := by
  induction t with
  | nil => exact ⟨0, [], rfl, by rintro ⟨c, r, e, -⟩; cases e⟩
  | cons c t ih =>
    by_cases h : c = '#'
    · subst h
      obtain ⟨n, u, rfl, hu⟩ := ih
      exact ⟨n + 1, u, by simp [List.replicate_succ], hu⟩
    · exact ⟨0, c :: t, rfl, by rintro ⟨d, r, e, rfl⟩; cases e; exact h rfl⟩

theorem hex_split (t : Text) : ∃ ds u, t = ds ++ u ∧ (∀ d ∈ ds, Hex d) ∧ ¬ StartsIn Hex u := by
  induction t with
  | nil => exact ⟨[], [], rfl, by simp, by rintro ⟨c, r, e, -⟩; cases e⟩
  | cons c t ih =>
    by_cases h : Hex c
    · obtain ⟨ds, u, rfl, hd, hu⟩ := ih
      refine ⟨c :: ds, u, rfl, ?_, hu⟩
      intro d hd'
      rcases List.mem_cons.mp hd' with rfl | hd'
      · exact h
      · exact hd d hd'
    · exact ⟨[], c :: t, rfl, by simp, by rintro ⟨d, r, e, hd⟩; cases e; exact h hd⟩

/-- An escape, or none. -/
theorem escape_split (t : Text) : (∃ b u, t = b ++ u ∧ Escape b ∧ ∀ ds, b = 'x' :: ds → ¬ StartsIn Hex u) ∨
    (∃ n E, NoToken X (c!"'\\" ++ t) n E) := by
  by_cases h1 : StartsIn (· ∈ c!"nrt\\'\"0") t
  · obtain ⟨c, u, rfl, hc⟩ := h1
    refine .inl ⟨[c], u, rfl, .simple hc, ?_⟩
    rintro ds e
    cases e
    exact absurd hc (by decide)
  by_cases h2 : StartsIn (· = 'x') t
  · obtain ⟨_, u, rfl, rfl⟩ := h2
    obtain ⟨ds, u, rfl, hd, hu⟩ := hex_split u
    by_cases hn : ds = []
    · subst hn
      exact .inr ⟨_, _, .hex hu⟩
    · exact .inl ⟨'x' :: ds, u, rfl, .hex hn hd, fun _ _ => hu⟩
  by_cases h3 : c!"u{" <+: t
  · obtain ⟨u, rfl⟩ := h3
    obtain ⟨ds, u, rfl, hd, hu⟩ := hex_split u
    by_cases hn : ds = []
    · subst hn
      exact .inr ⟨_, _, .unicode hu⟩
    · by_cases hb : StartsIn (· = '}') u
      · obtain ⟨_, u, rfl, rfl⟩ := hb
        refine .inl ⟨c!"u{" ++ ds ++ c!"}", u, by simp, .unicode hn hd, ?_⟩
        rintro ds e
        cases e
      · have := NoToken.unicodeEnd (X := X) hn hd (t := u) fun ⟨c, r, e, h⟩ => h.elim (fun h => hu ⟨c, r, e, h⟩) fun h => hb ⟨c, r, e, h⟩
        exact .inr ⟨_, _, by simpa using this⟩
  refine .inr ⟨_, _, .escape ?_ h3⟩
  rintro ⟨c, r, rfl, h⟩
  by_cases hx : c = 'x'
  · exact h2 ⟨c, r, rfl, hx⟩
  · refine h1 ⟨c, r, rfl, ?_⟩
    revert h; simp; grind

/-- Where the tokenizer fails, no token can be read. -/
theorem fails_noToken (hX : Sane X) {s : Text} {o : Nat} {q : LPoint} {e : LErr} {l : LLog} (hs : s ≠ [])
    (h : singleToken X ⟨s, o⟩ = (.fail q e, l)) : ∃ n E, NoToken X s n E := by
  have no : ∀ t body post, s = body ++ post → Spelling X o t body post → False := by
    rintro t body post rfl hsp
    obtain ⟨l', hg⟩ := spelling_read hX hsp
    rw [h] at hg
    cases hg
  have noC : commentKind s = none := by
    cases hk : commentKind s with
    | none => rfl
    | some k =>
      exfalso
      obtain ⟨q', e', l', h1⟩ := comment_ok (pt := ⟨s, o⟩) hk
      obtain ⟨l'', h2⟩ := alts_head_ok (singleTokenAlts X) h1
      unfold singleToken at h
      rw [h] at h2
      cases h2
  match s, hs with
  | d :: t, _ =>
  by_cases hq : d = '"'
  · subst hq
    rcases str_split t with ⟨a, b, rfl, ha⟩ | ht
    · exact absurd (Spelling.str (X := X) (off := o) (body := c!"\"" ++ a ++ c!"\"") (post := b) ⟨a, ha, rfl⟩) (no _ _ _ (by simp))
    · exact ⟨_, _, .str ht⟩
  by_cases hq' : d = '\''
  · subst hq'
    match t with
    | [] => exact ⟨_, _, .quoteEnd⟩
    | c :: t =>
      by_cases hc : c = '\\'
      · subst hc
        rcases escape_split (X := X) t with ⟨b, u, rfl, hb, hu⟩ | h
        · by_cases hu' : StartsIn (· = '\'') u
          · obtain ⟨_, u, rfl, rfl⟩ := hu'
            exact absurd (Spelling.char (X := X) (off := o) (body := c!"'" ++ ('\\' :: b) ++ c!"'") (post := u) ⟨_, .esc hb, rfl⟩) (no _ _ _ (by simp))
          · exact ⟨_, _, .escaped hb hu' hu⟩
        · exact h
      · by_cases ht : StartsIn (· = '\'') t
        · obtain ⟨_, u, rfl, rfl⟩ := ht
          exact absurd (Spelling.char (X := X) (off := o) (body := c!"'" ++ [c] ++ c!"'") (post := u) ⟨_, .single hc, rfl⟩) (no _ _ _ (by simp))
        · by_cases hw : WordStart X c
          · obtain ⟨w, post, e, hw, hp⟩ := word_split (X := X) (s := c :: t) ⟨c, t, rfl, hw⟩
            refine absurd (Spelling.lifetime (X := X) (off := o) hw hp ?_) (no _ _ post (by rw [e]; simp))
            rintro ⟨hl, x, r, rfl, rfl⟩
            match w, hl with
            | [y], _ =>
              cases e
              exact ht ⟨_, r, rfl, rfl⟩
          · exact ⟨_, _, .quote hc hw ht⟩
  by_cases hr : c!"r#" <+: d :: t
  · obtain ⟨u, hu⟩ := hr
    rw [← hu] at no ⊢
    obtain ⟨n, u, rfl, hh⟩ := hash_split u
    have e : c!"r#" ++ (List.replicate n '#' ++ u) = c!"r" ++ List.replicate (n + 1) '#' ++ u := by simp [List.replicate_succ]
    rw [e] at no ⊢
    by_cases hu' : StartsIn (· = '"') u
    · obtain ⟨_, u, rfl, rfl⟩ := hu'
      cases hf : findStr (rawClose (n + 1)) u with
      | none =>
        have := NoToken.rawEnd (X := X) (n := n + 1) (by omega) (findStr_none hf)
        exact ⟨_, _, by simpa using this⟩
      | some k =>
        exfalso
        obtain ⟨a, hfo, -⟩ := findStr_some hf (by simp [rawClose])
        obtain ⟨b, hb⟩ := hfo.1
        refine no _ (c!"r" ++ List.replicate (n + 1) '#' ++ c!"\"" ++ a ++ rawClose (n + 1)) b ?_ (.strRaw ⟨n + 1, a, rfl, hb ▸ hfo⟩)
        rw [hb]
        simp
    · refine ⟨_, _, .rawStart (by omega) (fun ⟨c, r, e, h⟩ => h.elim (fun h => hh ⟨c, r, e, h⟩) fun h => hu' ⟨c, r, e, h⟩) ?_⟩
      intro hn hw
      obtain ⟨w, post, rfl, hw, hp⟩ := word_split hw
      obtain rfl : n = 0 := by omega
      exact no _ (c!"r#" ++ w) post (by simp) (.rawIdent hw hp)
  by_cases hw : WordStart X d
  · exfalso
    by_cases hl : LiteralAt (d :: t)
    · obtain ⟨a, post, e, h3 | ⟨b, rfl, h3 | h3 | h3⟩⟩ := hl
      · exact no _ _ post e (.strRaw h3)
      · exact no _ _ post e (.byte h3)
      · exact no _ _ post e (.byteStr h3)
      · exact no _ _ post e (.byteStrRaw h3)
    obtain ⟨w, post, e, hw, hp⟩ := word_split (X := X) (s := d :: t) ⟨d, t, rfl, hw⟩
    rw [e] at no hl hr
    by_cases hk : ∃ k, keywordText k = some w
    · obtain ⟨k, hk⟩ := hk
      exact no _ w post rfl (.keyword hk hp)
    · exact no _ w post rfl (.ident hw (fun k h => hk ⟨k, h⟩) hp hl hr)
  by_cases hd : d ∈ digitChars .Decimal
  · exfalso
    have num : ∀ b, HasBase b (d :: t) → (b = .Decimal → ∀ b' ≠ .Decimal, ¬ HasBase b' (d :: t)) → False := by
      intro b hb hd
      obtain ⟨p, post, -, e, hn⟩ := number_split X b hb hd
      refine no _ _ post e (.number hn ?_)
      rintro ⟨c, r, hr, rfl⟩
      rw [hr] at e
      cases e
      exact hw (.inr rfl)
    by_cases h8 : ∃ b, b ≠ .Decimal ∧ HasBase b (d :: t)
    · obtain ⟨b, hb, h8⟩ := h8
      exact num b h8 fun e => absurd e hb
    · exact num .Decimal ⟨d :: t, rfl, d, t, rfl, .inl hd⟩ fun _ b' hb' h => h8 ⟨b', hb', h⟩
  by_cases hws : d ∈ wsChars
  · exfalso
    have key : ∀ c, isWs c = true ↔ c ∈ wsChars := isWs_iff
    have e := takeWhile_split isWs (d :: t)
    refine no _ _ _ e (.ws ?_ (fun c hc => (key c).mp (takeWhile_all c hc)) ?_)
    · simp [List.takeWhile, (key d).mpr hws]
    · rintro ⟨x, r, hx, hw⟩
      have := dropWhile_head hx
      rw [(key x).mpr hw] at this
      cases this
  by_cases hsy : ∃ k, symbolText k = some [d]
  · exfalso
    obtain ⟨k, hk⟩ := hsy
    obtain ⟨r, hr, ⟨post, e⟩, hm⟩ := exists_longest (P := fun r => r.1 <+: d :: t) ⟨_, symbolText_table k _ hk, t, rfl⟩
    rw [← e] at no noC hm
    exact no _ r.1 post rfl (.symbol (symbolTable_text r hr) (fun k' w' hk' hp => hm _ (symbolText_table k' w' hk') hp) noC)
  exact ⟨_, _, .stray hw hd hws hq' hq fun k hk => hsy ⟨k, hk⟩⟩

/-! ### the furthest failures -/

theorem Failures.addAll_max {ε} {N : Nat} : ∀ (l : List (Nat × ε)) (f : Failures ε), (∀ x ∈ l, x.1 ≤ N) → f.point ≤ N →
    (f.addAll l).point ≤ N ∧ (((∃ x ∈ l, x.1 = N) ∨ f.point = N) → (f.addAll l).point = N) ∧
    ((f.addAll l).point = N → ∀ e, e ∈ (f.addAll l).kinds ↔ (N, e) ∈ l ∨ (f.point = N ∧ e ∈ f.kinds))
  | [], f, _, hf => by
    refine ⟨hf, ?_, ?_⟩
    · rintro (⟨x, hx, -⟩ | h)
      · cases hx
      · exact h
    · intro h e
      simp only [Failures.addAll] at h ⊢
      simp [h]
  | (p, a) :: l, f, hl, hf => by
    have hp : p ≤ N := hl (p, a) (by simp)
    have key : (f.add p a).point ≤ N ∧ ((p = N ∨ f.point = N) → (f.add p a).point = N) ∧
        ((f.add p a).point = N → ∀ e, e ∈ (f.add p a).kinds ↔ (p = N ∧ e = a) ∨ (f.point = N ∧ e ∈ f.kinds)) := by
      unfold Failures.add
      split
      · rename_i h
        refine ⟨hf, ?_, fun hN e => ?_⟩
        · rintro (h | h) <;> omega
        · have : ¬ p = N := by omega
          simp [this, hN]
      · split
        · rename_i h
          refine ⟨hf, ?_, fun hN e => ?_⟩
          · rintro (h | h) <;> dsimp only <;> omega
          · dsimp only at hN
            simp only [List.mem_append, List.mem_cons, List.not_mem_nil, or_false, h, hN, true_and]
            exact or_comm
        · refine ⟨hp, ?_, fun hN e => ?_⟩
          · rintro (h | h) <;> dsimp only <;> omega
          · dsimp only at hN
            have : ¬ f.point = N := by omega
            simp [this, hN]
    obtain ⟨h1, h2, h3⟩ := Failures.addAll_max l (f.add p a) (fun x hx => hl x (by simp [hx])) key.1
    refine ⟨h1, ?_, fun hN e => ?_⟩
    · rintro (⟨x, hx, he⟩ | h)
      · rcases List.mem_cons.mp hx with rfl | hx
        · exact h2 (.inr (key.2.1 (.inl he)))
        · exact h2 (.inl ⟨x, hx, he⟩)
      · exact h2 (.inr (key.2.1 (.inr h)))
    · simp only [Failures.addAll] at hN ⊢
      rw [h3 hN e, List.mem_cons, Prod.mk.injEq]
      by_cases hpt : (f.add p a).point = N
      · rw [key.2.2 hpt e]
        simp only [hpt, true_and]
        grind
      · have h4 : ¬ p = N := fun h => hpt (key.2.1 (.inl h))
        have h5 : ¬ f.point = N := fun h => hpt (key.2.1 (.inr h))
        have h6 : ¬ N = p := fun h => h4 h.symm
        simp [hpt, h5, h6]

theorem Failures.addAll_append {ε} (f : Failures ε) (l l' : List (Nat × ε)) : f.addAll (l ++ l') = (f.addAll l).addAll l' := by
  induction l generalizing f with
  | nil => rfl
  | cons x l ih => exact ih _

theorem Spec.Begins.pre {o : Nat} {ts : List Token} {code rest : Text} (h : Begins X o ts code rest) : ∃ pre, code = pre ++ rest := by
  induction h with
  | none => exact ⟨[], rfl⟩
  | @token _ _ body _ _ _ _ _ ih =>
    obtain ⟨pre, rfl⟩ := ih
    exact ⟨body ++ pre, by simp⟩

/-- The failures recorded so far are not beyond `N`: those of the token before are dropped, or they are all kept. -/
theorem stuck_next (hX : Sane X) {s : Text} {o n : Nat} {E : LErr → Prop} (h : NoToken X s n E) (f : Failures LErr) (cl : Bool) :
    ∃ d, ((⟨f, ⟨s, o⟩, false⟩ : Tokens).next X cl).1 = some (.err d) ∧ o + n ≤ d.location ∧
      (f.point ≤ o + n → d.location = o + n ∧ ∀ e, e ∈ d.errors ↔ E e ∨ (f.point = o + n ∧ e ∈ f.kinds)) := by
  obtain ⟨L, ⟨q, e, l, hf, hx⟩, hL, hE⟩ := noToken_tried (o := o) hX h
  have hne : s.isEmpty = false := by cases h <;> rfl
  have hE' : ∃ e, E e := by
    cases h
    case stray => exact ⟨.ExpectedComment, .inr (by decide)⟩
    case escape => exact ⟨.Literal c!"n", by unfold AnyEscape; decide⟩
    case rawStart => exact ⟨_, .inl rfl⟩
    case quoteEnd => exact ⟨.ExpectedCharacter, by decide⟩
    all_goals exact ⟨_, rfl⟩
  have hall : (f.addAll (offs l)).add q.offset e = f.addAll (offs (l ++ [(q, e)])) := by
    rw [offs_append, Failures.addAll_append]
    rfl
  refine ⟨⟨((f.addAll (offs l)).add q.offset e).point, ((f.addAll (offs l)).add q.offset e).kinds⟩, ?_, ?_, ?_⟩
  · simp only [Tokens.next, hne, Bool.false_eq_true, if_false, hf]
    rfl
  · dsimp only
    rw [hall]
    obtain ⟨e', he'⟩ := hE'
    have hm := (hx _).mpr ((hE e').mp he')
    by_cases hp : f.point ≤ o + n
    · exact Nat.le_of_eq ((Failures.addAll_max _ f (fun x h => hL x ((hx x).mp h)) hp).2.1 (.inl ⟨_, hm, rfl⟩)).symm
    · have := Failures.addAll_max (N := f.point) (offs (l ++ [(q, e)])) f (fun x h => by have := hL x ((hx x).mp h); omega) (Nat.le_refl _)
      rw [this.2.1 (.inr rfl)]
      omega
  · intro hp
    dsimp only
    rw [hall]
    obtain ⟨e', he'⟩ := hE'
    have hm := (hx _).mpr ((hE e').mp he')
    obtain ⟨-, h2, h3⟩ := Failures.addAll_max _ f (fun x h => hL x ((hx x).mp h)) hp
    have h4 := h2 (.inl ⟨_, hm, rfl⟩)
    refine ⟨h4, fun a => ?_⟩
    rw [h3 h4 a, hx, ← hE a]

/-- Reading the tokens at the beginning, and then the error. -/
theorem drain_begins (hX : Sane X) {o : Nat} {ts : List Token} {code rest : Text} {n : Nat} {E : LErr → Prop} (h : Begins X o ts code rest)
    (hn : NoToken X rest n E) : ∀ (m : Nat) (f : Failures LErr) (cl : Bool) (acc : List Token), code.length < m → (cl = true → f = .new) →
    ∃ d, Tokens.drain X cl m ⟨f, ⟨code, o⟩, false⟩ acc = .err d ∧ o + blen code + n ≤ d.location + blen rest ∧
      (cl = true → d.location + blen rest = o + blen code + n ∧ ∀ e, e ∈ d.errors ↔ E e) := by
  induction h with
  | @none o s =>
    intro m f cl acc hm hf
    obtain ⟨m, rfl⟩ : ∃ k, m = k + 1 := ⟨m - 1, by omega⟩
    obtain ⟨d, h1, h2, h3⟩ := stuck_next (o := o) hX hn f cl
    refine ⟨d, ?_, by omega, fun hc => ?_⟩
    · unfold Tokens.drain
      cases hr : Tokens.next X cl ⟨f, ⟨s, o⟩, false⟩ with
      | mk a b =>
        rw [hr] at h1
        dsimp only at h1
        subst h1
        rfl
    · have hf := hf hc
      subst hf
      obtain ⟨h4, h5⟩ := h3 (by simp [Failures.new])
      refine ⟨by omega, fun e => ?_⟩
      rw [h5 e]
      simp [Failures.new]
  | @token o t body post ts rest hs _ ih =>
    intro m f cl acc hm hf
    obtain ⟨m, rfl⟩ : ∃ k, m = k + 1 := ⟨m - 1, by omega⟩
    obtain ⟨l, hg⟩ := spelling_read hX hs
    obtain ⟨_, ⟨b, he, hb⟩, _⟩ := (singleToken_spec X _).of_ok hg
    have hb := blen_pos (TokenShape.ne_nil hb)
    have he := he.2
    dsimp only at he
    have hne : body ≠ [] := by rintro rfl; simp at he; omega
    have hlen : 0 < body.length := List.length_pos_iff.mpr hne
    have h0 : (body ++ post).isEmpty = false := by simp [hne]
    have h1 : ¬ o = o + blen body := by omega
    simp only [Tokens.drain, Tokens.next, h0, Bool.false_eq_true, if_false, hg, h1]
    obtain ⟨d, h2, h3, h4⟩ := ih hn m (if cl = true then .new else f.addAll (l.map fun r => (r.1.offset, r.2))) cl (t :: acc)
      (by simp at hm; omega) (fun hc => by simp [hc])
    refine ⟨d, h2, by simp; omega, fun hc => ?_⟩
    obtain ⟨h5, h6⟩ := h4 hc
    exact ⟨by simp; omega, h6⟩

/-- An error comes from a place where no token can be read, after tokens that can be. -/
theorem drain_stuck (hX : Sane X) {cl : Bool} (n : Nat) : ∀ (f : Failures LErr) (code : Text) (o : Nat) (acc : List Token) (d : LErrorDetail),
    Tokens.drain X cl n ⟨f, ⟨code, o⟩, false⟩ acc = .err d → ∃ ts rest m E, Begins X o ts code rest ∧ NoToken X rest m E := by
  induction n with
  | zero => intro f code o acc r h; cases h
  | succ n ih =>
    intro f code o acc r h
    simp only [Tokens.drain, Tokens.next, Bool.false_eq_true, if_false] at h
    by_cases hc : code.isEmpty = true
    · have : code = [] := by simpa using hc
      subst this
      simp only [List.isEmpty_nil, if_true] at h
      cases n with
      | zero => cases h
      | succ n => simp [Tokens.drain, Tokens.next] at h
    · simp only [hc] at h
      cases hs : singleToken X ⟨code, o⟩ with
      | mk res l =>
        rw [hs] at h
        cases res with
        | ok q t =>
          obtain ⟨t', body, post, rfl, hsp⟩ := spelling_exists hX hs
          obtain ⟨l', hg⟩ := spelling_read hX hsp
          rw [hs] at hg
          cases hg
          by_cases ho : o = o + blen body
          · simp only [← ho, if_true] at h
            cases h
          · simp only [ho, if_false] at h
            obtain ⟨ts, rest, m, E, h1, h2⟩ := ih _ _ _ _ _ h
            exact ⟨t :: ts, rest, m, E, .token hsp h1, h2⟩
        | fail q e =>
          obtain ⟨m, E, h1⟩ := fails_noToken hX (by simpa using hc) hs
          exact ⟨[], code, m, E, .none, h1⟩
        | panic => cases h
        | hang => cases h

end Verif
