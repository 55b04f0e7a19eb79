import Verif.Proofs.WordSwap
import Verif.Props.Literal
/-!
# Property theorem: numbers, bytes, byte strings and raw strings can be replaced by others (C72)
-/

namespace Verif.Props
open Verif Verif.Spec

/-- The text of one token, which starts with a digit or a letter, is replaced. -/
theorem swap_word {X : Xid} (hX : Sane X) {cl : Bool} {a w w' b : Text} {t t' : Token} {ts : List Token} (hk : t.kind? ≠ some .EndOfFile)
    (h : lex X cl (a ++ w ++ b) = .ok ts) (ht : t ∈ ts) (hte : t.extent = ⟨blen a, blen (a ++ w)⟩)
    (hw : ∀ o, Spelling X o t w b → LikeHead X (w ++ b) (w' ++ b) ∧ ClosesIn (w ++ b) (w' ++ b) ∧
      (StartsIn (· ∈ digitHeads) (w ++ b) → ∀ n, .number n ∈ ts → n.extent.e ≠ blen a) ∧ Spelling X (blen a) t' w' b) :
    ∃ A B : List Token, ts = A ++ t :: B.map (·.moved (blen (a ++ w))) ∧
      lex X cl (a ++ w' ++ b) = .ok (A ++ t' :: B.map (·.moved (blen (a ++ w')))) := by
  rw [lex_spelled hX] at h
  obtain ⟨A, B0, rfl⟩ := List.append_of_mem ht
  obtain ⟨P, v, c0, he, h1, h2, h3, h4⟩ := spelled_word hX hk A h
  have hext := (spelling_ext hX h1).2.1
  rw [hte] at hext
  simp only [Extent.mk.injEq] at hext
  rw [List.append_assoc] at he
  obtain ⟨rfl, he2⟩ := front_unique he (by omega)
  have hlen : blen w = blen v := by have := hext.2; rw [blen_append] at this; omega
  obtain ⟨rfl, rfl⟩ := front_unique he2 hlen
  obtain ⟨U, hU, rfl⟩ := spelled_base hX h2
  refine ⟨A, U, by rw [blen_append, Nat.zero_add], ?_⟩
  rw [lex_spelled hX]
  have h5 := spelled_moved hU (blen (a ++ w'))
  obtain ⟨e1, e2, e3, h6⟩ := hw _ h1
  have := h4 e1 e2 (fun hd n hn => by rw [Nat.zero_add]; exact e3 hd n (by simp [hn])) (by simpa using h6) (by simpa using h5)
  simpa using this

theorem NumText.head {X : Xid} {p : NumParts} {b : Text} (h : NumText X p b) (hu : ¬ StartsIn (· = '_') p.text) :
    ∃ c t, p.text = c :: t ∧ c ∈ digitHeads := by
  obtain ⟨i, is, hi⟩ := List.exists_cons_of_ne_nil h.ne
  cases hb : p.base with
  | Decimal =>
    have e : p.text = i :: (is ++ p.fracText ++ p.expText ++ p.sufText) := by simp [NumParts.text, hb, hi, basePrefix]
    refine ⟨_, _, e, ?_⟩
    have := h.digits i (by simp [hi])
    rw [hb] at this
    rcases this with h1 | h1
    · exact h1
    · exact absurd ⟨_, _, e, h1⟩ hu
  | _ => exact ⟨'0', _, by simp [NumParts.text, hb, basePrefix]; rfl, by decide⟩

theorem NumText.no_quote {X : Xid} (hX : Sane X) {p : NumParts} {b : Text} (h : NumText X p b) : '"' ∉ p.text := by
  have dig : ∀ b, ¬ DigitOr_ b '"' := by
    rintro b (h | h)
    · cases b <;> exact absurd h (by decide)
    · cases h
  have hd : ∀ {x : NumBase} {ds : Text}, (∀ c ∈ ds, DigitOr_ x c) → '"' ∉ ds := fun h hm => dig _ (h _ hm)
  simp only [NumParts.text, List.mem_append, not_or]
  refine ⟨⟨⟨⟨by cases p.base <;> decide, hd h.digits⟩, ?_⟩, ?_⟩, ?_⟩
  · cases hf : p.frac with
    | none => simp [NumParts.fracText, hf]
    | some ds => simpa [NumParts.fracText, hf] using hd (h.frac ds hf).digits
  · cases he : p.exp with
    | none => simp [NumParts.expText, he]
    | some r =>
      obtain ⟨m, ds⟩ := r
      obtain ⟨h1, -, h3, -⟩ := h.exp m ds he
      simp only [NumParts.expText, he, Option.elim, List.mem_cons, not_or]
      exact ⟨by rcases h1 with rfl | rfl <;> decide, hd h3⟩
  · cases hs : p.suf with
    | none => simp [NumParts.sufText, hs]
    | some w =>
      obtain ⟨y, ys, rfl, hy, hys⟩ := (h.suf w hs).1
      simp only [NumParts.sufText, hs, Option.getD, List.mem_cons, not_or]
      refine ⟨fun e => not_start hX '"' (by decide) (e ▸ hy), fun hm => ?_⟩
      have := hys _ hm
      rw [not_cont hX '"' (by decide)] at this
      cases this

theorem spelling_number {X : Xid} {o : Nat} {n : Number} {w b : Text} (h : Spelling X o (.number n) w b) :
    ∃ p : NumParts, p.text = w ∧ n = p.number o ∧ NumText X p b ∧ ¬ StartsIn (· = '_') p.text := by
  cases h with
  | number h1 h2 => exact ⟨_, rfl, rfl, h1, h2⟩

/-- A number, not directly behind another one, is replaced by another number.  Nothing else about the tokens changes, but those behind it
are moved. -/
theorem C72_number_tokens (X : Xid) (hX : Sane X) (cl : Bool) (a w b : Text) (n : Number) (p : NumParts) (ts : List Token)
    (h : lex X cl (a ++ w ++ b) = .ok ts) (ht : .number n ∈ ts) (hn : n.extent = ⟨blen a, blen (a ++ w)⟩)
    (hp : NumText X p b) (hu : ¬ StartsIn (· = '_') p.text) (ha : ∀ m, .number m ∈ ts → m.extent.e ≠ blen a) :
    ∃ A B : List Token, ts = A ++ .number n :: B.map (·.moved (blen (a ++ w))) ∧
      lex X cl (a ++ p.text ++ b) = .ok (A ++ .number (p.number (blen a)) :: B.map (·.moved (blen (a ++ p.text)))) := by
  refine swap_word hX (by simp [Token.kind?]) h ht hn fun o h1 => ?_
  obtain ⟨q, rfl, -, h2, h3⟩ := spelling_number h1
  obtain ⟨c, s, e, hc⟩ := NumText.head h2 h3
  obtain ⟨c', s', e', hc'⟩ := NumText.head hp hu
  refine ⟨⟨c, c', s ++ b, s' ++ b, by rw [e]; rfl, by rw [e']; rfl, .inl ⟨hc, hc'⟩⟩, closes_plain (NumText.no_quote hX hp), fun _ => ha, .number hp hu⟩

theorem sameKinds_swap {A B : List Token} {n m : Number} {d d' : Nat} (hs : SameKind (.number n) (.number m)) :
    SameKinds ((A ++ .number n :: B.map (·.moved d)).filter fun t => !isTrivia t)
      ((A ++ .number m :: B.map (·.moved d')).filter fun t => !isTrivia t) := by
  have tr : ∀ (d : Nat), (B.map (·.moved d)).filter (fun t => !isTrivia t) = (B.filter fun t => !isTrivia t).map (·.moved d) := by
    intro d
    rw [List.filter_map]
    congr 1
    exact List.filter_congr fun t _ => by simp [isTrivia_moved]
  simp only [List.filter_append]
  refine sameKinds_append (sameKinds_refl _) ?_
  rw [List.filter_cons_of_pos (by simp [isTrivia, Token.kind?]), List.filter_cons_of_pos (by simp [isTrivia, Token.kind?])]
  refine .cons hs ?_
  rw [tr, tr]
  generalize B.filter (fun t => !isTrivia t) = L
  induction L with
  | nil => exact .nil
  | cons t L ih => exact .cons (by cases t <;> simp [SameKind, Token.moved, Number.moved]) ih

/-- If it is a number of the same form (base, and which parts it has), and the text was accepted, it still is, with a tree of the same shape; if it was rejected, it still is, for the same reasons and at the
same token. -/
theorem C72_number (X : Xid) (hX : Sane X) (cl cp : Bool) (a w b : Text) (n : Number) (p : NumParts) (ts : List Token)
    (h : lex X cl (a ++ w ++ b) = .ok ts) (ht : .number n ∈ ts) (hn : n.extent = ⟨blen a, blen (a ++ w)⟩)
    (hp : NumText X p b) (hu : ¬ StartsIn (· = '_') p.text) (ha : ∀ m, .number m ∈ ts → m.extent.e ≠ blen a)
    (hs : SameKind (.number n) (.number (p.number (blen a)))) :
    ∃ ts', lex X cl (a ++ p.text ++ b) = .ok ts' ∧
      SameOutcome (ts.filter fun t => !isTrivia t) (ts'.filter fun t => !isTrivia t)
        (parseRustFile X cl cp (a ++ w ++ b)) (parseRustFile X cl cp (a ++ p.text ++ b)) := by
  obtain ⟨A, B, rfl, h'⟩ := C72_number_tokens X hX cl a w b n p ts h ht hn hp hu ha
  exact ⟨_, h', C41_layout X X cl cl cp _ _ _ _ h h' (sameKinds_swap hs)⟩

theorem integer_swap {X : Xid} (hX : Sane X) {cl : Bool} {a ds ds' b : Text} {n : Number} {ts : List Token}
    (h : lex X cl (a ++ ds ++ b) = .ok ts) (ht : .number n ∈ ts) (hn : n.extent = ⟨blen a, blen (a ++ ds)⟩)
    (hd : ∀ c ∈ ds, c ∈ digitChars .Decimal ∨ c = '_') (hne : ds' ≠ []) (hd' : ∀ c ∈ ds', c ∈ digitChars .Decimal)
    (ha : ∀ m, .number m ∈ ts → m.extent.e ≠ blen a) :
    SameKind (.number n) (.number ⟨.Decimal, ⟨0, 0⟩, ⟨0, 0⟩, none, none, none, ds.count '_'⟩) ∧
      ∃ A B : List Token, ts = A ++ .number n :: B.map (·.moved (blen (a ++ ds))) ∧
      lex X cl (a ++ ds' ++ b) = .ok (A ++ .number ⟨.Decimal, ⟨blen a, blen (a ++ ds')⟩, ⟨blen a, blen (a ++ ds')⟩, none, none, none, 0⟩ ::
        B.map (·.moved (blen (a ++ ds')))) := by
  have h0 := h
  rw [lex_spelled hX] at h0
  obtain ⟨A, B0, rfl⟩ := List.append_of_mem ht
  obtain ⟨P, v, c0, he, h1, -, -, -⟩ := spelled_word hX (by simp [Token.kind?]) A h0
  have hext := (spelling_ext hX h1).2.1
  rw [show Token.extent (.number n) = n.extent from rfl, hn] at hext
  simp only [Extent.mk.injEq] at hext
  rw [List.append_assoc] at he
  obtain ⟨rfl, he2⟩ := front_unique he (by omega)
  have hlen : blen ds = blen v := by have := hext.2; rw [blen_append] at this; omega
  obtain ⟨rfl, rfl⟩ := front_unique he2 hlen
  obtain ⟨q, hq, hnq, h2, h3⟩ := spelling_number h1
  have hdig : ∀ c ∈ q.text, DigitOr_ .Decimal c := by rw [hq]; exact hd
  have mem : ∀ c, (c ∈ basePrefix q.base ∨ c ∈ q.ints) ∨ c ∈ q.fracText ∨ c ∈ q.expText ∨ c ∈ q.sufText → DigitOr_ .Decimal c := by
    intro c hc
    refine hdig c ?_
    simp only [NumParts.text, List.mem_append]
    grind
  have no : ∀ c ∈ c!"box.eE", ¬ DigitOr_ .Decimal c := by
    have key : ∀ c ∈ c!"box.eE", c ∉ digitChars .Decimal ∧ c ≠ '_' := by decide
    exact fun c hc h => h.elim (key c hc).1 (key c hc).2
  obtain ⟨base, ints, frac, exp, suf⟩ := q
  have e1 : base = .Decimal := by
    cases base with
    | Decimal => rfl
    | Binary => exact absurd (mem 'b' (.inl (.inl (by simp [basePrefix])))) (no _ (by decide))
    | Octal => exact absurd (mem 'o' (.inl (.inl (by simp [basePrefix])))) (no _ (by decide))
    | Hexadecimal => exact absurd (mem 'x' (.inl (.inl (by simp [basePrefix])))) (no _ (by decide))
  subst e1
  have e2 : frac = none := by
    cases frac with
    | none => rfl
    | some fs => exact absurd (mem '.' (.inr (.inl (by simp [NumParts.fracText])))) (no _ (by decide))
  subst e2
  have e3 : exp = none := by
    cases exp with
    | none => rfl
    | some r =>
      obtain ⟨m, es⟩ := r
      have hm := (h2.exp m es rfl).1
      exact absurd (mem m (.inr (.inr (.inl (by simp [NumParts.expText]))))) (no m (by rcases hm with rfl | rfl <;> decide))
  subst e3
  have e4 : suf = none := by
    cases suf with
    | none => rfl
    | some x =>
      obtain ⟨y, ys, rfl, -, -⟩ := (h2.suf x rfl).1
      exact absurd ⟨y, ys ++ b, rfl, mem y (.inr (.inr (.inr (by simp [NumParts.sufText]))))⟩ h2.longest
  subst e4
  have hstart : ¬ StartsIn (WordStart X) b := h2.noSuf rfl
  have hnew : NumText X ⟨.Decimal, ds', none, none, none⟩ b := by
    constructor
    · exact hne
    · exact fun c hc => .inl (hd' c hc)
    · exact h2.longest
    · intro _ x hx t e
      exfalso
      replace e : ds' ++ b = basePrefix x ++ t := by simpa [NumParts.text, NumParts.fracText, NumParts.expText, NumParts.sufText, basePrefix] using e
      obtain ⟨m, hm, hbm⟩ : ∃ m ∈ c!"box", basePrefix x = ['0', m] := by
        cases x with
        | Decimal => exact absurd rfl hx
        | _ => exact ⟨_, by decide, rfl⟩
      rw [hbm] at e
      have key : ∀ m ∈ c!"box", m ∉ digitChars .Decimal ∧ m.toNat < 128 ∧ m.isAlpha = true := by decide
      obtain ⟨k1, k2, k3⟩ := key m hm
      match ds', hne with
      | [d], _ =>
        simp at e
        exact hstart ⟨_, _, e.2, .inl (by rw [hX.start m k2, k3])⟩
      | d :: d2 :: ds', _ =>
        simp at e
        exact k1 (by rw [← e.2.1]; exact hd' d2 (by simp))
    · intro fs hf; cases hf
    · exact fun _ => h2.noFrac rfl
    · intro m fs hf; cases hf
    · exact fun _ => h2.noExp rfl
    · intro x hf; cases hf
    · exact fun _ => hstart
  have htext : (NumParts.mk .Decimal ds' none none none).text = ds' := by
    simp [NumParts.text, NumParts.fracText, NumParts.expText, NumParts.sufText, basePrefix]
  have hund : ¬ StartsIn (· = '_') (NumParts.mk .Decimal ds' none none none).text := by
    rw [htext]
    rintro ⟨d, t, rfl, rfl⟩
    exact absurd (hd' '_' (by simp)) (by decide)
  obtain ⟨A', B, e, h'⟩ := C72_number_tokens X hX cl a ds b n ⟨.Decimal, ds', none, none, none⟩ _ h ht hn hnew hund ha
  have hds : ints = ds := by rw [← hq]; simp [NumParts.text, NumParts.fracText, NumParts.expText, NumParts.sufText, basePrefix]
  refine ⟨by rw [hnq, hds]; simp [SameKind, NumParts.number], A', B, e, ?_⟩
  have hcount : ds'.count '_' = 0 := List.count_eq_zero.mpr fun hm => absurd (hd' _ hm) (by decide)
  rw [htext] at h'
  rw [h']
  simp [NumParts.number, NumParts.fracText, NumParts.expText, NumParts.sufText, basePrefix, blen_append, hcount]

/-- A decimal integer without suffix can be replaced by any other one, without conditions on what follows it. -/
theorem C72_integer_tokens (X : Xid) (hX : Sane X) (cl : Bool) (a ds ds' b : Text) (n : Number) (ts : List Token)
    (h : lex X cl (a ++ ds ++ b) = .ok ts) (ht : .number n ∈ ts) (hn : n.extent = ⟨blen a, blen (a ++ ds)⟩)
    (hd : ∀ c ∈ ds, c ∈ digitChars .Decimal ∨ c = '_') (hne : ds' ≠ []) (hd' : ∀ c ∈ ds', c ∈ digitChars .Decimal)
    (ha : ∀ m, .number m ∈ ts → m.extent.e ≠ blen a) :
    ∃ A B : List Token, ts = A ++ .number n :: B.map (·.moved (blen (a ++ ds))) ∧
      lex X cl (a ++ ds' ++ b) = .ok (A ++ .number ⟨.Decimal, ⟨blen a, blen (a ++ ds')⟩, ⟨blen a, blen (a ++ ds')⟩, none, none, none, 0⟩ ::
        B.map (·.moved (blen (a ++ ds')))) :=
  (integer_swap hX h ht hn hd hne hd' ha).2

/-- If the text was accepted, it still is, with a tree of the same shape; if it was rejected, it still is, for the same reasons and at the
same token. -/
theorem C72_integer (X : Xid) (hX : Sane X) (cl cp : Bool) (a ds ds' b : Text) (n : Number) (ts : List Token)
    (h : lex X cl (a ++ ds ++ b) = .ok ts) (ht : .number n ∈ ts) (hn : n.extent = ⟨blen a, blen (a ++ ds)⟩)
    (hd : ∀ c ∈ ds, c ∈ digitChars .Decimal) (hne : ds' ≠ []) (hd' : ∀ c ∈ ds', c ∈ digitChars .Decimal)
    (ha : ∀ m, .number m ∈ ts → m.extent.e ≠ blen a) :
    ∃ ts', lex X cl (a ++ ds' ++ b) = .ok ts' ∧
      SameOutcome (ts.filter fun t => !isTrivia t) (ts'.filter fun t => !isTrivia t)
        (parseRustFile X cl cp (a ++ ds ++ b)) (parseRustFile X cl cp (a ++ ds' ++ b)) := by
  obtain ⟨hs, A, B, rfl, h'⟩ := integer_swap hX h ht hn (fun c hc => .inl (hd c hc)) hne hd' ha
  refine ⟨_, h', C41_layout X X cl cl cp _ _ _ _ h h' (sameKinds_swap ?_)⟩
  have hcount : ds.count '_' = 0 := List.count_eq_zero.mpr fun hm => absurd (hd _ hm) (by decide)
  rw [hcount] at hs
  exact hs

/-- How a byte is written. -/
theorem spelling_byte {X : Xid} {o : Nat} {t : Token} {w b : Text} (h : Spelling X o t w b) (hk : t.kind? = some .Byte) :
    ∃ v, w = 'b' :: v := by
  cases h with
  | byte h => exact ⟨_, rfl⟩
  | keyword h1 => cases hk; cases h1
  | symbol h1 => cases hk; cases h1
  | line h1 => cases hk; rcases h1 with h | h | h <;> cases h
  | block h1 => cases hk; cases h1
  | number => cases hk
  | _ => cases hk

/-- The contents between two quotes are replaced by others without quotes, not starting with `#`. -/
theorem closes_quoted {x s s' y b : Text} (hx : '"' ∉ x) (hq : '"' ∉ s') (hh : ¬ StartsIn (· = '#') s') :
    ClosesIn (x ++ '"' :: s ++ '"' :: y ++ b) (x ++ '"' :: s' ++ '"' :: y ++ b) := by
  intro n u v e
  cases n with
  | zero => exact ⟨x, s ++ '"' :: y ++ b, by simp [rawClose]⟩
  | succ n =>
    rw [List.append_assoc _ _ b, List.append_assoc u] at e
    rcases List.append_eq_append_iff.mp e with ⟨z, h1, h2⟩ | ⟨z, h1, h2⟩
    · exact ⟨x ++ '"' :: s ++ z, v, by rw [List.append_assoc _ _ b, h2]; simp⟩
    · cases z with
      | nil => exact ⟨x ++ '"' :: s, v, by rw [List.nil_append] at h2; rw [List.append_assoc _ _ b, ← h2]; simp⟩
      | cons d z =>
        exfalso
        simp only [rawClose, List.cons_append, List.cons.injEq] at h2
        obtain ⟨rfl, h2⟩ := h2
        rcases List.append_eq_append_iff.mp h1 with ⟨y2, h3, h4⟩ | ⟨y2, h3, h4⟩
        · cases y2 with
          | nil =>
            simp at h4
            subst h4
            cases s' with
            | nil => simp [List.replicate_succ] at h2
            | cons d s' => simp [List.replicate_succ] at h2; exact hh ⟨_, _, rfl, h2.1.symm⟩
          | cons d y2 =>
            simp at h4
            exact hq (by rw [h4.2]; simp)
        · cases y2 with
          | nil =>
            simp at h4
            subst h4
            cases z with
            | nil => simp [List.replicate_succ] at h2
            | cons d z => simp [List.replicate_succ] at h2; exact hh ⟨_, _, rfl, h2.1.symm⟩
          | cons d y2 =>
            simp at h4
            exact hx (by rw [h3, ← h4.1]; simp)

theorem rawStr_plain {n : Nat} {s b : Text} (hq : '"' ∉ s) : RawStrLit (c!"r" ++ List.replicate n '#' ++ c!"\"" ++ s ++ rawClose n) b := by
  refine ⟨n, s, rfl, ⟨b, rfl⟩, fun a' b' e => ?_⟩
  rw [List.append_assoc, List.append_assoc] at e
  rcases List.append_eq_append_iff.mp e with ⟨z, h1, -⟩ | ⟨z, h1, h2⟩
  · rw [h1]; simp
  · cases z with
    | nil => rw [h1]; simp
    | cons d z =>
      simp [rawClose] at h2
      exact absurd (by rw [h1, ← h2.1]; simp) hq

/-- The kinds of literal with quotes, other than plain strings, and how they start before the quote and end behind it. -/
def quotedForm : TK → Nat → Option (Text × Text)
  | .ByteString, 0 => some (c!"b", [])
  | .StringRaw, n => some ('r' :: List.replicate n '#', List.replicate n '#')
  | .ByteStringRaw, n => some ('b' :: 'r' :: List.replicate n '#', List.replicate n '#')
  | _, _ => none

/-- The contents of a byte string, raw string or raw byte string are replaced by others without quotes, not starting with `#`; in a byte
string they are as in a string.  It is still one literal, and nothing else about the tokens changes, but those behind it are moved. -/
theorem C72_quoted_tokens (X : Xid) (hX : Sane X) (cl : Bool) (a x s s' y b : Text) (k : TK) (n : Nat) (ts : List Token)
    (hk : quotedForm k n = some (x, y)) (h : lex X cl (a ++ (x ++ '"' :: s ++ '"' :: y) ++ b) = .ok ts)
    (ht : .plain k ⟨blen a, blen (a ++ (x ++ '"' :: s ++ '"' :: y))⟩ ∈ ts)
    (hs : k = .ByteString → StrBody s') (hq : '"' ∉ s') (hh : ¬ StartsIn (· = '#') s') :
    ∃ A B : List Token, ts = A ++ .plain k ⟨blen a, blen (a ++ (x ++ '"' :: s ++ '"' :: y))⟩ ::
        B.map (·.moved (blen (a ++ (x ++ '"' :: s ++ '"' :: y)))) ∧
      lex X cl (a ++ (x ++ '"' :: s' ++ '"' :: y) ++ b) = .ok (A ++ .plain k ⟨blen a, blen (a ++ (x ++ '"' :: s' ++ '"' :: y))⟩ ::
        B.map (·.moved (blen (a ++ (x ++ '"' :: s' ++ '"' :: y))))) := by
  have hkk : k = .ByteString ∧ n = 0 ∨ k = .StringRaw ∨ k = .ByteStringRaw := by
    unfold quotedForm at hk
    split at hk <;> simp_all
  have hx : ∃ c x', x = c :: x' ∧ c ∈ c!"br" ∧ '"' ∉ x := by
    rcases hkk with ⟨rfl, rfl⟩ | rfl | rfl <;> simp [quotedForm] at hk <;> obtain ⟨rfl, rfl⟩ := hk
    · exact ⟨_, _, rfl, by decide, by decide⟩
    · exact ⟨_, _, rfl, by decide, by simp [List.mem_replicate]⟩
    · exact ⟨_, _, rfl, by decide, by simp [List.mem_replicate]⟩
  obtain ⟨c, x', hxc, hc, hxq⟩ := hx
  refine swap_word hX (by rcases hkk with ⟨rfl, rfl⟩ | rfl | rfl <;> simp [Token.kind?]) h ht rfl fun o h1 => ⟨?_, closes_quoted hxq hq hh, ?_, ?_⟩
  · exact ⟨c, c, x' ++ '"' :: s ++ '"' :: y ++ b, x' ++ '"' :: s' ++ '"' :: y ++ b, by rw [hxc]; rfl, by rw [hxc]; rfl, .inr ⟨letter_ascii hX c hc, letter_ascii hX c hc⟩⟩
  · rintro ⟨d, t, e, hd⟩
    rw [hxc] at e
    cases e
    exfalso
    revert hc hd
    clear hxc
    revert c
    decide
  · rw [blen_append a]
    rcases hkk with ⟨rfl, rfl⟩ | rfl | rfl <;> simp [quotedForm] at hk <;> obtain ⟨rfl, rfl⟩ := hk
    · exact .byteStr ⟨s', hs rfl, rfl⟩
    · have := Spelling.strRaw (X := X) (off := blen a) (rawStr_plain (n := n) (s := s') (b := b) hq)
      simpa [rawClose] using this
    · have := Spelling.byteStrRaw (X := X) (off := blen a) (rawStr_plain (n := n) (s := s') (b := b) hq)
      simpa [rawClose] using this

/-- The result is then the same, at the places where things are in the new text. -/
theorem C72_quoted (X : Xid) (hX : Sane X) (cl cp : Bool) (a x s s' y b : Text) (k : TK) (n : Nat) (ts : List Token)
    (hk : quotedForm k n = some (x, y)) (h : lex X cl (a ++ (x ++ '"' :: s ++ '"' :: y) ++ b) = .ok ts)
    (ht : .plain k ⟨blen a, blen (a ++ (x ++ '"' :: s ++ '"' :: y))⟩ ∈ ts)
    (hs : k = .ByteString → StrBody s') (hq : '"' ∉ s') (hh : ¬ StartsIn (· = '#') s') :
    parseRustFile X cl cp (a ++ (x ++ '"' :: s' ++ '"' :: y) ++ b) = (parseRustFile X cl cp (a ++ (x ++ '"' :: s ++ '"' :: y) ++ b)).placed
      (replacedAt 0 (blen a) (blen (a ++ (x ++ '"' :: s ++ '"' :: y))) (blen (a ++ (x ++ '"' :: s' ++ '"' :: y)))) := by
  have hkk : k = .ByteString ∨ k = .StringRaw ∨ k = .ByteStringRaw := by
    unfold quotedForm at hk
    split at hk <;> simp_all
  have hne := Place.lex_nonempty h _ ht (by rcases hkk with rfl | rfl | rfl <;> simp [Token.kind?])
  obtain ⟨A, B, rfl, h'⟩ := C72_quoted_tokens X hX cl a x s s' y b k n ts hk h ht hs hq hh
  exact Place.replace_token h h' hne (by simp) (.inl (by rcases hkk with rfl | rfl | rfl <;> rfl))
    (.inl (by rcases hkk with rfl | rfl | rfl <;> rfl)) fun _ => by rcases hkk with rfl | rfl | rfl <;> rfl

/-- A byte is replaced by another one, which is not that of the quote. -/
theorem C72_byte_tokens (X : Xid) (hX : Sane X) (cl : Bool) (a w v b : Text) (ts : List Token)
    (h : lex X cl (a ++ w ++ b) = .ok ts) (ht : .plain .Byte ⟨blen a, blen (a ++ w)⟩ ∈ ts) (hv : CharLit v) (hq : '"' ∉ v) :
    ∃ A B : List Token, ts = A ++ .plain .Byte ⟨blen a, blen (a ++ w)⟩ :: B.map (·.moved (blen (a ++ w))) ∧
      lex X cl (a ++ 'b' :: v ++ b) = .ok (A ++ .plain .Byte ⟨blen a, blen (a ++ 'b' :: v)⟩ :: B.map (·.moved (blen (a ++ 'b' :: v)))) := by
  refine swap_word hX (by simp [Token.kind?]) h ht rfl fun o h1 => ?_
  obtain ⟨u, rfl⟩ := spelling_byte h1 rfl
  refine ⟨⟨'b', 'b', u ++ b, v ++ b, rfl, rfl, .inr ⟨letter_ascii hX _ (by decide), letter_ascii hX _ (by decide)⟩⟩, closes_plain (by simpa using hq), ?_, ?_⟩
  · rintro ⟨d, t, e, hd⟩
    cases e
    exact absurd hd (by decide)
  · rw [blen_append a]
    exact .byte hv

/-- The result is then the same, at the places where things are in the new text. -/
theorem C72_byte (X : Xid) (hX : Sane X) (cl cp : Bool) (a w v b : Text) (ts : List Token)
    (h : lex X cl (a ++ w ++ b) = .ok ts) (ht : .plain .Byte ⟨blen a, blen (a ++ w)⟩ ∈ ts) (hv : CharLit v) (hq : '"' ∉ v) :
    parseRustFile X cl cp (a ++ 'b' :: v ++ b) =
      (parseRustFile X cl cp (a ++ w ++ b)).placed (replacedAt 0 (blen a) (blen (a ++ w)) (blen (a ++ 'b' :: v))) := by
  have hne := Place.lex_nonempty h _ ht (by simp [Token.kind?])
  obtain ⟨A, B, rfl, h'⟩ := C72_byte_tokens X hX cl a w v b ts h ht hv hq
  exact Place.replace_token h h' hne (by simp) (.inl rfl) (.inl rfl) fun _ => rfl

/-- The hypotheses are met: a hexadecimal number by another one. -/
example : (∃ ts n, lex asciiXid true (c!"const A: u8 = 1+" ++ c!"0xff" ++ c!";") = .ok ts ∧ .number n ∈ ts ∧
      n.extent = ⟨blen c!"const A: u8 = 1+", blen (c!"const A: u8 = 1+" ++ c!"0xff")⟩ ∧
      SameKind (.number n) (.number ((NumParts.mk .Hexadecimal c!"1234" none none none).number (blen c!"const A: u8 = 1+"))) ∧
      ∀ m, .number m ∈ ts → m.extent.e ≠ blen c!"const A: u8 = 1+") ∧
    NumText asciiXid ⟨.Hexadecimal, c!"1234", none, none, none⟩ c!";" ∧
    ¬ StartsIn (· = '_') (NumParts.mk .Hexadecimal c!"1234" none none none).text := by
  have no : ∀ {Q : Char → Prop} {c : Char} {t : Text}, ¬ Q c → ¬ StartsIn Q (c :: t) := by
    rintro Q c t h ⟨d, u, e, hd⟩
    cases e
    exact h hd
  refine ⟨?_, ?_, no (by decide)⟩
  · obtain ⟨ts, h1, h2⟩ := LexResult.of_okWith (r := lex asciiXid true (c!"const A: u8 = 1+" ++ c!"0xff" ++ c!";"))
      (p := fun ts => ts.contains (.number ⟨.Hexadecimal, ⟨16, 20⟩, ⟨18, 20⟩, none, none, none, 0⟩) &&
        ts.all fun t => t.extent.e != 16 || t.kind? == some .Plus) (by decide +kernel)
    simp only [Bool.and_eq_true, List.contains_iff_mem, List.all_eq_true] at h2
    refine ⟨ts, _, h1, h2.1, rfl, ⟨rfl, rfl, rfl, rfl, by simp [NumParts.number]⟩, fun m hm he => ?_⟩
    have := h2.2 _ hm
    simp [Token.extent, Token.kind?, he] at this
    exact this (by decide)
  · have hno : ∀ b, ¬ DigitOr_ b ';' := by
      rintro b (h | h)
      · cases b <;> exact absurd h (by decide)
      · cases h
    refine ⟨by simp, ?_, no (hno _), fun h => (by cases h), fun _ h => (by cases h), ?_, fun _ _ h => (by cases h), ?_, fun _ h => (by cases h), fun _ => no ?_⟩
    · have : ∀ c ∈ c!"1234", c ∈ digitChars .Hexadecimal := by decide
      exact fun c hc => .inl (this c hc)
    · intro _ t e; cases e
    · rintro _ m t e (rfl | rfl) <;> cases e
    · rintro (h | h)
      · exact absurd h (by decide)
      · cases h

/-- The hypotheses are met: an integer before `..`. -/
example : ∃ ts n, lex asciiXid true (c!"const A: u8 = " ++ c!"0" ++ c!"..2;") = .ok ts ∧ .number n ∈ ts ∧
    n.extent = ⟨blen c!"const A: u8 = ", blen (c!"const A: u8 = " ++ c!"0")⟩ ∧
    (∀ c ∈ c!"0", c ∈ digitChars .Decimal) ∧ c!"100" ≠ [] ∧ (∀ c ∈ c!"100", c ∈ digitChars .Decimal) ∧
    ∀ m, .number m ∈ ts → m.extent.e ≠ blen c!"const A: u8 = " := by
  obtain ⟨ts, h1, h2⟩ := LexResult.of_okWith (r := lex asciiXid true (c!"const A: u8 = " ++ c!"0" ++ c!"..2;"))
    (p := fun ts => ts.contains (.number ⟨.Decimal, ⟨14, 15⟩, ⟨14, 15⟩, none, none, none, 0⟩) &&
      ts.all fun t => t.extent.e != 14 || t.kind? == some .Whitespace) (by decide +kernel)
  simp only [Bool.and_eq_true, List.contains_iff_mem, List.all_eq_true] at h2
  refine ⟨ts, _, h1, h2.1, rfl, by decide, by decide, by decide, fun m hm he => ?_⟩
  have := h2.2 _ hm
  simp [Token.extent, Token.kind?, he] at this
  exact this (by decide)

/-- The condition that no number is directly before is needed: `0b1` and `2` together are other numbers than `0b1` and `1`. -/
example : (∃ ts, lex asciiXid true (c!"0b1" ++ c!"2") = .ok ts ∧ ts.length = 3) ∧
    ∃ ts, lex asciiXid true (c!"0b1" ++ c!"1") = .ok ts ∧ ts.length = 2 := by
  refine ⟨?_, ?_⟩
  · obtain ⟨ts, h1, h2⟩ := LexResult.of_okWith (r := lex asciiXid true (c!"0b1" ++ c!"2")) (p := fun ts => ts.length == 3) (by decide +kernel)
    exact ⟨ts, h1, by simpa using h2⟩
  · obtain ⟨ts, h1, h2⟩ := LexResult.of_okWith (r := lex asciiXid true (c!"0b1" ++ c!"1")) (p := fun ts => ts.length == 2) (by decide +kernel)
    exact ⟨ts, h1, by simpa using h2⟩

/-- The hypotheses are met: a raw string. -/
example : quotedForm .StringRaw 1 = some (c!"r#", c!"#") ∧
    (∃ ts, lex asciiXid true (c!"fn f() { g(" ++ (c!"r#" ++ '"' :: c!"a \" b" ++ '"' :: c!"#") ++ c!") }") = .ok ts ∧
      .plain .StringRaw ⟨blen c!"fn f() { g(", blen (c!"fn f() { g(" ++ (c!"r#" ++ '"' :: c!"a \" b" ++ '"' :: c!"#"))⟩ ∈ ts) ∧
    (TK.StringRaw = .ByteString → StrBody c!"/*\\") ∧ '"' ∉ c!"/*\\" ∧ ¬ StartsIn (· = '#') c!"/*\\" := by
  refine ⟨rfl, ?_, fun h => (by cases h), by decide, ?_⟩
  · obtain ⟨ts, h1, h2⟩ := LexResult.of_okWith
      (r := lex asciiXid true (c!"fn f() { g(" ++ (c!"r#" ++ '"' :: c!"a \" b" ++ '"' :: c!"#") ++ c!") }"))
      (p := fun ts => ts.contains (.plain .StringRaw ⟨blen c!"fn f() { g(", blen (c!"fn f() { g(" ++ (c!"r#" ++ '"' :: c!"a \" b" ++ '"' :: c!"#"))⟩))
      (by decide +kernel)
    exact ⟨ts, h1, by simpa using h2⟩
  · rintro ⟨d, t, e, rfl⟩
    simp at e

/-- The hypotheses are met: a byte. -/
example : (∃ ts, lex asciiXid true (c!"fn f() { g(" ++ c!"b'\\n'" ++ c!") }") = .ok ts ∧
      .plain .Byte ⟨blen c!"fn f() { g(", blen (c!"fn f() { g(" ++ c!"b'\\n'")⟩ ∈ ts) ∧ CharLit c!"'#'" ∧ '"' ∉ c!"'#'" := by
  refine ⟨?_, ⟨_, .single (c := '#') (by decide), rfl⟩, by decide⟩
  obtain ⟨ts, h1, h2⟩ := LexResult.of_okWith (r := lex asciiXid true (c!"fn f() { g(" ++ c!"b'\\n'" ++ c!") }"))
    (p := fun ts => ts.contains (.plain .Byte ⟨blen c!"fn f() { g(", blen (c!"fn f() { g(" ++ c!"b'\\n'")⟩)) (by decide +kernel)
  exact ⟨ts, h1, by simpa using h2⟩

end Verif.Props
