import Verif.Spec.LineEnds
import Verif.Spec.LexError
import Verif.Proofs.Join
/-!
# Line ends: proofs

The tokens of two texts that differ only in the carriage returns before line feeds correspond.
-/

namespace Verif.Spec
open Verif

variable {X : Xid}

theorem SameLines.symm {s s' : Text} (h : SameLines s s') : SameLines s' s := by
  induction h with
  | nil => exact .nil
  | char h _ ih => exact .char h ih
  | line _ ih => exact .line ih

theorem SameLines.refl : ∀ s : Text, SameLines s s
  | [] => .nil
  | c :: s => by
    by_cases h : c = '\n'
    · subst h
      exact .line (i := 0) (j := 0) (SameLines.refl s)
    · exact .char h (SameLines.refl s)

theorem SameLines.append {a a' b b' : Text} (h : SameLines a a') (h' : SameLines b b') : SameLines (a ++ b) (a' ++ b') := by
  induction h with
  | nil => exact h'
  | char h _ ih => exact .char h ih
  | @line i j _ _ _ ih =>
    have := SameLines.line (i := i) (j := j) ih
    simpa using this

theorem SameLines.nil_left {s : Text} (h : SameLines [] s) : s = [] := by
  generalize hx : ([] : Text) = x at h
  cases h with
  | nil => rfl
  | char => cases hx
  | line => simp at hx

theorem SameLines.same {a a' : Text} (h : SameLines a a') (hn : '\n' ∉ a) : a' = a := by
  induction h with
  | nil => rfl
  | char _ _ ih => rw [ih (fun h => hn (by simp [h]))]
  | line => simp at hn

/-- Texts can be cut at corresponding places, but not between a carriage return and what follows it at the end of a line. -/
theorem SameLines.cut {x s' : Text} (h : SameLines x s') {a b : Text} (hx : x = a ++ b)
    (hc : (∀ t, a ≠ t ++ ['\r']) ∨ ¬ StartsIn (fun c => c = '\r' ∨ c = '\n') b) :
    ∃ a' b', s' = a' ++ b' ∧ SameLines a a' ∧ SameLines b b' := by
  induction h generalizing a b with
  | nil =>
    obtain ⟨rfl, rfl⟩ := List.append_eq_nil_iff.mp hx.symm
    exact ⟨[], [], rfl, .nil, .nil⟩
  | @char c s s' hn h ih =>
    cases a with
    | nil =>
      subst hx
      exact ⟨[], _, rfl, .nil, .char hn h⟩
    | cons d a =>
      cases hx
      obtain ⟨a', b', rfl, h1, h2⟩ := ih rfl (hc.imp (fun hc t e => hc (c :: t) (by rw [e]; rfl)) id)
      exact ⟨c :: a', b', rfl, .char hn h1, h2⟩
  | @line i j s s' h ih =>
    by_cases ha : a = []
    · subst ha
      subst hx
      exact ⟨[], _, rfl, .nil, .line h⟩
    rcases List.append_eq_append_iff.mp hx with ⟨y, rfl, e⟩ | ⟨y, e, rfl⟩
    · cases y with
      | nil =>
        rw [List.append_nil] at *
        simp only [List.nil_append] at e
        exfalso
        rcases hc with hc | hc
        · cases i with
          | zero => exact ha rfl
          | succ i => exact hc _ List.replicate_succ'
        · exact hc ⟨_, _, e.symm, .inr rfl⟩
      | cons d y =>
        cases e
        obtain ⟨a', b', rfl, h1, h2⟩ := ih rfl (hc.imp (fun hc t e => hc (List.replicate i '\r' ++ '\n' :: t) (by rw [e]; simp)) id)
        exact ⟨List.replicate j '\r' ++ '\n' :: a', b', by simp, .line h1, h2⟩
    · exfalso
      have hr : ∀ c ∈ a ++ y, c = '\r' := by
        rw [← e]
        intro c hc
        exact List.eq_of_mem_replicate hc
      rcases hc with hc | hc
      · refine hc a.dropLast ?_
        have e2 := List.dropLast_concat_getLast ha
        rw [hr _ (List.mem_append_left _ (List.getLast_mem ha))] at e2
        exact e2.symm
      · cases y with
        | nil => exact hc ⟨_, _, rfl, .inr rfl⟩
        | cons d y => exact hc ⟨d, _, rfl, .inl (hr d (by simp))⟩

/-- A text without line breaks stands at the front of both or of neither. -/
theorem SameLines.front {w t s' : Text} (h : SameLines (w ++ t) s') (hw : '\r' ∉ w ∧ '\n' ∉ w) : ∃ t', s' = w ++ t' ∧ SameLines t t' := by
  obtain ⟨a', b', rfl, h1, h2⟩ := h.cut rfl (.inl fun u e => hw.1 (by rw [e]; simp))
  rw [h1.same hw.2]
  exact ⟨b', rfl, h2⟩

theorem SameLines.prefix {w s s' : Text} (h : SameLines s s') (hw : '\r' ∉ w ∧ '\n' ∉ w) (hp : w <+: s) : w <+: s' := by
  obtain ⟨t, rfl⟩ := hp
  obtain ⟨t', rfl, -⟩ := h.front hw
  exact ⟨t', rfl⟩

theorem SameLines.starts {P : Char → Prop} {s s' : Text} (h : SameLines s s') (hr : ¬ P '\r') (hn : ¬ P '\n') (hs : StartsIn P s) : StartsIn P s' := by
  obtain ⟨d, t, rfl, hd⟩ := hs
  obtain ⟨t', rfl, -⟩ := h.front (w := [d]) (t := t) ⟨by simpa using fun e : '\r' = d => hr (e ▸ hd), by simpa using fun e : '\n' = d => hn (e ▸ hd)⟩
  exact ⟨d, t', rfl, hd⟩

theorem SameLines.starts_ws {s s' : Text} (h : SameLines s s') (hs : StartsIn (· ∈ wsChars) s) : StartsIn (· ∈ wsChars) s' := by
  cases h with
  | nil => exact hs
  | char => obtain ⟨d, t, e, hd⟩ := hs; cases e; exact ⟨_, _, rfl, hd⟩
  | @line i j =>
    cases j with
    | zero => exact ⟨'\n', _, rfl, by decide⟩
    | succ j => exact ⟨'\r', _, rfl, by decide⟩

theorem SameLines.ws {s s' : Text} (h : SameLines s s') (hs : ∀ c ∈ s, c ∈ wsChars) : ∀ c ∈ s', c ∈ wsChars := by
  induction h with
  | nil => exact hs
  | char _ _ ih =>
    intro c hc
    rcases List.mem_cons.mp hc with rfl | hc
    · exact hs c (by simp)
    · exact ih (fun c hc => hs c (by simp [hc])) c hc
  | line _ ih =>
    intro c hc
    rcases List.mem_append.mp hc with hc | hc
    · rw [List.eq_of_mem_replicate hc]; decide
    · rcases List.mem_cons.mp hc with rfl | hc
      · decide
      · exact ih (fun c hc => hs c (by simp [hc])) c hc

theorem SameLines.noCont {post post' : Text} (h : SameLines post post') (hX : Sane X) (hp : NoCont X post) : NoCont X post' := by
  rintro d t rfl
  cases hd : X.cont d with
  | false => rfl
  | true =>
    have ws : ∀ c ∈ wsChars, ¬ X.cont c = true := fun c hc => by rw [(hX.ws c hc).2]; simp
    obtain ⟨e, u, rfl, he⟩ := h.symm.starts (P := fun c => X.cont c = true) (ws _ (by decide)) (ws _ (by decide)) ⟨d, t, rfl, hd⟩
    rw [hp e u rfl] at he
    cases he

theorem word_breaks (hX : Sane X) {w : Text} (hw : Word X w) : '\r' ∉ w ∧ '\n' ∉ w := by
  obtain ⟨c, cs, rfl, hc, hcs⟩ := hw
  have key : ∀ d ∈ wsChars, d ∉ c :: cs := by
    intro d hd hm
    rcases List.mem_cons.mp hm with rfl | hm
    · exact ws_not_start hX hd hc
    · have := hcs d hm
      rw [(hX.ws d hd).2] at this
      cases this
  exact ⟨key _ (by decide), key _ (by decide)⟩

/-- The first occurrence of a text without line breaks. -/
theorem SameLines.occ {pat content content' x x' : Text} (h1 : SameLines content content') (h2 : SameLines x x')
    (hp : '\r' ∉ pat ∧ '\n' ∉ pat) (h : FirstOcc pat (content ++ pat ++ x) content) : FirstOcc pat (content' ++ pat ++ x') content' := by
  refine ⟨⟨_, rfl⟩, ?_⟩
  intro a'' b'' e
  refine Classical.byContradiction fun hlt => ?_
  rw [List.append_assoc, List.append_assoc] at e
  rcases List.append_eq_append_iff.mp e with ⟨y, rfl, e2⟩ | ⟨y, rfl, e2⟩
  · simp at hlt
  · have hy : y ≠ [] := by rintro rfl; simp at hlt
    cases pat with
    | nil =>
      have := h.2 [] (content ++ x) (by simp)
      have : content = [] := List.length_eq_zero_iff.mp (by simpa using this)
      subst this
      have := h1.nil_left
      simp at this
      exact hy this.2
    | cons p pat =>
      have hst : ¬ StartsIn (fun c => c = '\r' ∨ c = '\n') y := by
        rintro ⟨d, t, rfl, hd⟩
        obtain rfl : p = d := by
          simp only [List.cons_append, List.cons.injEq] at e2
          exact e2.1
        rcases hd with rfl | rfl
        · exact hp.1 (by simp)
        · exact hp.2 (by simp)
      obtain ⟨a2, y2, rfl, k1, k2⟩ := h1.symm.cut rfl (.inr hst)
      have hy2 : y2 ≠ [] := by
        rintro rfl
        exact hy k2.symm.nil_left
      have hfull := (k2.append ((SameLines.refl (p :: pat)).append h2.symm))
      rw [← e2] at hfull
      obtain ⟨b2, e3, -⟩ := hfull.front hp
      have := h.2 a2 b2 (by simp only [List.append_assoc] at e3 ⊢; rw [e3])
      rw [List.length_append] at this
      exact hy2 (List.length_eq_zero_iff.mp (by omega))

theorem SameLines.noOcc {pat s s' : Text} (h : SameLines s s') (hp : '\r' ∉ pat ∧ '\n' ∉ pat) (hne : pat ≠ []) (hn : NoOcc pat s) : NoOcc pat s' := by
  rintro a b rfl
  obtain ⟨p, pat, rfl⟩ := List.exists_cons_of_ne_nil hne
  obtain ⟨a2, y, rfl, -, k2⟩ := h.symm.cut (List.append_assoc _ _ _) (.inr (by
    rintro ⟨d, t, e, hd⟩
    cases e
    rcases hd with rfl | rfl
    · exact hp.1 (by simp)
    · exact hp.2 (by simp)))
  obtain ⟨b2, rfl, -⟩ := k2.front hp
  exact hn a2 b2 (by simp)

theorem SameLines.comment {s s' : Text} (h : SameLines s s') : commentKind s' = commentKind s := by
  have key : ∀ w : Text, '\r' ∉ w ∧ '\n' ∉ w → w.isPrefixOf s' = w.isPrefixOf s := by
    intro w hw
    rw [Bool.eq_iff_iff, List.isPrefixOf_iff_prefix, List.isPrefixOf_iff_prefix]
    exact ⟨h.symm.prefix hw, h.prefix hw⟩
  unfold commentKind
  simp only [key c!"//" (by decide), key c!"///" (by decide), key c!"////" (by decide), key c!"//!" (by decide), key c!"/*" (by decide),
    key c!"/**" (by decide), key c!"/***" (by decide), key c!"/**/" (by decide), key c!"/*!" (by decide)]

theorem no_return_end {u v : Text} (hv : v ≠ []) (hr : '\r' ∉ v) (t : Text) : u ++ v ≠ t ++ ['\r'] := by
  intro e
  have h := congrArg List.getLast? e
  rw [List.getLast?_append, List.getLast?_eq_some_getLast hv] at h
  simp at h
  exact hr (h ▸ List.getLast_mem hv)

theorem rawClose_breaks (n : Nat) : rawClose n ≠ [] ∧ '\r' ∉ rawClose n ∧ '\n' ∉ rawClose n := by
  refine ⟨by simp [rawClose], ?_, ?_⟩ <;> · intro h; simp [rawClose] at h

theorem escape_breaks {b : Text} (he : Escape b) : '\r' ∉ b ∧ '\n' ∉ b := by
  have hex : ∀ c ∈ digitChars .Hexadecimal, c ≠ '\r' ∧ c ≠ '\n' := by decide
  cases he with
  | @simple c hc =>
    have : ∀ c ∈ c!"nrt\\'\"0", c ≠ '\r' ∧ c ≠ '\n' := by decide
    constructor <;> intro e <;> simp at e
    · exact (this c hc).1 e.symm
    · exact (this c hc).2 e.symm
  | hex _ hd =>
    constructor <;> intro e <;> simp at e
    · exact (hex _ (hd _ e)).1 rfl
    · exact (hex _ (hd _ e)).2 rfl
  | unicode _ hd =>
    constructor <;> intro e <;> simp at e
    · exact (hex _ (hd _ e)).1 rfl
    · exact (hex _ (hd _ e)).2 rfl

theorem charLit_breaks {t : Text} (h : CharLit t) (hq : ¬ QuotedFeed t) : '\n' ∉ t := by
  obtain ⟨b, hb, rfl⟩ := h
  have body : '\n' ∉ b := by
    cases hb with
    | @single c hc =>
      intro e
      obtain rfl : '\n' = c := by simpa using e
      exact hq ⟨[], [], rfl⟩
    | esc he =>
      intro e
      simp at e
      exact (escape_breaks he).2 e
  intro e
  simp at e
  exact body e

theorem strBody_returns {s : Text} : ∀ i : Nat, StrBody (List.replicate i '\r' ++ '\n' :: s) ↔ StrBody s
  | 0 => by
    constructor
    · intro h; cases h with | plain _ _ h => exact h
    · exact fun h => .plain (by decide) (by decide) h
  | i + 1 => by
    constructor
    · intro h; cases h with | plain _ _ h => exact (strBody_returns i).mp h
    · exact fun h => .plain (by decide) (by decide) ((strBody_returns i).mpr h)

theorem SameLines.strBody {b b' : Text} (h : SameLines b b') (hb : StrBody b) : StrBody b' := by
  induction hb generalizing b' with
  | nil => rw [h.nil_left]; exact .nil
  | @plain c t h1 h2 ht ih =>
    generalize hx : c :: t = x at h
    cases h with
    | nil => cases hx
    | char h0 h => cases hx; exact .plain h1 h2 (ih h)
    | @line i j s s' h =>
      rw [strBody_returns]
      cases i with
      | zero => cases hx; exact ih h
      | succ i =>
        cases hx
        exact (strBody_returns 0).mp (ih (.line (i := i) (j := 0) h))
  | @esc c t ht ih =>
    obtain ⟨u', rfl, hu⟩ := h.front (w := ['\\']) (t := c :: t) (by decide)
    generalize hx : c :: t = x at hu
    cases hu with
    | nil => cases hx
    | char h0 hu => cases hx; exact .esc (ih hu)
    | @line i j s s' hu =>
      have hs' : StrBody s' := by
        cases i with
        | zero => cases hx; exact ih hu
        | succ i => cases hx; exact (strBody_returns 0).mp (ih (.line (i := i) (j := 0) hu))
      cases j with
      | zero => exact .esc hs'
      | succ j => exact .esc ((strBody_returns j).mpr hs')

theorem SameLines.strLit {b b' : Text} (h : SameLines b b') (hb : StrLit b) : StrLit b' := by
  obtain ⟨c, hc, rfl⟩ := hb
  rw [List.append_assoc] at h
  obtain ⟨t', rfl, h0⟩ := h.front (by decide)
  obtain ⟨c', q, rfl, h1, h2⟩ := h0.cut rfl (.inr (by rintro ⟨d, t, e, hd⟩; cases e; revert hd; decide))
  rw [h2.same (by decide)]
  exact ⟨c', h1.strBody hc, by simp⟩

theorem SameLines.rawLit {b b' post post' : Text} (h : SameLines b b') (hp : SameLines post post') (hb : RawStrLit b post) : RawStrLit b' post' := by
  obtain ⟨n, c, rfl, ho⟩ := hb
  rw [List.append_assoc] at h
  obtain ⟨t', rfl, h0⟩ := h.front (by
    constructor <;> · intro e; simp at e)
  obtain ⟨c', q, rfl, h1, h2⟩ := h0.cut rfl (.inr (by rintro ⟨d, t, e, hd⟩; cases e; revert hd; decide))
  rw [h2.same (rawClose_breaks n).2.2]
  exact ⟨n, c', by simp, h1.occ hp (rawClose_breaks n).2 ho⟩

theorem rawLit_end {b post : Text} (h : RawStrLit b post) (t : Text) : b ≠ t ++ ['\r'] := by
  obtain ⟨n, c, rfl, ho⟩ := h
  exact no_return_end (rawClose_breaks n).1 (rawClose_breaks n).2.1 t

theorem strLit_end {b : Text} (h : StrLit b) (t : Text) : b ≠ t ++ ['\r'] := by
  obtain ⟨c, hc, rfl⟩ := h
  exact no_return_end (by decide) (by decide) t

theorem charLit_end {b : Text} (h : CharLit b) (t : Text) : b ≠ t ++ ['\r'] := by
  obtain ⟨c, hc, rfl⟩ := h
  exact no_return_end (by decide) (by decide) t

theorem cons_end {b : Text} (hb : ∀ t, b ≠ t ++ ['\r']) (t : Text) : 'b' :: b ≠ t ++ ['\r'] := by
  intro e
  cases t with
  | nil => cases e
  | cons d t => cases e; exact hb t rfl

theorem QuotedFeed.mono {a b c : Text} (h : QuotedFeed b) : QuotedFeed (a ++ b ++ c) := by
  obtain ⟨x, y, rfl⟩ := h
  exact ⟨a ++ x, y ++ c, by simp⟩

theorem SameLines.literalAt {s s' : Text} (h : SameLines s s') (hq : ¬ QuotedFeed s) (hl : LiteralAt s) : LiteralAt s' := by
  obtain ⟨a, post, rfl, hl⟩ := hl
  rcases hl with hr | ⟨b, rfl, hb⟩
  · obtain ⟨a', post', rfl, h1, h2⟩ := h.cut rfl (.inl (rawLit_end hr))
    exact ⟨a', post', rfl, .inl (h1.rawLit h2 hr)⟩
  · obtain ⟨a', post', rfl, h1, h2⟩ := h.cut rfl (.inl (cons_end (by
      rcases hb with hb | hb | hb
      · exact charLit_end hb
      · exact strLit_end hb
      · exact rawLit_end hb)))
    obtain ⟨b', rfl, h3⟩ := h1.front (w := ['b']) (t := b) (by decide)
    refine ⟨_, post', rfl, .inr ⟨b', rfl, ?_⟩⟩
    rcases hb with hb | hb | hb
    · rw [h3.same (charLit_breaks hb fun hf => hq (hf.mono (a := ['b']) (c := post)))]
      exact .inl hb
    · exact .inr (.inl (h3.strLit hb))
    · exact .inr (.inr (h3.rawLit h2 hb))

theorem SameLines.lineEnd {x s' : Text} (h : SameLines x s') {body r : Text} (hx : x = body ++ '\n' :: r) (hb : '\n' ∉ body) :
    ∃ body' r', s' = body' ++ '\n' :: r' ∧ '\n' ∉ body' ∧ SameLines (body ++ ['\n']) (body' ++ ['\n']) ∧ SameLines r r' := by
  induction h generalizing body with
  | nil => simp at hx
  | @char c s s' hn h ih =>
    cases body with
    | nil => cases hx; exact absurd rfl hn
    | cons d body =>
      cases hx
      obtain ⟨body', r', rfl, h1, h2, h3⟩ := ih rfl (fun h => hb (by simp [h]))
      exact ⟨c :: body', r', rfl, by simp [Ne.symm hn, h1], .char hn h2, h3⟩
  | @line i j s s' h ih =>
    have hr : ∀ i : Nat, '\n' ∉ List.replicate i '\r' := fun i h => absurd (List.eq_of_mem_replicate h) (by decide)
    have : body = List.replicate i '\r' ∧ r = s := by
      rcases List.append_eq_append_iff.mp hx with ⟨y, rfl, e⟩ | ⟨y, e, e2⟩
      · cases y with
        | nil => cases e; simp
        | cons d y => cases e; simp at hb
      · cases y with
        | nil => cases e2; simp [e]
        | cons d y =>
          cases e2
          exact absurd (by rw [e]; simp) (hr i)
    obtain ⟨rfl, rfl⟩ := this
    exact ⟨List.replicate j '\r', s', rfl, hr j, .line .nil, h⟩

theorem symbol_breaks {k : TK} {w : Text} (h : symbolText k = some w) : '\r' ∉ w ∧ '\n' ∉ w := by
  have key : ∀ k : TK, ∀ w ∈ symbolText k, '\r' ∉ w ∧ '\n' ∉ w := by
    intro k w hw
    cases k <;> first | (cases hw; done) | (cases hw; decide)
  exact key k w h

theorem keyword_breaks {k : TK} {w : Text} (h : keywordText k = some w) : '\r' ∉ w ∧ '\n' ∉ w := by
  have key : ∀ k : TK, ∀ w ∈ keywordText k, '\r' ∉ w ∧ '\n' ∉ w := by
    intro k w hw
    cases k <;> first | (cases hw; done) | (cases hw; decide)
  exact key k w h

theorem digit_breaks (b : NumBase) : ¬ DigitOr_ b '\r' ∧ ¬ DigitOr_ b '\n' := by
  unfold DigitOr_
  cases b <;> decide

theorem wordStart_breaks (hX : Sane X) : ¬ WordStart X '\r' ∧ ¬ WordStart X '\n' :=
  ⟨ws_not_start hX (by decide), ws_not_start hX (by decide)⟩

theorem SameLines.noFraction (hX : Sane X) {s s' : Text} (h : SameLines s s') (hn : NoFraction X s) : NoFraction X s' := by
  rintro t' rfl
  obtain ⟨t, rfl, ht⟩ := h.symm.front (w := ['.']) (t := t') (by decide)
  rcases hn t rfl with h | h
  · exact .inl (ht.symm.starts (by decide) (by decide) h)
  · exact .inr (ht.symm.starts (wordStart_breaks hX).1 (wordStart_breaks hX).2 h)

theorem SameLines.noExponent {s s' : Text} (h : SameLines s s') (hn : NoExponent s) : NoExponent s' := by
  rintro m t' rfl hm hs
  obtain ⟨t, rfl, ht⟩ := h.symm.front (w := [m]) (t := t') (by rcases hm with rfl | rfl <;> decide)
  exact hn m t rfl hm (ht.starts (digit_breaks _).1 (digit_breaks _).2 hs)

theorem numText_breaks (hX : Sane X) {p : NumParts} {post : Text} (h : NumText X p post) : '\r' ∉ p.text ∧ '\n' ∉ p.text := by
  have digits : ∀ {b : NumBase} {ds : Text}, (∀ c ∈ ds, DigitOr_ b c) → '\r' ∉ ds ∧ '\n' ∉ ds := fun h =>
    ⟨fun hm => (digit_breaks _).1 (h _ hm), fun hm => (digit_breaks _).2 (h _ hm)⟩
  have h1 : '\r' ∉ basePrefix p.base ∧ '\n' ∉ basePrefix p.base := by cases p.base <;> decide
  have h2 := digits h.digits
  have h3 : '\r' ∉ p.fracText ∧ '\n' ∉ p.fracText := by
    unfold NumParts.fracText
    cases hf : p.frac with
    | none => simp
    | some ds => simpa using digits (h.frac ds hf).digits
  have h4 : '\r' ∉ p.expText ∧ '\n' ∉ p.expText := by
    unfold NumParts.expText
    cases hf : p.exp with
    | none => simp
    | some r =>
      obtain ⟨m, ds⟩ := r
      obtain ⟨hm, -, hd, -⟩ := h.exp m ds hf
      rcases hm with rfl | rfl <;> simpa using digits hd
  have h5 : '\r' ∉ p.sufText ∧ '\n' ∉ p.sufText := by
    unfold NumParts.sufText
    cases hf : p.suf with
    | none => simp
    | some w => simpa using word_breaks hX (h.suf w hf).1
  unfold NumParts.text
  simp [h1, h2, h3, h4, h5]

theorem SameLines.numText (hX : Sane X) {p : NumParts} {post post' : Text} (h : SameLines post post') (hn : NumText X p post) : NumText X p post' := by
  have st : ∀ {P : Char → Prop} (x : Text), (¬ P '\r' ∧ ¬ P '\n') → ¬ StartsIn P (x ++ post) → ¬ StartsIn P (x ++ post') :=
    fun x hP hs hs' => hs (((SameLines.refl x).append h).symm.starts hP.1 hP.2 hs')
  refine ⟨hn.ne, hn.digits, st _ (digit_breaks _) hn.longest, ?_, ?_, ?_, ?_, ?_, ?_, ?_⟩
  · intro hb b hne t' e hs
    have hx := ((SameLines.refl p.text).append h).symm
    rw [e] at hx
    obtain ⟨t, e2, ht⟩ := hx.front (by cases b <;> decide)
    exact hn.decimal hb b hne t e2 (ht.starts (digit_breaks _).1 (digit_breaks _).2 hs)
  · intro ds hf
    have := hn.frac ds hf
    refine ⟨this.digits, st _ (digit_breaks _) this.longest, ?_, ?_⟩
    · have := this.notRange
      rw [← List.append_assoc] at this ⊢
      exact st _ (by decide) this
    · have := this.notAccess
      rw [← List.append_assoc] at this ⊢
      exact st _ (wordStart_breaks hX) this
  · exact fun hf => ((SameLines.refl _).append h).noFraction hX (hn.noFrac hf)
  · intro m ds hf
    obtain ⟨a, b, c, d⟩ := hn.exp m ds hf
    exact ⟨a, b, c, st _ (digit_breaks _) d⟩
  · exact fun hf => ((SameLines.refl _).append h).noExponent (hn.noExp hf)
  · exact fun w hf => ⟨(hn.suf w hf).1, h.noCont hX (hn.suf w hf).2⟩
  · exact fun hf => st [] (wordStart_breaks hX) (hn.noSuf hf)

/-- A token of one text and the corresponding token of the other. -/
theorem spelling_lines (hX : Sane X) {o : Nat} {t : Token} {body post : Text} (h : Spelling X o t body post) {s' : Text}
    (hs : SameLines (body ++ post) s') (hq : ¬ QuotedFeed (body ++ post)) (hq' : ¬ QuotedFeed s') (o' : Nat) :
    ∃ t' body' post', s' = body' ++ post' ∧ SameLines post post' ∧ SameLines (body ++ ['\n']) (body' ++ ['\n']) ∧
      Spelling X o' t' body' post' ∧ SameKind t t' := by
  have fed : ∀ {a a' : Text}, SameLines a a' → SameLines (a ++ ['\n']) (a' ++ ['\n']) := fun h => h.append (.refl _)
  cases h with
  | ident hw hk hp hl hr =>
    obtain ⟨post', rfl, h2⟩ := hs.front (word_breaks hX hw)
    exact ⟨_, _, post', rfl, h2, .refl _, .ident hw hk (h2.noCont hX hp) (fun h => hl (hs.symm.literalAt hq' h))
      (fun h => hr (hs.symm.prefix (by decide) h)), rfl⟩
  | keyword hk hp =>
    obtain ⟨post', rfl, h2⟩ := hs.front (keyword_breaks hk)
    exact ⟨_, _, post', rfl, h2, .refl _, .keyword hk (h2.noCont hX hp), rfl⟩
  | @rawIdent w _ hw hp =>
    obtain ⟨post', rfl, h2⟩ := hs.front (by have := word_breaks hX hw; simpa using this)
    exact ⟨_, _, post', rfl, h2, .refl _, .rawIdent hw (h2.noCont hX hp), rfl⟩
  | symbol hk hm hc =>
    obtain ⟨post', rfl, h2⟩ := hs.front (symbol_breaks hk)
    exact ⟨_, _, post', rfl, h2, .refl _, .symbol hk (fun k' w' h' hp => hm k' w' h' (hs.symm.prefix (symbol_breaks h') hp))
      (hs.comment.trans hc), rfl⟩
  | char hc =>
    obtain ⟨b', post', rfl, h1, h2⟩ := hs.cut rfl (.inl (charLit_end hc))
    rw [h1.same (charLit_breaks hc fun hf => hq (hf.mono (a := [])))]
    exact ⟨_, _, post', rfl, h2, .refl _, .char hc, rfl⟩
  | str hc =>
    obtain ⟨b', post', rfl, h1, h2⟩ := hs.cut rfl (.inl (strLit_end hc))
    exact ⟨_, _, post', rfl, h2, fed h1, .str (h1.strLit hc), rfl⟩
  | strRaw hc =>
    obtain ⟨b', post', rfl, h1, h2⟩ := hs.cut rfl (.inl (rawLit_end hc))
    exact ⟨_, _, post', rfl, h2, fed h1, .strRaw (h1.rawLit h2 hc), rfl⟩
  | @byte b _ hc =>
    obtain ⟨b', post', rfl, h1, h2⟩ := hs.cut rfl (.inl (cons_end (charLit_end hc)))
    obtain ⟨b', rfl, h3⟩ := h1.front (w := ['b']) (t := b) (by decide)
    rw [h3.same (charLit_breaks hc fun hf => hq (hf.mono (a := ['b'])))]
    exact ⟨_, _, post', rfl, h2, .refl _, .byte hc, rfl⟩
  | @byteStr b _ hc =>
    obtain ⟨b', post', rfl, h1, h2⟩ := hs.cut rfl (.inl (cons_end (strLit_end hc)))
    obtain ⟨b', rfl, h3⟩ := h1.front (w := ['b']) (t := b) (by decide)
    exact ⟨_, _, post', rfl, h2, fed h1, .byteStr (h3.strLit hc), rfl⟩
  | @byteStrRaw b _ hc =>
    obtain ⟨b', post', rfl, h1, h2⟩ := hs.cut rfl (.inl (cons_end (rawLit_end hc)))
    obtain ⟨b', rfl, h3⟩ := h1.front (w := ['b']) (t := b) (by decide)
    exact ⟨_, _, post', rfl, h2, fed h1, .byteStrRaw (h3.rawLit h2 hc), rfl⟩
  | @lifetime w _ hw hp hl =>
    obtain ⟨post', rfl, h2⟩ := hs.front (w := '\'' :: w) (by have := word_breaks hX hw; simpa using this)
    exact ⟨_, _, post', rfl, h2, .refl _, .lifetime hw (h2.noCont hX hp) (fun h => hl ⟨h.1, h2.symm.starts (by decide) (by decide) h.2⟩), rfl⟩
  | number hn hu =>
    obtain ⟨post', rfl, h2⟩ := hs.front (numText_breaks hX hn)
    exact ⟨_, _, post', rfl, h2, .refl _, .number (h2.numText hX hn) hu, by simp [SameKind, NumParts.number]⟩
  | line hk hc hl =>
    obtain ⟨hb, hl⟩ := hl
    cases post with
    | nil =>
      rw [List.append_nil] at hs
      have := hs.same hb
      subst this
      exact ⟨_, _, [], (List.append_nil _).symm, .nil, .refl _, .line hk hc ⟨hb, hl⟩, rfl⟩
    | cons d r =>
      obtain rfl := hl d r rfl
      have hcom := hs.comment
      obtain ⟨body', r', rfl, h1, h2, h3⟩ := hs.lineEnd rfl hb
      exact ⟨_, body', _, rfl, .line (i := 0) (j := 0) h3, h2, .line hk (hcom.trans hc) ⟨h1, fun d t e => by cases e; rfl⟩, rfl⟩
  | @block k op _ _ hk hc hb =>
    have hcom := hs.comment
    have hop : '\r' ∉ op ∧ '\n' ∉ op := by
      have key : ∀ k : TK, ∀ w ∈ blockOpener k, '\r' ∉ w ∧ '\n' ∉ w := by
        intro k w hw
        cases k <;> first | (cases hw; done) | (cases hw; decide)
      exact key k op hk
    rcases hb with ⟨inner, rfl, ho⟩ | ⟨inner, rfl, ho, rfl⟩
    · obtain ⟨b', post', rfl, h1, h2⟩ := hs.cut rfl (.inl (no_return_end (by decide) (by decide)))
      have h1' := h1
      rw [List.append_assoc] at h1'
      obtain ⟨x, rfl, h3⟩ := h1'.front hop
      obtain ⟨i', q, rfl, h4, h5⟩ := h3.cut rfl (.inr (by rintro ⟨d, t, e, hd⟩; cases e; revert hd; decide))
      have h6 := h5.same (by decide)
      subst h6
      exact ⟨_, _, post', rfl, h2, fed h1, .block hk (hcom.trans hc) (.inl ⟨i', by simp, h4.occ h2 (by decide) ho⟩), rfl⟩
    · rw [List.append_nil] at hs
      obtain ⟨i', rfl, h1⟩ := hs.front hop
      exact ⟨_, op ++ i', [], by simp, .nil, fed hs, .block hk (by rw [List.append_nil] at *; exact hcom.trans hc)
        (.inr ⟨i', rfl, h1.noOcc (by decide) (by decide) ho, rfl⟩), rfl⟩
  | ws hne hw hp =>
    obtain ⟨b', post', rfl, h1, h2⟩ := hs.cut rfl (.inr fun ⟨d, t, e, hd⟩ => hp ⟨d, t, e, by rcases hd with rfl | rfl <;> decide⟩)
    exact ⟨_, b', post', rfl, h2, fed h1, .ws (by rintro rfl; exact hne h1.symm.nil_left) (h1.ws hw) (fun h => hp (h2.symm.starts_ws h)), rfl⟩

theorem spelled_lines (hX : Sane X) {ts : List Token} {p p' s : Text} (h : Spelled X (blen p) ts s) {s' : Text}
    (hs : SameLines s s') (hq : ¬ QuotedFeed s) (hq' : ¬ QuotedFeed s') :
    ∃ ts', Spelled X (blen p') ts' s' ∧ SameTokens (p ++ s) (p' ++ s') ts ts' := by
  generalize ho : blen p = o at h
  induction h generalizing s' p p' with
  | done =>
    obtain rfl := hs.nil_left
    refine ⟨_, .done, .cons (b := []) (b' := []) rfl ?_ ?_ (.refl _) .nil⟩
    · have := sliceText_append p [] []
      simpa [← ho, blen, Token.extent] using this
    · have := sliceText_append p' [] []
      simpa [blen, Token.extent] using this
  | @token o t body post ts ht _ ih =>
    subst ho
    obtain ⟨t', body', post', rfl, h1, h2, h3, h4⟩ := spelling_lines hX ht hs hq hq' (blen p')
    obtain ⟨ts', h5, h6⟩ := ih (p := p ++ body) (p' := p' ++ body') h1 (fun h => hq (by simpa using h.mono (a := body) (c := [])))
      (fun h => hq' (by simpa using h.mono (a := body') (c := []))) (blen_append _ _)
    rw [blen_append] at h5
    refine ⟨t' :: ts', .token h3 h5, .cons (b := body) (b' := body') h4 ?_ ?_ h2 (by simpa using h6)⟩
    · rw [(spelling_ext hX ht).2.1]; exact sliceText_append p body post
    · rw [(spelling_ext hX h3).2.1]; exact sliceText_append p' body' post'

theorem begins_lines (hX : Sane X) {o : Nat} {ts : List Token} {s r : Text} (h : Begins X o ts s r) {s' : Text}
    (hs : SameLines s s') (hq : ¬ QuotedFeed s) (hq' : ¬ QuotedFeed s') (o' : Nat) :
    ∃ ts' r', Begins X o' ts' s' r' ∧ SameLines r r' ∧ ¬ QuotedFeed r ∧ ¬ QuotedFeed r' := by
  induction h generalizing s' o' with
  | none => exact ⟨_, _, .none, hs, hq, hq'⟩
  | @token o t body post ts r ht _ ih =>
    obtain ⟨t', body', post', rfl, h1, -, h3, -⟩ := spelling_lines hX ht hs hq hq' o'
    obtain ⟨ts', r', h5, h6⟩ := ih h1 (fun h => hq (by simpa using h.mono (a := body) (c := []))) (fun h => hq' (by simpa using h.mono (a := body') (c := [])))
      (o' + blen body')
    exact ⟨t' :: ts', r', .token h3 h5, h6⟩

theorem openStr_returns {s : Text} : ∀ i : Nat, OpenStr (List.replicate i '\r' ++ '\n' :: s) ↔ OpenStr s
  | 0 => by
    constructor
    · intro h; cases h with | plain _ _ h => exact h
    · exact fun h => .plain (by decide) (by decide) h
  | i + 1 => by
    constructor
    · intro h; cases h with | plain _ _ h => exact (openStr_returns i).mp h
    · exact fun h => .plain (by decide) (by decide) ((openStr_returns i).mpr h)

theorem SameLines.openStr {b b' : Text} (h : SameLines b b') (hb : OpenStr b) : OpenStr b' := by
  induction hb generalizing b' with
  | nil => rw [h.nil_left]; exact .nil
  | slash => rw [h.same (by decide)]; exact .slash
  | @plain c t h1 h2 ht ih =>
    generalize hx : c :: t = x at h
    cases h with
    | nil => cases hx
    | char h0 h => cases hx; exact .plain h1 h2 (ih h)
    | @line i j s s' h =>
      rw [openStr_returns]
      cases i with
      | zero => cases hx; exact ih h
      | succ i =>
        cases hx
        exact (openStr_returns 0).mp (ih (.line (i := i) (j := 0) h))
  | @esc c t ht ih =>
    obtain ⟨u', rfl, hu⟩ := h.front (w := ['\\']) (t := c :: t) (by decide)
    generalize hx : c :: t = x at hu
    cases hu with
    | nil => cases hx
    | char h0 hu => cases hx; exact .esc (ih hu)
    | @line i j s s' hu =>
      have hs' : OpenStr s' := by
        cases i with
        | zero => cases hx; exact ih hu
        | succ i => cases hx; exact (openStr_returns 0).mp (ih (.line (i := i) (j := 0) hu))
      cases j with
      | zero => exact .esc hs'
      | succ j => exact .esc ((openStr_returns j).mpr hs')

/-- Where one text has no token the other has none, and the same is missing. -/
theorem noToken_lines (hX : Sane X) {s s' : Text} {n : Nat} {E : LErr → Prop} (h : NoToken X s n E) (hs : SameLines s s') (hq' : ¬ QuotedFeed s') :
    ∃ n', NoToken X s' n' E := by
  have hws := wordStart_breaks hX
  have hhex : ¬ Hex '\r' ∧ ¬ Hex '\n' := by unfold Hex; decide
  cases h with
  | @stray c t h1 h2 h3 h4 h5 h6 =>
    obtain ⟨t', rfl, -⟩ := hs.front (w := [c]) (t := t) (by
      constructor <;> intro e <;> simp at e <;> subst e
      · exact h3 (by decide)
      · exact h3 (by decide))
    exact ⟨_, .stray h1 h2 h3 h4 h5 h6⟩
  | @str t h1 =>
    obtain ⟨t', rfl, ht⟩ := hs.front (w := ['"']) (t := t) (by decide)
    exact ⟨_, .str (ht.openStr h1)⟩
  | @rawStart n t h1 h2 h3 =>
    obtain ⟨t', rfl, ht⟩ := hs.front (by constructor <;> · intro e; simp at e)
    exact ⟨_, .rawStart h1 (fun h => h2 (ht.symm.starts (by decide) (by decide) h)) (fun e h => h3 e (ht.symm.starts hws.1 hws.2 h))⟩
  | @rawEnd n t h1 h2 =>
    obtain ⟨t', rfl, ht⟩ := hs.front (by constructor <;> · intro e; simp at e)
    exact ⟨_, .rawEnd h1 (ht.noOcc (rawClose_breaks n).2 (rawClose_breaks n).1 h2)⟩
  | quoteEnd => rw [hs.same (by decide)]; exact ⟨_, .quoteEnd⟩
  | @quote c t h1 h2 h3 =>
    obtain ⟨u', rfl, hu⟩ := hs.front (w := ['\'']) (t := c :: t) (by decide)
    generalize hx : c :: t = x at hu
    cases hu with
    | nil => cases hx
    | char h0 ht =>
      cases hx
      exact ⟨_, .quote h1 h2 (fun h => h3 (ht.symm.starts (by decide) (by decide) h))⟩
    | @line i j s s' h =>
      cases j with
      | zero =>
        refine ⟨_, .quote (c := '\n') (t := s') (by decide) hws.2 ?_⟩
        rintro ⟨d, r, rfl, rfl⟩
        exact hq' ⟨[], r, rfl⟩
      | succ j =>
        refine ⟨_, .quote (c := '\r') (t := List.replicate j '\r' ++ '\n' :: s') (by decide) hws.1 ?_⟩
        rintro ⟨d, r, e, rfl⟩
        cases j <;> cases e
  | @escaped b t h1 h2 h3 =>
    obtain ⟨t', rfl, ht⟩ := hs.front (by have := escape_breaks h1; simpa using this)
    exact ⟨_, .escaped h1 (fun h => h2 (ht.symm.starts (by decide) (by decide) h)) (fun ds e h => h3 ds e (ht.symm.starts hhex.1 hhex.2 h))⟩
  | @escape t h1 h2 =>
    obtain ⟨t', rfl, ht⟩ := hs.front (by decide)
    exact ⟨_, .escape (fun h => h1 (ht.symm.starts (by decide) (by decide) h)) (fun h => h2 (ht.symm.prefix (by decide) h))⟩
  | @hex t h1 =>
    obtain ⟨t', rfl, ht⟩ := hs.front (w := c!"'\\x") (by decide)
    exact ⟨_, .hex (fun h => h1 (ht.symm.starts hhex.1 hhex.2 h))⟩
  | @unicode t h1 =>
    obtain ⟨t', rfl, ht⟩ := hs.front (w := c!"'\\u{") (by decide)
    exact ⟨_, .unicode (fun h => h1 (ht.symm.starts hhex.1 hhex.2 h))⟩
  | @unicodeEnd ds t h1 h2 h3 =>
    obtain ⟨t', rfl, ht⟩ := hs.front (by
      constructor <;> intro e <;> simp at e
      · exact hhex.1 (h2 _ e)
      · exact hhex.2 (h2 _ e))
    exact ⟨_, .unicodeEnd h1 h2 (fun h => h3 (ht.symm.starts (by simp [hhex]) (by simp [hhex]) h))⟩

theorem crlf_lines : ∀ s : Text, SameLines s (crlf s)
  | [] => .nil
  | c :: s => by
    unfold crlf
    split
    · subst_vars
      exact .line (i := 0) (j := 1) (crlf_lines s)
    · exact .char ‹_› (crlf_lines s)

theorem crlf_quoted (s : Text) : ¬ QuotedFeed (crlf s) := by
  have key : ∀ s : Text, (∀ a b, crlf s ≠ a ++ c!"'\n'" ++ b) ∧ (∀ b, crlf s ≠ '\n' :: b) := by
    intro s
    induction s with
    | nil => exact ⟨fun a b e => (by cases a <;> cases e), fun b e => (by cases e)⟩
    | cons c s ih =>
      have hc : crlf (c :: s) = if c = '\n' then '\r' :: '\n' :: crlf s else c :: crlf s := rfl
      rw [hc]
      split
      · refine ⟨?_, fun b e => by cases e⟩
        intro a b e
        match a with
        | [] => cases e
        | [d] => cases e
        | d :: f :: a => exact ih.1 a b (by simpa using (List.cons.inj (List.cons.inj e).2).2)
      · refine ⟨?_, ?_⟩
        · intro a b e
          cases a with
          | nil => exact ih.2 _ (List.cons.inj e).2
          | cons d a => exact ih.1 a b (by simpa using (List.cons.inj e).2)
        · intro b e
          exact ‹¬ c = '\n'› (List.cons.inj e).1
  rintro ⟨a, b, e⟩
  exact (key s).1 a b e.symm

end Verif.Spec
