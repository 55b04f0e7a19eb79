import Verif.Proofs.Early
/-!
# The parser succeeds only as the declarative reading of the grammar allows

Also: it stays at valid points, never goes backwards, never panics and restores the ambiguity mode.
-/

namespace Verif

/-- The tokens end with end-of-file, which occurs nowhere else. -/
def EofLast (toks : List Token) : Prop :=
  ∃ init t, toks = init ++ [t] ∧ t.isEOF = true ∧ ∀ u ∈ init, u.isEOF = false

theorem EofLast.next {toks : List Token} (h : EofLast toks) {n : Nat} {t : Token} (ht : toks[n]? = some t)
    (he : t.isEOF = false) : n + 1 < toks.length := by
  obtain ⟨init, u, rfl, hu, -⟩ := h
  rcases Nat.lt_or_ge n init.length with h | h
  · simp; omega
  · rw [List.getElem?_append_right h] at ht
    have : n - init.length = 0 := by
      have := (List.getElem?_eq_some_iff.mp ht).1; simpa using this
    rw [this] at ht
    simp at ht; subst ht; simp_all

theorem EofLast.pos {toks : List Token} (h : EofLast toks) : 0 < toks.length := by
  obtain ⟨init, u, rfl, hu, -⟩ := h; simp

theorem EofLast.eof_last {toks : List Token} (h : EofLast toks) {n : Nat} {t : Token} (ht : toks[n]? = some t)
    (he : t.isEOF = true) : n + 1 = toks.length := by
  obtain ⟨init, u, rfl, hu, hi⟩ := h
  rcases Nat.lt_or_ge n init.length with h | h
  · rw [List.getElem?_append_left h] at ht
    have := hi t (List.mem_of_getElem? ht); simp_all
  · have := (List.getElem?_eq_some_iff.mp ht).1; simp at this ⊢; omega

namespace Btw
variable {toks : List Token} {p q r : Pt}
theorem left (h : Btw toks p q) : ValidPt toks p := h.1
theorem right (h : Btw toks p q) : ValidPt toks q := h.2.1
theorem le (h : Btw toks p q) : p.key ≤ q.key := h.2.2
theorem refl (h : ValidPt toks p) : Btw toks p p := ⟨h, h, Nat.le_refl _⟩
theorem trans (h : Btw toks p q) (h' : Btw toks q r) : Btw toks p r := ⟨h.1, h'.2.1, Nat.le_trans h.2.2 h'.2.2⟩
end Btw

theorem ValidPt.of_none {toks : List Token} {n : Nat} (h : n < toks.length) : ValidPt toks ⟨n, none⟩ :=
  ⟨toks[n], by simp [h], by simp⟩

theorem split_isEOF {t : Token} {n : Nat} (h : (split t n).isSome) : t.isEOF = false := by
  unfold split at h; split at h <;> first | rfl | simp_all

/-- The extent of a stretch is there. -/
theorem ex_isSome {toks : List Token} {p q : Pt} (h : Btw toks p q) : ∃ e, ex toks p q = some e := by
  have hp := h.1.subw_le; have hq := h.2.1.subw_le; have ho := h.2.1.off_lt
  obtain ⟨⟨t, ht, -⟩, ⟨u, hu, -⟩, hk⟩ := h
  unfold Pt.key at hk
  unfold ex
  rw [ht]
  dsimp only
  split
  · have : q.off - 1 < toks.length := by omega
    rw [List.getElem?_eq_getElem this]; exact ⟨_, rfl⟩
  · split
    · split
      · exact ⟨_, rfl⟩
      · split
        · exact ⟨_, rfl⟩
        · omega
    · omega

theorem token_eq {α : Type} (toks : List Token) (conv : Token → Option α) (err : PErr) (a : Amb) (pt : Pt) :
    token toks conv err a pt =
      match toks[pt.off]? with
      | none => ⟨.fail pt err, a, []⟩
      | some o =>
        match current toks pt with
        | none => ⟨.panic, a, []⟩
        | some t =>
          match conv t with
          | some v => ⟨.ok (pt.advanceBy 1) v, a, []⟩
          | none =>
            match split o pt.subw with
            | some (h, _) =>
              match conv h with
              | some v => ⟨.ok ⟨pt.off, some pt.subw⟩ v, a, []⟩
              | none => ⟨.fail pt err, a, []⟩
            | none => ⟨.fail pt err, a, []⟩ := by
  unfold token current Pt.subw
  cases toks[pt.off]? with
  | none => rfl
  | some o => cases pt.sub <;> rfl

namespace Run
variable {α β : Type} {toks : List Token} {a : Amb} {pt : Pt}

theorem btw {r : Res α} {Q : Pt → α → Prop} (hv : ValidPt toks pt) (h : Run toks r a pt Q) :
    Run toks r a pt (fun q v => Btw toks pt q ∧ Q q v) :=
  h.mono fun _ _ h1 h2 h3 => ⟨⟨hv, h1, h2⟩, h3⟩

theorem spanned {p : P α} {Q : Pt → Extent × α → Prop} (hv : ValidPt toks pt)
    (h : Run toks (p a pt) a pt (fun q v => ∀ e, ex toks pt q = some e → Q q (e, v))) :
    Run toks (P.spanned toks p a pt) a pt Q := by
  unfold P.spanned
  generalize p a pt = res at h ⊢
  obtain ⟨out, a', l⟩ := res
  obtain ⟨rfl, h2, h3⟩ := h
  cases out with
  | ok q v =>
    obtain ⟨e, he⟩ := ex_isSome ⟨hv, h3.1, h3.2.1⟩
    dsimp only
    rw [he]
    exact ⟨rfl, h2, h3.1, h3.2.1, h3.2.2 e he⟩
  | fail => exact ⟨rfl, h2, h3⟩
  | panic => exact ⟨rfl, h2, h3⟩
  | hang => exact ⟨rfl, h2, h3⟩

theorem spannedEmpty {p : P α} {Q : Pt → Extent × α → Prop} (hv : ValidPt toks pt)
    (h : Run toks (p a pt) a pt (fun q v => ∀ e, ex toks pt pt = some e → Q q (e, v))) :
    Run toks (P.spannedEmpty toks p a pt) a pt Q := by
  unfold P.spannedEmpty
  generalize p a pt = res at h ⊢
  obtain ⟨out, a', l⟩ := res
  obtain ⟨rfl, h2, h3⟩ := h
  cases out with
  | ok q v =>
    obtain ⟨e, he⟩ := ex_isSome (.refl hv)
    dsimp only
    rw [he]
    exact ⟨rfl, h2, h3.1, h3.2.1, h3.2.2 e he⟩
  | fail => exact ⟨rfl, h2, h3⟩
  | panic => exact ⟨rfl, h2, h3⟩
  | hang => exact ⟨rfl, h2, h3⟩

theorem token {conv : Token → Option α} {err : PErr} (ht : EofLast toks) (hc : ∀ t, t.isEOF = true → conv t = none)
    (hv : ValidPt toks pt) : Run toks (token toks conv err a pt) a pt (fun q v => TokStep toks conv pt q v) := by
  obtain ⟨t, ht1, ht2⟩ := hv
  have hv : ValidPt toks pt := ⟨t, ht1, ht2⟩
  have hsub := hv.subw_le
  have hcur : ∃ u, current toks pt = some u ∧ (pt.sub = none → u = t) := by
    unfold current
    rw [ht1]
    dsimp only
    cases hs : pt.sub with
    | none => exact ⟨t, rfl, fun _ => rfl⟩
    | some n =>
      obtain ⟨x, hx⟩ := Option.isSome_iff_exists.mp (ht2 n hs)
      exact ⟨x.2, by simp [hx], by simp⟩
  obtain ⟨u, hcur, hu⟩ := hcur
  rw [token_eq, ht1, hcur]
  dsimp only
  cases hcu : conv u with
  | some v =>
    dsimp only
    have hne : t.isEOF = false := by
      cases hs : pt.sub with
      | none =>
        cases hu hs
        cases h : t.isEOF with
        | false => rfl
        | true => rw [hc t h] at hcu; simp at hcu
      | some n => exact split_isEOF (ht2 n hs)
    refine ⟨rfl, .nil, .of_none (ht.next ht1 hne), ?_, .whole hcur hcu⟩
    simp only [Pt.key, Pt.advanceBy, Pt.subw] at *
    omega
  | none =>
    dsimp only
    cases hsp : split t pt.subw with
    | none => exact ⟨rfl, .nil, hv, Nat.le_refl _⟩
    | some x =>
      obtain ⟨h, r⟩ := x
      dsimp only
      cases hch : conv h with
      | none => exact ⟨rfl, .nil, hv, Nat.le_refl _⟩
      | some v =>
        refine ⟨rfl, .nil, ⟨t, ht1, ?_⟩, ?_, .part ht1 hcur hcu hsp hch⟩
        · intro n hn; simp at hn; subst hn; simp [hsp]
        · simp [Pt.key, Pt.subw]

theorem star {p : P α} {R : Pt → Pt → α → Prop}
    (h : ∀ pt, ValidPt toks pt → Run toks (p a pt) a pt (R pt)) (n : Nat) :
    ∀ pt, ValidPt toks pt → Run toks (P.zeroOrMore p n a pt) a pt (Star toks R pt) :=
  zeroOrMore h (fun _ h => .nil h) (fun _ _ _ _ _ _ _ _ _ _ h1 h2 => .cons h1 h2) n

section tailed
variable {sep : P β} {f : P α} {R : Pt → Pt → α → Prop} {S : Pt → Pt → Prop} {es er : Bool}
  (hE : er = true → Here f) (hES : es = true → Here sep)
include hE hES

theorem tailR (h : ∀ pt, ValidPt toks pt → Run toks (f a pt) a pt (R pt))
    (hs : ∀ pt, ValidPt toks pt → Run toks (sep a pt) a pt (fun q _ => S pt q)) (n : Nat) :
    ∀ pt t, ValidPt toks pt → Run toks (P.zeroOrMoreTailedAppend sep f n t a pt) a pt (TailR toks es er S R pt t) := by
  induction n with
  | zero => intro pt t hv; exact ⟨rfl, .nil, trivial⟩
  | succ n ih =>
    intro pt t hv
    unfold P.zeroOrMoreTailedAppend
    refine bind (mono (parseTailed (F := fun p q => er = true → q = p) (S := fun p q => es = true → q = p) (fun _ _ _ _ h hb => hE hb _ _ _ _ h)
      (fun _ _ _ _ h hb => hES hb _ _ _ _ h) (h pt hv) (fun pt' hv' _ => hs pt' hv')) ?_)
    intro pt'' s hv'' hk hs
    cases hs with
    | nothing _ e h0 => exact pure hv'' (.stop ⟨⟨hv, hv'', hk⟩, h0⟩)
    | valueOnly pt' _ v h1 h2 h3 h4 h5 => exact pure hv'' (.last h4 ⟨⟨h1, hv'', h3⟩, h5⟩)
    | valueAndSeparator pt' _ v h1 h2 h3 h4 h5 => exact (ih _ _ hv'').mono fun _ _ _ _ h => .more h4 h5 h

theorem implR {impl : α → Bool} (h : ∀ pt, ValidPt toks pt → Run toks (f a pt) a pt (R pt))
    (hs : ∀ pt, ValidPt toks pt → Run toks (sep a pt) a pt (fun q _ => S pt q)) (n : Nat) :
    ∀ pt t, ValidPt toks pt →
      Run toks (P.zeroOrMoreImplicitlyTailed impl sep f n t a pt) a pt (ImplR toks es er impl S R pt t) := by
  induction n with
  | zero => intro pt t hv; exact ⟨rfl, .nil, trivial⟩
  | succ n ih =>
    intro pt t hv
    unfold P.zeroOrMoreImplicitlyTailed
    refine bind (mono (parseTailed (F := fun p q => er = true → q = p) (S := fun p q => es = true → q = p) (fun _ _ _ _ h hb => hE hb _ _ _ _ h)
      (fun _ _ _ _ h hb => hES hb _ _ _ _ h) (h pt hv) (fun pt' hv' _ => hs pt' hv')) ?_)
    intro pt'' s hv'' hk hs
    cases hs with
    | nothing _ e h0 => exact pure hv'' (.stop ⟨⟨hv, hv'', hk⟩, h0⟩)
    | valueOnly pt' _ v h1 h2 h3 h4 h5 =>
      dsimp only
      cases hi : impl v with
      | true =>
        rw [if_pos rfl]
        exact (ih _ _ hv'').mono fun _ _ _ _ h => .implicit h4 hi ⟨⟨h1, hv'', h3⟩, h5⟩ h
      | false =>
        rw [if_neg (by simp)]
        exact pure hv'' (.last h4 hi ⟨⟨h1, hv'', h3⟩, h5⟩)
    | valueAndSeparator pt' _ v h1 h2 h3 h4 h5 => exact (ih _ _ hv'').mono fun _ _ _ _ h => .more h4 h5 h

theorem tailR1 (h : ∀ pt, ValidPt toks pt → Run toks (f a pt) a pt (R pt))
    (hs : ∀ pt, ValidPt toks pt → Run toks (sep a pt) a pt (fun q _ => S pt q)) (n : Nat) (hv : ValidPt toks pt) :
    Run toks (P.oneOrMoreTailed sep f n a pt) a pt (TailR1 toks es er S R pt) := by
  unfold P.oneOrMoreTailed
  refine bind (mono (parseTailed (F := fun p q => er = true → q = p) (S := fun p q => es = true → q = p) (fun _ _ _ _ h hb => hE hb _ _ _ _ h)
      (fun _ _ _ _ h hb => hES hb _ _ _ _ h) (h pt hv) (fun pt' hv' _ => hs pt' hv')) ?_)
  intro pt'' s hv'' hk hs'
  cases hs' with
  | nothing _ e _ => exact failure hv''
  | valueOnly pt' _ v h1 h2 h3 h4 h5 => exact pure hv'' (.one h4 ⟨⟨h1, hv'', h3⟩, h5⟩)
  | valueAndSeparator pt' _ v h1 h2 h3 h4 h5 => exact (tailR hE hES h hs n _ _ hv'').mono fun _ _ _ _ h => .more h4 h5 h

theorem resume {Q : Pt → List α → Prop} {n : Nat} (h : ∀ pt, ValidPt toks pt → Run toks (f a pt) a pt (R pt))
    (hs : ∀ pt, ValidPt toks pt → Run toks (sep a pt) a pt (fun q _ => S pt q)) (hv : ValidPt toks pt)
    (h0 : ∀ q, Gap toks es pt q → Q q []) (h1 : ∀ m q t, S pt m → TailR1 toks es er S R m q t → Q q t.values) :
    Run toks (P.zeroOrMoreTailedValuesResume sep f n a pt) a pt Q := by
  unfold P.zeroOrMoreTailedValuesResume
  have hs0 := hs pt hv
  have hES0 := fun hb => hES hb a pt
  generalize sep a pt = res at hs0 hES0 ⊢
  obtain ⟨out, a', l⟩ := res
  obtain ⟨rfl, h2, h3⟩ := hs0
  cases out with
  | fail pt' e => exact ⟨rfl, h2, h3.1, h3.2, h0 _ ⟨⟨hv, h3⟩, fun hb => hES0 hb _ _ rfl⟩⟩
  | panic => exact ⟨rfl, h2, h3⟩
  | hang => exact ⟨rfl, h2, h3⟩
  | ok pt' v =>
    dsimp only at *
    obtain ⟨h3, h4, h5⟩ := h3
    have hr := tailR1 hE hES h hs n h3
    generalize P.oneOrMoreTailed sep f n a' pt' = res at hr ⊢
    obtain ⟨r, a'', l'⟩ := res
    obtain ⟨rfl, h6, h7⟩ := hr
    have hl := h2.append (h6.mono h4)
    cases r with
    | fail pt'' e => exact ⟨rfl, hl, hv, Nat.le_refl _, h0 _ ⟨.refl hv, fun _ => rfl⟩⟩
    | panic => exact h7.elim
    | hang => exact ⟨rfl, hl, trivial⟩
    | ok pt'' w => exact ⟨rfl, hl, h7.1, Nat.le_trans h4 h7.2.1, h1 _ _ _ h5 h7.2.2⟩

end tailed
end Run

/-- Where `parse_nested_until` stops there is still a token. -/
theorem nestedLen_lt (opn cls : Token → Bool) (ts : List Token) (h : ∃ t ∈ ts, t.isEOF = true) (d : Nat) :
    nestedLen opn cls d ts < ts.length := by
  induction ts generalizing d with
  | nil => simp at h
  | cons t ts ih =>
    simp only [nestedLen]
    split
    · simp
    · have h' : ∃ t ∈ ts, t.isEOF = true := by
        obtain ⟨u, hu, he⟩ := h
        simp at hu
        rcases hu with rfl | hu
        · contradiction
        · exact ⟨u, hu, he⟩
      split
      · have := ih h' (d + 1); simp; omega
      · split
        · split
          · simp
          · rename_i d'; have := ih h' d'; simp; omega
        · have := ih h' d; simp; omega

theorem EofLast.mem_drop {toks : List Token} (h : EofLast toks) {n : Nat} (hn : n < toks.length) :
    ∃ t ∈ toks.drop n, t.isEOF = true := by
  obtain ⟨init, u, rfl, hu, hi⟩ := h
  refine ⟨u, ?_, hu⟩
  rw [List.drop_append_of_le_length (by simp at hn; omega)]
  simp

/-- What is asked of the rules: end-of-file is never consumed, and nested tokens start with a bracket. -/
def G.wf : G → Bool
  | .eps | .number | .simpleNumber | .r _ => true
  | .tok k => k != .EndOfFile
  | .seq a b | .alt a b | .tailed _ a b | .tailed1Values a b | .resume a b | .implTailed _ _ a b
  | .ifAmbiguous a b => a.wf && b.wf
  | .opt a | .many a | .ext a | .drop a | .map _ a | .build _ a | .nodeEmpty _ a | .mapErr _ a | .peek a | .amb _ a
  | .notMaximum a => a.wf
  | .nested o _ => o == .LeftParen || o == .LeftSquare || o == .LeftCurly

/-- The same for a rule. -/
def Rule.wf (r : Rule) : Bool :=
  match r with
  | .g x => x.wf
  | .expr _ => true

theorem rules_wf : ∀ nt, (rules nt).wf = true := by
  have h : NT.all.all (fun nt => (rules nt).wf) = true := by decide +kernel
  intro nt
  exact List.all_eq_true.mp h nt (NT.mem_all nt)

theorem convTK_isEOF {k : TK} (hk : k ≠ .EndOfFile) (t : Token) (h : t.isEOF = true) : convTK k t = none := by
  cases t with
  | number => rfl
  | plain k' e =>
    simp only [convTK]
    split
    · subst k'
      unfold Token.isEOF at h
      split at h
      · rename_i heq; cases heq; exact absurd rfl hk
      · simp at h
    · rfl

theorem convNumber_isEOF (t : Token) (h : t.isEOF = true) : convNumber t = none := by
  cases t with
  | number => simp [Token.isEOF, Token.kind?] at h
  | plain k' e => rfl

theorem TokStep.sub_none {toks : List Token} {o : TK} {p q : Pt} {e : Extent}
    (ho : (o == .LeftParen || o == .LeftSquare || o == .LeftCurly) = true)
    (h : TokStep toks (convTK o) p q e) : q.sub = none := by
  cases h with
  | whole => rfl
  | part h1 h2 h3 h4 h5 =>
    exfalso
    unfold split at h4
    split at h4 <;> simp at h4 <;> obtain ⟨rfl, -⟩ := h4 <;> simp [convTK] at h5 <;> obtain ⟨rfl, -⟩ := h5 <;>
      simp at ho

section main
variable {toks : List Token} {Φ : NT → Rel} {rec : NT → P (List V)}

/-- The parsers of the nonterminals do as `Φ` says. -/
structure RecOK (toks : List Token) (Φ : NT → Rel) (rec : NT → P (List V)) : Prop where
  run : ∀ nt a pt, ValidPt toks pt → Run toks (rec nt a pt) a pt (Φ nt a pt)
  early : RecEarly rec

theorem evalG_run (ht : EofLast toks) (hr : RecOK toks Φ rec) (g : G) (hg : g.wf = true) :
    ∀ a pt, ValidPt toks pt → Run toks (evalG toks rec g a pt) a pt (den toks Φ g a pt) := by
  induction g with
  | eps => intro a pt hv; exact Run.pure hv ⟨hv, rfl, rfl⟩
  | tok k =>
    intro a pt hv
    refine Run.map (((Run.token ht (convTK_isEOF (by simpa [G.wf] using hg)) hv).btw hv).mono ?_)
    intro q v _ _ h; exact ⟨h.1, v, h.2, rfl⟩
  | number =>
    intro a pt hv
    refine Run.map (((Run.token ht convNumber_isEOF hv).btw hv).mono ?_)
    intro q v _ _ h; exact ⟨h.1, v, h.2, rfl⟩
  | simpleNumber =>
    intro a pt hv
    have h := Run.token (a := a) (err := .ExpectedNumber) ht convNumber_isEOF hv
    unfold evalG fieldNameNumber
    generalize token toks convNumber .ExpectedNumber a pt = res at h ⊢
    obtain ⟨out, a', l⟩ := res
    obtain ⟨rfl, h2, h3⟩ := h
    cases out with
    | ok q n =>
      dsimp only
      cases hn : n.intoSimple with
      | some e => exact ⟨rfl, h2, h3.1, h3.2.1, ⟨hv, h3.1, h3.2.1⟩, n, e, h3.2.2, hn, rfl⟩
      | none => exact ⟨rfl, h2, hv, Nat.le_refl _⟩
    | fail => exact ⟨rfl, h2, h3⟩
    | panic => exact ⟨rfl, h2, h3⟩
    | hang => exact ⟨rfl, h2, h3⟩
  | r n => intro a pt hv; exact (hr.run n a pt hv).btw hv
  | seq x y ihx ihy =>
    intro a pt hv
    simp [G.wf] at hg
    refine Run.bind ((ihx hg.1 a pt hv).mono ?_)
    intro m v hm hk h
    refine Run.map ((ihy hg.2 a m hm).mono ?_)
    intro q w _ _ h'
    exact ⟨m, v, w, h, h', rfl⟩
  | alt x y ihx ihy =>
    intro a pt hv
    simp [G.wf] at hg
    exact Run.orElse ((ihx hg.1 a pt hv).mono fun _ _ _ _ h => .inl h)
      ((ihy hg.2 a pt hv).mono fun _ _ _ _ h => .inr h)
  | opt x ih =>
    intro a pt hv
    exact Run.map (Run.optional hv ((ih hg a pt hv).mono fun _ v _ _ h => .inl ⟨v, h, rfl⟩) (.inr ⟨hv, rfl, rfl⟩))
  | many x ih =>
    intro a pt hv
    exact Run.map ((Run.star (ih hg a) _ pt hv).mono fun _ v _ _ h => ⟨v, h, rfl⟩)
  | tailed k s x ihs ihx =>
    intro a pt hv
    simp [G.wf] at hg
    exact Run.map ((Run.tailR (evalG_here hr.early x) (evalG_here hr.early s) (ihx hg.2 a) (fun pt hv => (ihs hg.1 a pt hv).mono fun _ w _ _ h => ⟨w, h⟩) _ pt _
      hv).mono fun _ v _ _ h => ⟨v, h, rfl⟩)
  | tailed1Values s x ihs ihx =>
    intro a pt hv
    simp [G.wf] at hg
    exact Run.map ((Run.tailR1 (evalG_here hr.early x) (evalG_here hr.early s) (ihx hg.2 a) (fun pt hv => (ihs hg.1 a pt hv).mono fun _ w _ _ h => ⟨w, h⟩) _
      hv).mono fun _ v _ _ h => ⟨v, h, rfl⟩)
  | resume s x ihs ihx =>
    intro a pt hv
    simp [G.wf] at hg
    refine Run.map (Run.resume (S := fun p q => ∃ w, den toks Φ s a p q w) (evalG_here hr.early x) (evalG_here hr.early s) (ihx hg.2 a) (fun pt hv => (ihs hg.1 a pt hv).mono fun _ w _ _ h => ⟨w, h⟩) hv ?_ ?_)
    · intro q h; exact .inl ⟨h, rfl⟩
    · rintro m q t ⟨w, h⟩ h'; exact .inr ⟨m, w, t, h, h', rfl⟩
  | implTailed k i s x ihs ihx =>
    intro a pt hv
    simp [G.wf] at hg
    exact Run.map ((Run.implR (evalG_here hr.early x) (evalG_here hr.early s) (ihx hg.2 a) (fun pt hv => (ihs hg.1 a pt hv).mono fun _ w _ _ h => ⟨w, h⟩) _ pt _
      hv).mono fun _ v _ _ h => ⟨v, h, rfl⟩)
  | nested o c =>
    intro a pt hv
    have hne : o ≠ .EndOfFile := by rintro rfl; simp [G.wf] at hg
    refine Run.bind (((Run.token ht (convTK_isEOF hne) hv).btw hv).mono ?_)
    intro m e0 hm hk h
    have hs := TokStep.sub_none hg h.2
    have hlen := nestedLen_lt (isTK o) (isTK c) (toks.drop m.off) (ht.mem_drop hm.off_lt) 0
    have hmq : Btw toks m (m.advanceBy (nestedLen (isTK o) (isTK c) 0 (toks.drop m.off))) := by
      refine ⟨hm, .of_none ?_, ?_⟩
      · simp at hlen; omega
      · simp only [Pt.key, Pt.subw, Pt.advanceBy, hs]; omega
    obtain ⟨e, he⟩ := ex_isSome hmq
    refine Run.map ?_
    unfold parseNestedUntil
    dsimp only
    rw [he]
    exact ⟨rfl, .nil, hmq.right, hmq.le, ⟨m, e0, e, h.1, h.2, hmq, rfl, he, rfl⟩⟩
  | ext x ih =>
    intro a pt hv
    exact Run.map (Run.spanned hv ((ih hg a pt hv).mono fun _ v _ _ h e he => ⟨v, e, h, he, rfl⟩))
  | drop x ih => intro a pt hv; exact Run.map ((ih hg a pt hv).mono fun _ v _ _ h => ⟨v, h, rfl⟩)
  | map f x ih => intro a pt hv; exact Run.map ((ih hg a pt hv).mono fun _ v _ _ h => ⟨v, h, rfl⟩)
  | build m x ih =>
    intro a pt hv
    exact Run.map (Run.spanned hv ((ih hg a pt hv).mono fun _ v _ _ h e he => ⟨v, e, h, he, rfl⟩))
  | nodeEmpty k x ih =>
    intro a pt hv
    exact Run.map (Run.spannedEmpty hv ((ih hg a pt hv).mono fun _ v _ _ h e he => ⟨v, e, h, he, rfl⟩))
  | mapErr e x ih => intro a pt hv; exact Run.mapErr (ih hg a pt hv)
  | peek x ih =>
    intro a pt hv
    exact Run.peek hv (ih hg a pt hv) fun _ _ h => ⟨hv, rfl, _, h⟩
  | amb level x ih => intro a pt hv; exact Run.setAmbiguityLevel (ih hg level pt hv)
  | ifAmbiguous x y ihx ihy =>
    intro a pt hv
    simp [G.wf] at hg
    unfold evalG
    split
    · exact (ihx hg.1 a pt hv).mono fun _ _ _ _ h => by simp only [den]; rw [if_pos (by assumption)]; exact h
    · exact (ihy hg.2 a pt hv).mono fun _ _ _ _ h => by simp only [den]; rw [if_neg (by assumption)]; exact h
  | notMaximum x ih =>
    intro a pt hv
    unfold evalG
    split
    · exact ⟨rfl, .nil, hv, Nat.le_refl _⟩
    · exact (ih hg a pt hv).mono fun _ _ _ _ h => ⟨by assumption, h⟩

end main

end Verif
