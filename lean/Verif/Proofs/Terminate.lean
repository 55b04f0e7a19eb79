import Verif.Proofs.Consume
import Verif.Rank
import Verif.ParseLoop
/-!
# The parser terminates

No left recursion: before anything is consumed, a rule only calls nonterminals of lower rank.  Every loop consumes something
on each turn.
-/

namespace Verif

/-- The result is not that of a loop without end. -/
def NoHang {α : Type} (r : Res α) : Prop := match r.out with | .hang => False | _ => True

/-- Before anything is consumed, only nonterminals of rank below `r` are called. -/
def G.head (r : Nat) : G → Bool
  | .eps | .tok _ | .number | .simpleNumber | .nested _ _ => true
  | .r n => decide (n.rank < r)
  | .seq a b => a.head r && (!a.null || b.head r)
  | .tailed _ sep a | .tailed1Values sep a | .implTailed _ _ sep a => a.head r && sep.head r
  | .resume sep _ => sep.head r
  | .alt a b | .ifAmbiguous a b => a.head r && b.head r
  | .opt a | .many a | .peek a
  | .ext a | .drop a | .map _ a | .build _ a | .nodeEmpty _ a | .mapErr _ a | .amb _ a | .notMaximum a => a.head r

/-- Every turn of every loop consumes something: the body of `many`, the separators, and the elements that need no
separator. -/
def G.loops : G → Bool
  | .eps | .tok _ | .number | .simpleNumber | .nested _ _ | .r _ => true
  | .seq a b | .alt a b | .ifAmbiguous a b => a.loops && b.loops
  | .tailed _ sep a | .tailed1Values sep a | .resume sep a => !sep.null && sep.loops && a.loops
  | .implTailed _ i sep a =>
    !sep.null && sep.loops && a.loops && (!a.null || (i == .statement && a == .r .statement))
  | .many a => !a.null && a.loops
  | .opt a | .peek a
  | .ext a | .drop a | .map _ a | .build _ a | .nodeEmpty _ a | .mapErr _ a | .amb _ a | .notMaximum a => a.loops

/-- The same for a rule. -/
def Rule.head (n : Nat) (r : Rule) : Bool :=
  match r with
  | .g x => x.head n && x.loops
  | .expr _ => decide (6 ≤ n)

theorem rules_head : ∀ nt, (rules nt).head nt.rank = true := by
  have h : NT.all.all (fun nt => (rules nt).head nt.rank) = true := by decide +kernel
  intro nt
  exact List.all_eq_true.mp h nt (NT.mem_all nt)

theorem rank_lt (nt : NT) : nt.rank < 10 := by
  have h : NT.all.all (fun nt => decide (nt.rank < 10)) = true := by decide +kernel
  exact of_decide_eq_true (List.all_eq_true.mp h nt (NT.mem_all nt))

namespace NoHang
variable {α β : Type} {toks : List Token} {a : Amb} {pt : Pt}

theorem bind {p : P α} {f : α → P β} {p0 : Pt} {Q : Pt → α → Prop} (h : NoHang (p a pt))
    (hr : Run toks (p a pt) a p0 Q) (hf : ∀ q v, ValidPt toks q → p0.key ≤ q.key → Q q v → NoHang (f v a q)) :
    NoHang (p.bind f a pt) := by
  unfold P.bind
  generalize p a pt = res at h hr ⊢
  obtain ⟨out, a', l⟩ := res
  obtain ⟨rfl, h2, h3⟩ := hr
  cases out with
  | ok q v => exact hf q v h3.1 h3.2.1 h3.2.2
  | fail => trivial
  | panic => trivial
  | hang => exact h.elim

theorem map {p : P α} {f : α → β} (h : NoHang (p a pt)) : NoHang (p.map f a pt) := by
  unfold P.map
  generalize p a pt = res at h ⊢
  obtain ⟨out, a', l⟩ := res
  cases out <;> first | trivial | exact h.elim

theorem mapErr {p : P α} {e : PErr} (h : NoHang (p a pt)) : NoHang (p.mapErr e a pt) := by
  unfold P.mapErr
  generalize p a pt = res at h ⊢
  obtain ⟨out, a', l⟩ := res
  cases out <;> first | trivial | exact h.elim

theorem optional {p : P α} (h : NoHang (p a pt)) : NoHang (p.optional a pt) := by
  unfold P.optional
  generalize p a pt = res at h ⊢
  obtain ⟨out, a', l⟩ := res
  cases out <;> first | trivial | exact h.elim

theorem peek {p : P α} (h : NoHang (p a pt)) : NoHang (p.peek a pt) := by
  unfold P.peek
  generalize p a pt = res at h ⊢
  obtain ⟨out, a', l⟩ := res
  cases out <;> first | trivial | exact h.elim

theorem spanned {p : P α} (h : NoHang (p a pt)) : NoHang (P.spanned toks p a pt) := by
  unfold P.spanned
  generalize p a pt = res at h ⊢
  obtain ⟨out, a', l⟩ := res
  cases out with
  | ok q v => dsimp only; cases ex toks pt q <;> trivial
  | fail => trivial
  | panic => trivial
  | hang => exact h.elim

theorem spannedEmpty {p : P α} (h : NoHang (p a pt)) : NoHang (P.spannedEmpty toks p a pt) := by
  unfold P.spannedEmpty
  generalize p a pt = res at h ⊢
  obtain ⟨out, a', l⟩ := res
  cases out with
  | ok q v => dsimp only; cases ex toks pt pt <;> trivial
  | fail => trivial
  | panic => trivial
  | hang => exact h.elim

theorem orElse {p q : P α} {Q : Pt → α → Prop} (h : NoHang (p a pt)) (hr : Run toks (p a pt) a pt Q)
    (h' : NoHang (q a pt)) : NoHang (p.orElse q a pt) := by
  unfold P.orElse
  generalize p a pt = res at h hr ⊢
  obtain ⟨out, a', l⟩ := res
  obtain ⟨rfl, -, -⟩ := hr
  cases out with
  | ok => trivial
  | fail => exact h'
  | panic => trivial
  | hang => exact h.elim

theorem setAmbiguityLevel {p : P α} {level : Amb} (h : NoHang (p level pt)) :
    NoHang (p.setAmbiguityLevel level a pt) := h

theorem token {conv : Token → Option α} {err : PErr} : NoHang (token toks conv err a pt) := by
  rw [token_eq]
  repeat (first | trivial | split)

theorem fieldNameNumber : NoHang (fieldNameNumber toks a pt) := by
  unfold Verif.fieldNameNumber
  have h := token (toks := toks) (a := a) (pt := pt) (conv := convNumber) (err := .ExpectedNumber)
  generalize Verif.token toks convNumber .ExpectedNumber a pt = res at h ⊢
  obtain ⟨out, a', l⟩ := res
  cases out with
  | ok q n => dsimp only; cases n.intoSimple <;> trivial
  | fail => trivial
  | panic => trivial
  | hang => exact h.elim

theorem zeroOrMore {p : P α} {k : Nat} (h : ∀ pt, ValidPt toks pt → k ≤ pt.key → NoHang (p a pt))
    (hr : ∀ pt, ValidPt toks pt → Run toks (p a pt) a pt (fun q _ => pt.key < q.key)) (n : Nat) :
    ∀ pt, ValidPt toks pt → k ≤ pt.key → 4 * toks.length < n + pt.key → NoHang (P.zeroOrMore p n a pt) := by
  induction n with
  | zero => intro pt hv _ hn; have := hv.key_lt; omega
  | succ n ih =>
    intro pt hv hk hn
    unfold P.zeroOrMore
    have h1 := h pt hv hk
    have h2 := hr pt hv
    generalize p a pt = res at h1 h2 ⊢
    obtain ⟨out, a', l⟩ := res
    obtain ⟨rfl, h2, h3⟩ := h2
    cases out with
    | fail => trivial
    | panic => trivial
    | hang => exact h1.elim
    | ok q v =>
      have := h3.2.2
      have h4 := ih q h3.1 (by omega) (by omega)
      dsimp only
      generalize P.zeroOrMore p n a' q = res at h4 ⊢
      obtain ⟨out, a', l⟩ := res
      cases out <;> first | trivial | exact h4.elim

section tailed
variable {sep : P β} {f : P α} {k : Nat} {Q : Pt → Pt → α → Prop}

theorem parseTailed (hf : NoHang (f a pt)) (hfr : Run toks (f a pt) a pt (Q pt))
    (hs : ∀ q v, ValidPt toks q → pt.key ≤ q.key → Q pt q v → NoHang (sep a q)) :
    NoHang (P.parseTailed sep f a pt) := by
  unfold P.parseTailed
  generalize f a pt = res at hf hfr ⊢
  obtain ⟨out, a', l⟩ := res
  obtain ⟨rfl, h2, h3⟩ := hfr
  cases out with
  | fail => trivial
  | panic => trivial
  | hang => exact hf.elim
  | ok q v =>
    have h4 := hs q v h3.1 h3.2.1 h3.2.2
    dsimp only
    generalize sep a' q = res at h4 ⊢
    obtain ⟨out, a', l⟩ := res
    cases out <;> first | trivial | exact h4.elim

theorem zeroOrMoreTailedAppend (hf : ∀ pt, ValidPt toks pt → k ≤ pt.key → NoHang (f a pt))
    (hs : ∀ pt, ValidPt toks pt → k ≤ pt.key → NoHang (sep a pt))
    (hfr : ∀ pt, ValidPt toks pt → Run toks (f a pt) a pt (fun _ _ => True))
    (hsr : ∀ pt, ValidPt toks pt → Run toks (sep a pt) a pt (fun q _ => pt.key < q.key)) (n : Nat) :
    ∀ pt t, ValidPt toks pt → k ≤ pt.key → 4 * toks.length < n + pt.key →
      NoHang (P.zeroOrMoreTailedAppend sep f n t a pt) := by
  induction n with
  | zero => intro pt t hv _ hn; have := hv.key_lt; omega
  | succ n ih =>
    intro pt t hv hk hn
    unfold P.zeroOrMoreTailedAppend
    refine bind (parseTailed (Q := fun _ _ _ => True) (hf pt hv hk) (hfr pt hv) fun q v hq hk' _ => hs q hq (by omega))
      (Run.parseTailed (F := fun _ _ => True) (S := fun _ _ => True) (fun _ _ _ _ _ => trivial)
        (fun _ _ _ _ _ => trivial) (Qs := fun p q => p.key < q.key) (hfr pt hv) fun q hq _ => hsr q hq) ?_
    intro q s hq hk' hs'
    cases hs' with
    | nothing => trivial
    | valueOnly => trivial
    | valueAndSeparator m _ v h1 h2 h3 h4 h5 => exact ih q _ hq (by omega) (by omega)

theorem zeroOrMoreImplicitlyTailed {impl : α → Bool}
    (hf : ∀ pt, ValidPt toks pt → k ≤ pt.key → NoHang (f a pt))
    (hs : ∀ pt, ValidPt toks pt → k ≤ pt.key → NoHang (sep a pt))
    (hfr : ∀ pt, ValidPt toks pt → Run toks (f a pt) a pt (fun q v => impl v = true → pt.key < q.key))
    (hsr : ∀ pt, ValidPt toks pt → Run toks (sep a pt) a pt (fun q _ => pt.key < q.key)) (n : Nat) :
    ∀ pt t, ValidPt toks pt → k ≤ pt.key → 4 * toks.length < n + pt.key →
      NoHang (P.zeroOrMoreImplicitlyTailed impl sep f n t a pt) := by
  induction n with
  | zero => intro pt t hv _ hn; have := hv.key_lt; omega
  | succ n ih =>
    intro pt t hv hk hn
    unfold P.zeroOrMoreImplicitlyTailed
    refine bind (parseTailed (Q := fun pt q v => impl v = true → pt.key < q.key) (hf pt hv hk) (hfr pt hv)
        fun q v hq hk' _ => hs q hq (by omega))
      (Run.parseTailed (F := fun _ _ => True) (S := fun _ _ => True) (fun _ _ _ _ _ => trivial)
        (fun _ _ _ _ _ => trivial) (Qs := fun p q => p.key < q.key) (hfr pt hv) fun q hq _ => hsr q hq) ?_
    intro q s hq hk' hs'
    cases hs' with
    | nothing => trivial
    | valueOnly m _ v h1 h2 h3 h4 =>
      dsimp only
      split
      · have := h4 (by assumption)
        exact ih q _ hq (by omega) (by omega)
      · trivial
    | valueAndSeparator m _ v h1 h2 h3 h4 h5 => exact ih q _ hq (by omega) (by omega)

theorem oneOrMoreTailed (hf : ∀ pt, ValidPt toks pt → k ≤ pt.key → NoHang (f a pt))
    (hs : ∀ pt, ValidPt toks pt → k ≤ pt.key → NoHang (sep a pt))
    (hfr : ∀ pt, ValidPt toks pt → Run toks (f a pt) a pt (fun _ _ => True))
    (hsr : ∀ pt, ValidPt toks pt → Run toks (sep a pt) a pt (fun q _ => pt.key < q.key)) (n : Nat)
    (hv : ValidPt toks pt) (hk : k ≤ pt.key) (hn : 4 * toks.length < n + pt.key) :
    NoHang (P.oneOrMoreTailed sep f n a pt) := by
  unfold P.oneOrMoreTailed
  refine bind (parseTailed (Q := fun _ _ _ => True) (hf pt hv hk) (hfr pt hv) fun q v hq hk' _ => hs q hq (by omega))
    (Run.parseTailed (F := fun _ _ => True) (S := fun _ _ => True) (fun _ _ _ _ _ => trivial)
        (fun _ _ _ _ _ => trivial) (Qs := fun p q => p.key < q.key) (hfr pt hv) fun q hq _ => hsr q hq) ?_
  intro q s hq hk' hs'
  cases hs' with
  | nothing => trivial
  | valueOnly => trivial
  | valueAndSeparator m _ v h1 h2 h3 h4 h5 =>
    exact zeroOrMoreTailedAppend hf hs hfr hsr n q _ hq (by omega) (by omega)

end tailed
end NoHang

section main
variable {toks : List Token} {rec : NT → P (List V)}

local notation "Φ₀" => (fun nt am p q vs => Consumes nt am p q vs)

theorem consumes_lt : ∀ nt am p q vs, Consumes nt am p q vs → nt.nullable = false → p.key < q.key :=
  fun _ _ _ _ _ h => h.1

theorem evalG_lt (ht : EofLast toks) (hr : RecOK toks Φ₀ rec) {g : G} (hw : g.wf = true) (hg : g.null = false)
    {a : Amb} {pt : Pt} (hv : ValidPt toks pt) :
    Run toks (evalG toks rec g a pt) a pt (fun q _ => pt.key < q.key) :=
  (evalG_run ht hr g hw a pt hv).mono fun _ _ _ _ h => den_lt consumes_lt g hg _ _ _ _ h

theorem evalG_true (ht : EofLast toks) (hr : RecOK toks Φ₀ rec) {g : G} (hw : g.wf = true)
    {a : Amb} {pt : Pt} (hv : ValidPt toks pt) :
    Run toks (evalG toks rec g a pt) a pt (fun _ _ => True) :=
  (evalG_run ht hr g hw a pt hv).mono fun _ _ _ _ _ => trivial

theorem evalG_noHang (ht : EofLast toks) (hr : RecOK toks Φ₀ rec) {k r : Nat}
    (h : ∀ nt a pt, ValidPt toks pt → k ≤ pt.key → (k < pt.key ∨ nt.rank < r) → NoHang (rec nt a pt)) (g : G) :
    g.wf = true → g.loops = true → ∀ a pt, ValidPt toks pt → k ≤ pt.key → (k < pt.key ∨ g.head r = true) →
      NoHang (evalG toks rec g a pt) := by
  have hfuel : ∀ pt : Pt, 4 * toks.length < loopFuel toks + pt.key := by intro pt; simp [loopFuel]; omega
  induction g with
  | eps => intro _ _ a pt _ _ _; trivial
  | tok => intro _ _ a pt _ _ _; exact NoHang.map NoHang.token
  | number => intro _ _ a pt _ _ _; exact NoHang.map NoHang.token
  | simpleNumber => intro _ _ a pt _ _ _; exact NoHang.fieldNameNumber
  | r n => intro _ _ a pt hv hk hh; exact h n a pt hv hk (by simpa [G.head] using hh)
  | seq x y ihx ihy =>
    intro hw hl a pt hv hk hh
    simp only [G.wf, G.loops, G.head, Bool.and_eq_true, Bool.or_eq_true, Bool.not_eq_true'] at hw hl hh
    refine NoHang.bind (toks := toks) (p0 := pt) (Q := fun q _ => x.null = false → pt.key < q.key)
      (ihx hw.1 hl.1 a pt hv hk (hh.imp id And.left)) ?_ ?_
    · exact (evalG_run ht hr x hw.1 a pt hv).mono fun _ _ _ _ h hg => den_lt consumes_lt x hg _ _ _ _ h
    · intro q v hq hk' hlt
      refine NoHang.map (ihy hw.2 hl.2 a q hq (by omega) ?_)
      rcases hh with hh | ⟨-, hh⟩
      · left; omega
      · rcases hh with hh | hh
        · have := hlt hh; left; omega
        · exact .inr hh
  | alt x y ihx ihy =>
    intro hw hl a pt hv hk hh
    simp only [G.wf, G.loops, G.head, Bool.and_eq_true] at hw hl hh
    exact NoHang.orElse (ihx hw.1 hl.1 a pt hv hk (hh.imp id And.left)) (evalG_true ht hr hw.1 hv)
      (ihy hw.2 hl.2 a pt hv hk (hh.imp id And.right))
  | opt x ih => intro hw hl a pt hv hk hh; exact NoHang.map (NoHang.optional (ih hw hl a pt hv hk hh))
  | many x ih =>
    intro hw hl a pt hv hk hh
    simp only [G.wf, G.loops, G.head, Bool.and_eq_true, Bool.not_eq_true'] at hw hl hh
    refine NoHang.map (NoHang.zeroOrMore (k := pt.key) ?_ (fun pt hv => evalG_lt ht hr hw hl.1 hv) _ pt hv
      (Nat.le_refl _) (hfuel pt))
    intro q hq hk'
    exact ih hw hl.2 a q hq (by omega) (hh.imp (by omega) id)
  | tailed kk s x ihs ihx =>
    intro hw hl a pt hv hk hh
    simp only [G.wf, G.loops, G.head, Bool.and_eq_true, Bool.not_eq_true'] at hw hl hh
    refine NoHang.map (NoHang.zeroOrMoreTailedAppend (k := pt.key) ?_ ?_ (fun pt hv => evalG_true ht hr hw.2 hv)
      (fun pt hv => evalG_lt ht hr hw.1 hl.1.1 hv) _ pt _ hv (Nat.le_refl _) (hfuel pt))
    · intro q hq hk'; exact ihx hw.2 hl.2 a q hq (by omega) (hh.imp (by omega) And.left)
    · intro q hq hk'; exact ihs hw.1 hl.1.2 a q hq (by omega) (hh.imp (by omega) And.right)
  | tailed1Values s x ihs ihx =>
    intro hw hl a pt hv hk hh
    simp only [G.wf, G.loops, G.head, Bool.and_eq_true, Bool.not_eq_true'] at hw hl hh
    refine NoHang.map (NoHang.oneOrMoreTailed (k := pt.key) ?_ ?_ (fun pt hv => evalG_true ht hr hw.2 hv)
      (fun pt hv => evalG_lt ht hr hw.1 hl.1.1 hv) _ hv (Nat.le_refl _) (hfuel pt))
    · intro q hq hk'; exact ihx hw.2 hl.2 a q hq (by omega) (hh.imp (by omega) And.left)
    · intro q hq hk'; exact ihs hw.1 hl.1.2 a q hq (by omega) (hh.imp (by omega) And.right)
  | resume s x ihs ihx =>
    intro hw hl a pt hv hk hh
    simp only [G.wf, G.loops, G.head, Bool.and_eq_true, Bool.not_eq_true'] at hw hl hh
    refine NoHang.map ?_
    unfold P.zeroOrMoreTailedValuesResume
    have h1 := ihs hw.1 hl.1.2 a pt hv hk hh
    have h2 := evalG_lt ht hr hw.1 hl.1.1 (a := a) hv
    generalize evalG toks rec s a pt = res at h1 h2 ⊢
    obtain ⟨out, a', l⟩ := res
    obtain ⟨rfl, h2, h3⟩ := h2
    cases out with
    | fail => trivial
    | panic => trivial
    | hang => exact h1.elim
    | ok q v =>
      have hlt := h3.2.2
      have h4 : NoHang (P.oneOrMoreTailed (evalG toks rec s) (evalG toks rec x) (loopFuel toks) a' q) := by
        refine NoHang.oneOrMoreTailed (k := q.key) ?_ ?_ (fun pt hv => evalG_true ht hr hw.2 hv)
          (fun pt hv => evalG_lt ht hr hw.1 hl.1.1 hv) _ h3.1 (Nat.le_refl _) (hfuel q)
        · intro q' hq' hk'; exact ihx hw.2 hl.2 a' q' hq' (by omega) (.inl (by omega))
        · intro q' hq' hk'; exact ihs hw.1 hl.1.2 a' q' hq' (by omega) (.inl (by omega))
      dsimp only
      generalize P.oneOrMoreTailed (evalG toks rec s) (evalG toks rec x) (loopFuel toks) a' q = res at h4 ⊢
      obtain ⟨out, a', l⟩ := res
      cases out <;> first | trivial | exact h4.elim
  | implTailed kk i s x ihs ihx =>
    intro hw hl a pt hv hk hh
    simp only [G.wf, G.loops, G.head, Bool.and_eq_true, Bool.or_eq_true, Bool.not_eq_true', beq_iff_eq] at hw hl hh
    refine NoHang.map (NoHang.zeroOrMoreImplicitlyTailed (k := pt.key) ?_ ?_ ?_
      (fun pt hv => evalG_lt ht hr hw.1 hl.1.1.1 hv) _ pt _ hv (Nat.le_refl _) (hfuel pt))
    · intro q hq hk'; exact ihx hw.2 hl.1.2 a q hq (by omega) (hh.imp (by omega) And.left)
    · intro q hq hk'; exact ihs hw.1 hl.1.1.2 a q hq (by omega) (hh.imp (by omega) And.right)
    · intro q hq
      rcases hl.2 with hx | ⟨hi, hx⟩
      · exact (evalG_lt ht hr hw.2 hx hq).mono fun _ _ _ _ h _ => h
      · subst hi hx
        exact (hr.run .statement a q hq).mono fun _ _ _ _ h => h.2 rfl
  | nested o c =>
    intro hw _ a pt hv hk hh
    have hne : o ≠ .EndOfFile := by rintro rfl; simp [G.wf] at hw
    refine NoHang.bind (Q := fun _ _ => True) NoHang.token
      ((Run.token ht (convTK_isEOF hne) hv).mono fun _ _ _ _ _ => trivial) ?_
    intro q v hq _ _
    refine NoHang.map ?_
    unfold parseNestedUntil
    dsimp only
    split <;> trivial
  | ext x ih => intro hw hl a pt hv hk hh; exact NoHang.map (NoHang.spanned (ih hw hl a pt hv hk hh))
  | drop x ih => intro hw hl a pt hv hk hh; exact NoHang.map (ih hw hl a pt hv hk hh)
  | map f x ih => intro hw hl a pt hv hk hh; exact NoHang.map (ih hw hl a pt hv hk hh)
  | build m x ih => intro hw hl a pt hv hk hh; exact NoHang.map (NoHang.spanned (ih hw hl a pt hv hk hh))
  | nodeEmpty kk x ih => intro hw hl a pt hv hk hh; exact NoHang.map (NoHang.spannedEmpty (ih hw hl a pt hv hk hh))
  | mapErr e x ih => intro hw hl a pt hv hk hh; exact NoHang.mapErr (ih hw hl a pt hv hk hh)
  | peek x ih => intro hw hl a pt hv hk hh; exact NoHang.peek (ih hw hl a pt hv hk hh)
  | amb level x ih => intro hw hl a pt hv hk hh; exact NoHang.setAmbiguityLevel (ih hw hl level pt hv hk hh)
  | ifAmbiguous x y ihx ihy =>
    intro hw hl a pt hv hk hh
    simp only [G.wf, G.loops, G.head, Bool.and_eq_true] at hw hl hh
    unfold evalG
    split
    · exact ihx hw.1 hl.1 a pt hv hk (hh.imp id And.left)
    · exact ihy hw.2 hl.2 a pt hv hk (hh.imp id And.right)
  | notMaximum x ih =>
    intro hw hl a pt hv hk hh
    unfold evalG
    split
    · trivial
    · exact ih hw hl a pt hv hk hh

theorem tableP_noHang {α : Type} (ht : EofLast toks) (hr : RecOK toks Φ₀ rec) {k r : Nat}
    (h : ∀ nt a pt, ValidPt toks pt → k ≤ pt.key → (k < pt.key ∨ nt.rank < r) → NoHang (rec nt a pt))
    (t : (α × G) × List (α × G)) (hw : ∀ x ∈ t.1 :: t.2, x.2.wf = true) (hl : ∀ x ∈ t.1 :: t.2, x.2.loops = true)
    (a : Amb) (pt : Pt) (hv : ValidPt toks pt) (hk : k ≤ pt.key)
    (hh : k < pt.key ∨ ∀ x ∈ t.1 :: t.2, x.2.head r = true) : NoHang (tableP toks rec t a pt) := by
  have one : ∀ x ∈ t.1 :: t.2, NoHang (((evalG toks rec x.2).map fun vs => (x.1, vs)) a pt) ∧
      Run toks (((evalG toks rec x.2).map fun vs => (x.1, vs)) a pt) a pt (fun _ _ => True) := by
    intro x hx
    exact ⟨NoHang.map (evalG_noHang ht hr h x.2 (hw x hx) (hl x hx) a pt hv hk (hh.imp id (fun h => h x hx))),
      Run.map (evalG_true ht hr (hw x hx) hv)⟩
  have : ∀ (l : List (α × G)) (p : P (α × List V)), (∀ x ∈ l, x ∈ t.1 :: t.2) →
      NoHang (p a pt) → Run toks (p a pt) a pt (fun _ _ => True) →
      NoHang (l.foldl (fun p x => p.orElse ((evalG toks rec x.2).map fun vs => (x.1, vs))) p a pt) := by
    intro l
    induction l with
    | nil => intro p _ h _; exact h
    | cons x xs ih =>
      intro p hx h h'
      have h1 := one x (hx x (by simp))
      exact ih _ (fun y hy => hx y (by simp [hy])) (NoHang.orElse h h' h1.1) (Run.orElse h' h1.2)
  have h1 := one t.1 (by simp)
  exact this t.2 _ (fun x hx => by simp [hx]) h1.1 h1.2

theorem attributedP_noHang {α : Type} (hr : RecOK toks Φ₀ rec) {k r : Nat}
    (h : ∀ nt a pt, ValidPt toks pt → k ≤ pt.key → (k < pt.key ∨ nt.rank < r) → NoHang (rec nt a pt))
    {p : P α} {a : Amb} {pt : Pt} (hv : ValidPt toks pt) (hk : k ≤ pt.key) (hh : k < pt.key ∨ 6 ≤ r)
    (hp : ∀ pt, ValidPt toks pt → k ≤ pt.key → (k < pt.key ∨ 6 ≤ r) → NoHang (p a pt)) :
    NoHang (attributedP toks rec p a pt) := by
  have hattr : NT.rank .attribute < 6 := by decide
  refine NoHang.spanned (NoHang.bind (toks := toks) (p0 := pt) (Q := fun _ _ => True) ?_ ?_ ?_)
  · refine NoHang.zeroOrMore (k := pt.key) ?_ (fun pt hv => (hr.run .attribute a pt hv).mono fun _ _ _ _ h => h.1 rfl) _ pt hv
      (Nat.le_refl _) (by simp [loopFuel]; omega)
    intro q hq hk'
    exact h .attribute a q hq (by omega) (hh.imp (by omega) (by omega))
  · exact (Run.star (R := fun _ _ _ => True) (fun pt hv => (hr.run .attribute a pt hv).mono fun _ _ _ _ _ => trivial)
      _ pt hv).mono fun _ _ _ _ _ => trivial
  · intro q v hq hk' _
    exact NoHang.map (hp q hq (by omega) (hh.imp (by omega) id))

/-- The parsers of the shunting yard terminate from a point with key `k` on; those that come first also there. -/
structure ParsersNoHang (toks : List Token) (k r : Nat) (ps : ExprParsers) : Prop where
  prefixOrAtom : ∀ a pt, ValidPt toks pt → k ≤ pt.key → (k < pt.key ∨ 6 ≤ r) → NoHang (ps.prefixOrAtom a pt)
  infixOrPostfix : ∀ a pt, ValidPt toks pt → k < pt.key → NoHang (ps.infixOrPostfix a pt)
  limitedPostfix : ∀ a pt, ValidPt toks pt → k < pt.key → NoHang (ps.limitedPostfix a pt)

theorem prefixTable_loops : ∀ x ∈ prefixTable.1 :: prefixTable.2, x.2.loops = true := by decide +kernel
theorem prefixTable_head : ∀ x ∈ prefixTable.1 :: prefixTable.2, x.2.head 6 = true := by decide +kernel
theorem infixTable_loops : ∀ x ∈ infixTable.1 :: infixTable.2, x.2.loops = true := by decide +kernel
theorem postfixTable_loops : ∀ x ∈ postfixTable.1 :: postfixTable.2, x.2.loops = true := by decide +kernel
theorem limitedTable_loops : ∀ x ∈ limitedTable.1 :: limitedTable.2, x.2.loops = true := by decide +kernel

theorem G.head_mono {r r' : Nat} (hr : r ≤ r') (g : G) (h : g.head r = true) : g.head r' = true := by
  induction g with
  | r n => simp only [G.head, decide_eq_true_eq] at h ⊢; omega
  | seq x y ihx ihy =>
    simp only [G.head, Bool.and_eq_true, Bool.or_eq_true] at h ⊢
    exact ⟨ihx h.1, h.2.imp id ihy⟩
  | _ => simp_all [G.head]

attribute [local irreducible] tableP attributedP TableR evalG

theorem exprParsers_noHang (ht : EofLast toks) (hr : RecOK toks Φ₀ rec) {k r : Nat}
    (h : ∀ nt a pt, ValidPt toks pt → k ≤ pt.key → (k < pt.key ∨ nt.rank < r) → NoHang (rec nt a pt)) :
    ParsersNoHang toks k r (exprParsers toks rec) where
  prefixOrAtom a pt hv hk hh := by
    refine NoHang.orElse (toks := toks) (Q := fun _ _ => True) (NoHang.map (attributedP_noHang hr h hv hk hh ?_))
      ?_ (NoHang.map (attributedP_noHang hr h hv hk hh ?_))
    · intro q hq hk hh
      exact tableP_noHang ht hr h prefixTable prefixTable_wf prefixTable_loops a q hq hk
        (hh.imp id (fun h6 x hx => G.head_mono h6 _ (prefixTable_head x hx)))
    · exact Run.map ((attributedP_run hr (R := fun _ _ _ => True) (fun pt hv =>
        (tableP_run ht hr prefixTable prefixTable_wf a pt hv).mono fun _ _ _ _ _ => trivial) pt hv).mono
        fun _ _ _ _ _ => trivial)
    · intro q hq hk hh
      have : NT.rank .expression_atom < 6 := by decide
      exact h .expression_atom a q hq hk (hh.imp id (by omega))
  infixOrPostfix a pt hv hk := by
    refine NoHang.orElse (toks := toks) (Q := fun _ _ => True) (NoHang.map ?_) (Run.map ?_) (NoHang.map ?_)
    · exact tableP_noHang ht hr h infixTable infixTable_wf infixTable_loops a pt hv (by omega) (.inl hk)
    · exact (tableP_run ht hr infixTable infixTable_wf a pt hv).mono fun _ _ _ _ _ => trivial
    · exact tableP_noHang ht hr h postfixTable postfixTable_wf postfixTable_loops a pt hv (by omega) (.inl hk)
  limitedPostfix a pt hv hk :=
    tableP_noHang ht hr h limitedTable limitedTable_wf limitedTable_loops a pt hv (by omega) (.inl hk)

/-- Every turn of the shunting yard consumes something or is the last. -/
theorem shuntLoop_noHang {ps : ExprParsers} {k r : Nat} {a : Amb} (hr6 : 6 ≤ r) (hp : ParsersOK toks Φ₀ ps)
    (hn : ParsersNoHang toks k r ps) (adapt : Yard → EState → EState)
    (n : Nat) :
    ∀ y st pt, ValidPt toks pt → k ≤ pt.key → (k < pt.key ∨ st = .Prefix) → 4 * toks.length < n + pt.key →
      NoHang (shuntLoop toks ps adapt n y st a pt) := by
  induction n with
  | zero => intro y st pt hv _ _ hn; have := hv.key_lt; omega
  | succ n ih =>
    intro y st pt hv hk hst hfu
    have hstop : ∀ (q : Pt) (r : SRes (Car V)), NoHang (⟨r.toOut, a, []⟩ : Res V) := by
      intro q r; cases r <;> trivial
    unfold shuntLoop
    have key : NoHang (shuntStep toks ps y st a pt) ∧ Run toks (shuntStep toks ps y st a pt) a pt (fun q s =>
        match s with | .continue .. => pt.key < q.key | .stop _ => True) := by
      have hyard : ∀ {q : Pt} {st' : EState} (r : SRes Yard), pt.key < q.key →
          (match Step.ofYard st' r with | .continue .. => pt.key < q.key | .stop _ => True) := by
        intro q st' r hq; cases r <;> simp [Step.ofYard, hq]
      by_cases hs : st = .Prefix ∨ ∃ b, st = .Infix b
      · have h1 : NoHang (if (match st with | .Infix wasRange => a.isAmbiguous && wasRange | _ => false) then
            P.maximallyAmbiguous ps.prefixOrAtom a pt else ps.prefixOrAtom a pt) := by
          generalize (match st with | .Infix wasRange => a.isAmbiguous && wasRange | _ => false) = b
          cases b
          · exact hn.prefixOrAtom _ pt hv hk (.inr hr6)
          · exact NoHang.setAmbiguityLevel (hn.prefixOrAtom _ pt hv hk (.inr hr6))
        have h2 : Run toks (if (match st with | .Infix wasRange => a.isAmbiguous && wasRange | _ => false) then
            P.maximallyAmbiguous ps.prefixOrAtom a pt else ps.prefixOrAtom a pt) a pt (fun q _ => pt.key < q.key) := by
          have h3 : ∀ am, Run toks (ps.prefixOrAtom am pt) am pt (fun q _ => pt.key < q.key) := by
            intro am
            refine (hp.prefixOrAtom am pt hv).mono ?_
            intro q x _ _ hx
            cases x with
            | «prefix» => exact PrefixR.lt consumes_lt hx
            | atom => exact AtomR.lt consumes_lt hx
          generalize (match st with | .Infix wasRange => a.isAmbiguous && wasRange | _ => false) = b
          cases b
          · exact h3 _
          · exact Run.setAmbiguityLevel (h3 _)
        have heq : shuntStep toks ps y st a pt =
            match (if (match st with | .Infix wasRange => a.isAmbiguous && wasRange | _ => false) then
              P.maximallyAmbiguous ps.prefixOrAtom a pt else ps.prefixOrAtom a pt) with
            | ⟨.ok pt' (.prefix e attrs op payload), a', l⟩ =>
              ⟨.ok pt' (.ofYard .Prefix (y.addOperator toks (.pre e attrs op payload) pt pt')), a', l⟩
            | ⟨.ok pt' (.atom e), a', l⟩ => ⟨.ok pt' (.continue (y.addExpression e pt pt') .Atom), a', l⟩
            | ⟨.fail q _, a', l⟩ => ⟨.ok q (.stop (y.finish toks q)), a', l⟩
            | ⟨.panic, a', l⟩ => ⟨.panic, a', l⟩
            | ⟨.hang, a', l⟩ => ⟨.hang, a', l⟩ := by
          rcases hs with rfl | ⟨b, rfl⟩ <;> rfl
        rw [heq]
        generalize (if (match st with | .Infix wasRange => a.isAmbiguous && wasRange | _ => false) then
            P.maximallyAmbiguous ps.prefixOrAtom a pt else ps.prefixOrAtom a pt) = res at h1 h2 ⊢
        obtain ⟨out, a', l⟩ := res
        obtain ⟨rfl, h2, h3⟩ := h2
        cases out with
        | fail => exact ⟨trivial, rfl, h2, h3.1, h3.2, trivial⟩
        | panic => exact h3.elim
        | hang => exact h1.elim
        | ok q x =>
          cases x with
          | «prefix» => exact ⟨trivial, rfl, h2, h3.1, h3.2.1, hyard _ h3.2.2⟩
          | atom => exact ⟨trivial, rfl, h2, h3.1, h3.2.1, h3.2.2⟩
      · have hk' : k < pt.key := by
          rcases hst with hst | hst
          · exact hst
          · exact absurd (.inl hst) hs
        by_cases hlim : st = .AtomLimitedPostfix
        · subst hlim
          have h1 := hn.limitedPostfix a pt hv hk'
          have h2 := (hp.limitedPostfix a pt hv).mono
            (Q' := fun q _ => pt.key < q.key) fun _ _ _ _ h => TableR.lt consumes_lt limitedTable_null h
          simp only [shuntStep]
          generalize ps.limitedPostfix a pt = res at h1 h2 ⊢
          obtain ⟨out, a', l⟩ := res
          obtain ⟨rfl, h2, h3⟩ := h2
          cases out with
          | fail => exact ⟨trivial, rfl, h2, h3.1, h3.2, trivial⟩
          | panic => exact h3.elim
          | hang => exact h1.elim
          | ok q x => exact ⟨trivial, rfl, h2, h3.1, h3.2.1, hyard _ h3.2.2⟩
        · have h1 := hn.infixOrPostfix a pt hv hk'
          have h2 : Run toks (ps.infixOrPostfix a pt) a pt (fun q _ => pt.key < q.key) := by
            refine (hp.infixOrPostfix a pt hv).mono ?_
            intro q x _ _ hx
            cases x with
            | «infix» => exact TableR.lt consumes_lt infixTable_null hx
            | «postfix» => exact TableR.lt consumes_lt postfixTable_null hx
          have heq : shuntStep toks ps y st a pt =
              match ps.infixOrPostfix a pt with
              | ⟨.ok pt' (.infix op payload), a', l⟩ =>
                ⟨.ok pt' (.ofYard (.Infix op.isRange) (y.addOperator toks (.inf op payload) pt pt')), a', l⟩
              | ⟨.ok pt' (.postfix op payload), a', l⟩ =>
                ⟨.ok pt' (.ofYard .Postfix (y.addOperator toks (.post op payload) pt pt')), a', l⟩
              | ⟨.fail q _, a', l⟩ => ⟨.ok q (.stop (y.finish toks q)), a', l⟩
              | ⟨.panic, a', l⟩ => ⟨.panic, a', l⟩
              | ⟨.hang, a', l⟩ => ⟨.hang, a', l⟩ := by
            cases st with
            | «Prefix» => exact absurd (.inl rfl) hs
            | «Infix» b => exact absurd (.inr ⟨b, rfl⟩) hs
            | «Postfix» => rfl
            | Atom => rfl
            | AtomLimitedPostfix => exact absurd rfl hlim
          rw [heq]
          generalize ps.infixOrPostfix a pt = res at h1 h2 ⊢
          obtain ⟨out, a', l⟩ := res
          obtain ⟨rfl, h2, h3⟩ := h2
          cases out with
          | fail => exact ⟨trivial, rfl, h2, h3.1, h3.2, trivial⟩
          | panic => exact h3.elim
          | hang => exact h1.elim
          | ok q x =>
            cases x with
            | «infix» => exact ⟨trivial, rfl, h2, h3.1, h3.2.1, hyard _ h3.2.2⟩
            | «postfix» => exact ⟨trivial, rfl, h2, h3.1, h3.2.1, hyard _ h3.2.2⟩
    refine NoHang.bind key.1 key.2 ?_
    intro q s hq hk' hs
    cases s with
    | «continue» y' st' => exact ih _ _ q hq (by omega) (.inl (by have : pt.key < q.key := hs; omega)) (by
        have : pt.key < q.key := hs; omega)
    | stop r => exact hstop q r

/-- With this much fuel the parser returns. -/
theorem eval_noHang (ht : EofLast toks) (n : Nat) : ∀ nt a pt, ValidPt toks pt →
    10 * (4 * toks.length - pt.key) + nt.rank < n → NoHang (eval toks n nt a pt) := by
  induction n with
  | zero => intro nt a pt _ hn; omega
  | succ n ih =>
    intro nt a pt hv hn
    have hrec : RecOK toks Φ₀ (eval toks n) := eval_consumes ht n
    have hlt := hv.key_lt
    have h : ∀ nt' a pt', ValidPt toks pt' → pt.key ≤ pt'.key → (pt.key < pt'.key ∨ nt'.rank < nt.rank) →
        NoHang (eval toks n nt' a pt') := by
      intro nt' a pt' hv' hk hh
      refine ih nt' a pt' hv' ?_
      have := rank_lt nt'; have := hv'.key_lt
      rcases hh with hh | hh <;> omega
    have hhead := rules_head nt
    have hw := rules_wf nt
    unfold eval
    generalize rules nt = r at hhead hw ⊢
    cases r with
    | g g =>
      simp only [Rule.head, Bool.and_eq_true] at hhead
      exact evalG_noHang ht hrec h g hw hhead.2 a pt hv (Nat.le_refl _) (.inr hhead.1)
    | expr stmt =>
      simp only [Rule.head, decide_eq_true_eq] at hhead
      exact NoHang.map (shuntLoop_noHang hhead (exprParsers_ok ht hrec) (exprParsers_noHang ht hrec h) _
        (loopFuel toks) {} .Prefix pt hv (Nat.le_refl _) (.inr rfl) (by simp [loopFuel]; omega))

end main

end Verif
