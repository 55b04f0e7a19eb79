import Verif.Props.Parse
import Verif.Props.Join
/-!
# Property theorem: what the parser toolkit remembers matters only for the messages (C77)

Whether `ParseMaster::finish` of `peresil` forgets the failures recorded so far when it is called on a success is not known
from the sources at hand (`cl`, `cp`).  The claim compares both ways.
-/

namespace Verif.Props
open Verif

/-- What becomes of a result when recorded failures are kept instead of forgotten: the same tree, or an error of the same kind
which is not reported at an earlier place. -/
inductive NoEarlier : FileResult → FileResult → Prop
  | ok (f : File) : NoEarlier (.ok f) (.ok f)
  | lexErr {d d' : LErrorDetail} (at_ : d.location ≤ d'.location)
      (more : d.location = d'.location → ∀ e ∈ d.errors, e ∈ d'.errors) : NoEarlier (.lexErr d) (.lexErr d')
  | parseErr {loc loc' : Nat} {errs errs' : List PErr} (at_ : loc ≤ loc') : NoEarlier (.parseErr loc errs) (.parseErr loc' errs')

/-! ## The tokenizer -/

/-- `f'` knows what `f` knows, or something further on. -/
def Knows {ε : Type} (f f' : Failures ε) : Prop :=
  f.point ≤ f'.point ∧ (f.point = f'.point → ∀ e ∈ f.kinds, e ∈ f'.kinds)

theorem Knows.new {ε : Type} (f : Failures ε) : Knows .new f :=
  ⟨Nat.zero_le _, fun _ e he => by cases he⟩

theorem Knows.add {ε : Type} {f f' : Failures ε} (h : Knows f f') (p : Nat) (e : ε) : Knows (f.add p e) (f'.add p e) := by
  obtain ⟨h1, h2⟩ := h
  unfold Failures.add
  repeat' split
  all_goals refine ⟨by first | omega | (simp only; omega), ?_⟩
  all_goals grind

theorem Knows.addAll {ε : Type} (l : List (Nat × ε)) : ∀ {f f' : Failures ε}, Knows f f' → Knows (f.addAll l) (f'.addAll l) := by
  induction l with
  | nil => exact id
  | cons x l ih => exact fun h => ih (h.add x.1 x.2)

/-- `Tokens::next` with the outcome of `single_token` given. -/
def nextWith (z : LRes Token × LLog) (clear : Bool) (st : Tokens) : Option LItem × Tokens :=
  if st.isExhausted then (none, st)
  else if st.pt.s.isEmpty then
    (some (.tok (.plain .EndOfFile ⟨st.pt.offset, st.pt.offset⟩)), { st with isExhausted := true })
  else
    match z with
    | (.ok point value, log) =>
      if st.pt.offset = point.offset then (some .panic, st)
      else
        let fails := if clear then .new else st.fails.addAll (log.map fun r => (r.1.offset, r.2))
        (some (.tok value), { st with pt := point, fails := fails })
    | (.fail pt e, log) =>
      let f := (st.fails.addAll (log.map fun r => (r.1.offset, r.2))).add pt.offset e
      (some (.err ⟨f.point, f.kinds⟩), { st with fails := .new })
    | (.panic, _) => (some .panic, st)
    | (.hang, _) => (some .panic, st)

theorem next_with (X : Xid) (clear : Bool) (st : Tokens) : st.next X clear = nextWith (singleToken X st.pt) clear st := by
  unfold Tokens.next nextWith
  generalize singleToken X st.pt = z
  split
  · rfl
  · split
    · rfl
    · rcases z with ⟨r, log⟩
      cases r <;> rfl

theorem next_forget {X : Xid} (cl : Bool) {f f' : Failures LErr} (hk : Knows f f') (pt : LPoint) (ex : Bool) :
    (∃ st, Tokens.next X true ⟨f, pt, ex⟩ = (none, st) ∧ ∃ st', Tokens.next X cl ⟨f', pt, ex⟩ = (none, st')) ∨
    (∃ t g g' pt' ex', Knows g g' ∧ Tokens.next X true ⟨f, pt, ex⟩ = (some (.tok t), ⟨g, pt', ex'⟩) ∧
      Tokens.next X cl ⟨f', pt, ex⟩ = (some (.tok t), ⟨g', pt', ex'⟩)) ∨
    (∃ d d' st st', Tokens.next X true ⟨f, pt, ex⟩ = (some (.err d), st) ∧ Tokens.next X cl ⟨f', pt, ex⟩ = (some (.err d'), st') ∧
      d.location ≤ d'.location ∧ (d.location = d'.location → ∀ e ∈ d.errors, e ∈ d'.errors)) ∨
    (∃ st st', Tokens.next X true ⟨f, pt, ex⟩ = (some .panic, st) ∧ Tokens.next X cl ⟨f', pt, ex⟩ = (some .panic, st')) := by
  rw [next_with, next_with]
  generalize singleToken X _ = z
  unfold nextWith
  dsimp only
  cases ex with
  | true => exact .inl ⟨_, rfl, _, rfl⟩
  | false =>
    simp only [Bool.false_eq_true, if_false]
    by_cases he : pt.s.isEmpty = true
    · simp only [he, if_true]
      exact .inr (.inl ⟨_, _, _, _, _, hk, rfl, rfl⟩)
    · simp only [he]
      rcases z with ⟨r, log⟩
      cases r with
      | panic => exact .inr (.inr (.inr ⟨_, _, rfl, rfl⟩))
      | hang => exact .inr (.inr (.inr ⟨_, _, rfl, rfl⟩))
      | fail q e =>
        obtain ⟨h1, h2⟩ := (hk.addAll (log.map fun r => (r.1.offset, r.2))).add q.offset e
        exact .inr (.inr (.inl ⟨_, _, _, _, rfl, rfl, h1, h2⟩))
      | ok q v =>
        by_cases hq : pt.offset = q.offset
        · simp only [hq, if_true]
          exact .inr (.inr (.inr ⟨_, _, rfl, rfl⟩))
        · simp only [hq, if_false, if_true]
          exact .inr (.inl ⟨_, _, _, _, _, .new _, rfl, rfl⟩)

theorem drain_forget {X : Xid} (cl : Bool) : ∀ (n : Nat) (f f' : Failures LErr) (pt : LPoint) (ex : Bool) (acc : List Token),
    Knows f f' →
    (∃ ts, Tokens.drain X true n ⟨f, pt, ex⟩ acc = .ok ts ∧ Tokens.drain X cl n ⟨f', pt, ex⟩ acc = .ok ts) ∨
    (∃ d d', Tokens.drain X true n ⟨f, pt, ex⟩ acc = .err d ∧ Tokens.drain X cl n ⟨f', pt, ex⟩ acc = .err d' ∧
      d.location ≤ d'.location ∧ (d.location = d'.location → ∀ e ∈ d.errors, e ∈ d'.errors)) ∨
    (Tokens.drain X true n ⟨f, pt, ex⟩ acc = .panic ∧ Tokens.drain X cl n ⟨f', pt, ex⟩ acc = .panic) ∨
    (Tokens.drain X true n ⟨f, pt, ex⟩ acc = .hang ∧ Tokens.drain X cl n ⟨f', pt, ex⟩ acc = .hang) := by
  intro n
  induction n with
  | zero => intro f f' pt ex acc _; exact .inr (.inr (.inr ⟨rfl, rfl⟩))
  | succ n ih =>
    intro f f' pt ex acc hk
    rw [Tokens.drain, Tokens.drain]
    rcases next_forget (X := X) cl hk pt ex with ⟨st, h1, st', h2⟩ | ⟨t, g, g', pt', ex', hk', h1, h2⟩ | ⟨d, d', st, st', h1, h2, h3, h4⟩ | ⟨st, st', h1, h2⟩
    all_goals rw [h1, h2]
    · exact .inl ⟨_, rfl, rfl⟩
    · exact ih _ _ _ _ _ hk'
    · exact .inr (.inl ⟨_, _, rfl, rfl, h3, h4⟩)
    · exact .inr (.inr (.inl ⟨rfl, rfl⟩))

/-! ## The parser -/

/-- `f'` is not behind `f`. -/
def Ahead (f f' : PFailures) : Prop := ¬ f'.point.lt f.point

theorem Ahead.new (f : PFailures) : Ahead .new f := by
  unfold Ahead Pt.lt PFailures.new Pt.zero Pt.subw
  simp

theorem Ahead.add {f f' : PFailures} (h : Ahead f f') (p : Pt) (e : PErr) : Ahead (f.add p e) (f'.add p e) := by
  unfold Ahead Pt.lt at *
  unfold PFailures.add
  repeat' split
  all_goals rename_i h1 h2
  all_goals unfold Pt.lt at *
  all_goals first | omega | (simp only; omega)

theorem Ahead.addAll (l : Log) : ∀ {f f' : PFailures}, Ahead f f' → Ahead (f.addAll l) (f'.addAll l) := by
  induction l with
  | nil => exact id
  | cons x l ih => exact fun h => ih (h.add x.1 x.2)

theorem parseItems_forget {toks : List Token} (c : Bool) : ∀ (n : Nat) (f f' : PFailures) (a : Amb) (pt : Pt) (acc : List V), Ahead f f' →
    (∀ vs, parseItems toks true n f a pt acc = .ok vs → parseItems toks c n f' a pt acc = .ok vs) ∧
    (∀ vs, parseItems toks c n f' a pt acc = .ok vs → parseItems toks true n f a pt acc = .ok vs) ∧
    (∀ loc errs loc' errs', parseItems toks true n f a pt acc = .err loc errs → parseItems toks c n f' a pt acc = .err loc' errs' →
      ∃ (i i' : Nat) (t t' : Token), toks[i]? = some t ∧ toks[i']? = some t' ∧ i ≤ i' ∧ loc = t.extent.s ∧ loc' = t'.extent.s) := by
  intro n
  induction n with
  | zero => intro f f' a pt acc _; exact ⟨by rintro _ ⟨⟩, by rintro _ ⟨⟩, by rintro _ _ _ _ ⟨⟩⟩
  | succ n ih =>
    intro f f' a pt acc hk
    unfold parseItems
    cases toks[pt.off]? with
    | none => exact ⟨fun _ h => h, fun _ h => h, by rintro _ _ _ _ ⟨⟩⟩
    | some t =>
      dsimp only
      by_cases ht : t.isEOF = true
      · simp only [ht, if_true]
        exact ⟨fun _ h => h, fun _ h => h, by rintro _ _ _ _ ⟨⟩⟩
      · simp only [ht]
        rcases parseItem toks a pt with ⟨r, a', l⟩
        cases r with
        | panic => exact ⟨fun _ h => h, fun _ h => h, by rintro _ _ _ _ ⟨⟩⟩
        | hang => exact ⟨fun _ h => h, fun _ h => h, by rintro _ _ _ _ ⟨⟩⟩
        | ok q vs =>
          simp only [if_true]
          by_cases hq : pt.off < q.off
          · simp only [hq, if_true]
            exact ih _ _ _ _ _ (.new _)
          · simp only [hq]
            exact ⟨fun _ h => h, fun _ h => h, by rintro _ _ _ _ ⟨⟩⟩
        | fail q e =>
          have h1 := (hk.addAll l).add q e
          simp only
          generalize (f.addAll l).add q e = g at h1 ⊢
          generalize (f'.addAll l).add q e = g' at h1 ⊢
          have h2 : g.point.off ≤ g'.point.off := by
            unfold Ahead Pt.lt at h1
            omega
          rcases hg : toks[g.point.off]? with _ | u <;> rcases hg' : toks[g'.point.off]? with _ | u'
          all_goals refine ⟨by rintro _ ⟨⟩, by rintro _ ⟨⟩, ?_⟩
          · rintro _ _ _ _ ⟨⟩
          · rintro _ _ _ _ ⟨⟩
          · rintro _ _ _ _ _ ⟨⟩
          · rintro _ _ _ _ ⟨⟩ ⟨⟩
            exact ⟨_, _, u, u', hg, hg', h2, rfl, rfl⟩

theorem starts_ordered {code : Text} {toks : List Token} (hs : Src code toks) {i j : Nat} {t u : Token} (hi : toks[i]? = some t)
    (hj : toks[j]? = some u) (h : i ≤ j) : t.extent.s ≤ u.extent.s := by
  rcases Nat.eq_or_lt_of_le h with rfl | h
  · rw [hi] at hj; cases hj; exact Nat.le_refl _
  · obtain ⟨hi', rfl⟩ := List.getElem?_eq_some_iff.mp hi
    obtain ⟨hj', rfl⟩ := List.getElem?_eq_some_iff.mp hj
    have h1 := List.pairwise_iff_getElem.mp hs.mono i j hi' hj' h
    have h2 := (hs.inside _ (List.getElem_mem hi') _ (extent_mem_allExtents _)).2.1
    omega

/-- C77: keeping instead of forgetting recorded failures changes neither the tree nor whether and by which stage a text is
rejected; errors are not reported at an earlier place, and at the same place the tokenizer reports no fewer. -/
theorem C77_keeping (X : Xid) (cl cp : Bool) (code : Text) : NoEarlier (parseRustFile X true true code) (parseRustFile X cl cp code) := by
  have key := drain_forget (X := X) cl (code.length + 2) .new .new ⟨code, 0⟩ false [] (.new _)
  change (∃ ts, lex X true code = .ok ts ∧ lex X cl code = .ok ts) ∨
    (∃ d d', lex X true code = .err d ∧ lex X cl code = .err d' ∧ d.location ≤ d'.location ∧ (d.location = d'.location → ∀ e ∈ d.errors, e ∈ d'.errors)) ∨
    (lex X true code = .panic ∧ lex X cl code = .panic) ∨ (lex X true code = .hang ∧ lex X cl code = .hang) at key
  rcases key with ⟨ts, h1, h2⟩ | ⟨d, d', h1, h2, h3, h4⟩ | ⟨h1, -⟩ | ⟨h1, -⟩
  · have e1 : extractWhitespace X true code = .ok (partitionTokens ts).1 (partitionTokens ts).2 := by simp [extractWhitespace, h1]
    have e2 : extractWhitespace X cl code = .ok (partitionTokens ts).1 (partitionTokens ts).2 := by simp [extractWhitespace, h2]
    have hs := Src.of_extract e1
    have t1 := C20_C21_total X true true code
    have t2 := C20_C21_total X cl cp code
    unfold parseRustFile at t1 t2 ⊢
    rw [e1] at t1 ⊢
    rw [e2] at t2 ⊢
    generalize (partitionTokens ts).2 = toks at hs t1 t2 ⊢
    obtain ⟨k1, k2, k3⟩ := parseItems_forget (toks := toks) cp (toks.length + 1) .new .new .Unambiguous .zero [] (.new _)
    dsimp only at t1 t2 ⊢
    unfold parseTokens at t1 t2 ⊢
    generalize parseItems toks true (toks.length + 1) .new .Unambiguous .zero [] = r at k1 k2 k3 t1 ⊢
    generalize parseItems toks cp (toks.length + 1) .new .Unambiguous .zero [] = r' at k1 k2 k3 t2 ⊢
    cases r with
    | ok vs =>
      rw [k1 vs rfl]
      dsimp only at t1 ⊢
      revert t1
      generalize apportionFile _ _ = z
      intro t1
      rcases z with _ | ⟨f, m⟩
      · simp at t1
      · dsimp only at t1 ⊢
        cases hm : m.isEmpty
        · rw [hm] at t1; simp at t1
        · exact .ok f
    | panic => simp at t1
    | hang => simp at t1
    | err loc errs =>
      cases r' with
      | ok vs => cases k2 vs rfl
      | panic => simp at t2
      | hang => simp at t2
      | err loc' errs' =>
        obtain ⟨i, j, t, u, hi, hj, hij, rfl, rfl⟩ := k3 _ _ _ _ rfl rfl
        exact .parseErr (starts_ordered hs hi hj hij)
  · have e1 : parseRustFile X true true code = .lexErr d := by simp [parseRustFile, extractWhitespace, h1]
    have e2 : parseRustFile X cl cp code = .lexErr d' := by simp [parseRustFile, extractWhitespace, h2]
    rw [e1, e2]
    exact .lexErr h3 h4
  · exact absurd (by simp [parseRustFile, extractWhitespace, h1]) (C21_no_panic X true true code)
  · exact absurd (by simp [parseRustFile, extractWhitespace, h1]) (C20_terminates X true true code)

/-- C77: whether a text is accepted, and the tree, do not depend on it. -/
theorem C77_accepted (X : Xid) (cl cp cl' cp' : Bool) (code : Text) (f : File) :
    parseRustFile X cl cp code = .ok f ↔ parseRustFile X cl' cp' code = .ok f := by
  have key : ∀ cl cp, parseRustFile X cl cp code = .ok f ↔ parseRustFile X true true code = .ok f := by
    intro cl cp
    have := C77_keeping X cl cp code
    generalize parseRustFile X cl cp code = r at this
    generalize parseRustFile X true true code = r' at this
    cases this <;> simp
  rw [key, key cl' cp']

theorem lex_of_file {X : Xid} {cl cp : Bool} {code : Text} {d : LErrorDetail} (h : parseRustFile X cl cp code = .lexErr d) : lex X cl code = .err d := by
  rcases hl : lex X cl code with ts | d' | _ | _
  · rcases file_outcome X cl cp code with ⟨d', hd', -⟩ | ⟨ts', -, ⟨loc, errs, -, hr⟩ | ⟨f, -, hr⟩⟩
    · rw [hl] at hd'; cases hd'
    · rw [h] at hr; cases hr
    · rw [h] at hr; cases hr
  · simp [parseRustFile, extractWhitespace, hl] at h
    rw [h]
  · simp [parseRustFile, extractWhitespace, hl] at h
  · simp [parseRustFile, extractWhitespace, hl] at h

/-- C77: for ordinary tables of letters an error of the tokenizer is reported at the same place, and all its reasons are still there. -/
theorem C77_tokenizer (X : Xid) (hX : Spec.Sane X) (cl cp : Bool) (code : Text) (d : LErrorDetail) (h : parseRustFile X true true code = .lexErr d) :
    ∃ d', parseRustFile X cl cp code = .lexErr d' ∧ d'.location = d.location ∧ ∀ e ∈ d.errors, e ∈ d'.errors := by
  have key := C77_keeping X cl cp code
  rw [h] at key
  generalize hr : parseRustFile X cl cp code = r at key
  cases key with
  | @lexErr _ d' h1 h2 =>
    have e1 : lex X true code = .err d := lex_of_file h
    have e2 : lex X cl code = .err d' := lex_of_file hr
    obtain ⟨ts, pre, rest, n, E, rfl, hb, hn, h3, -⟩ := C64_rejected X hX true _ _ e1
    obtain ⟨d₁, h4, h5, -⟩ := C64_reported X hX cl ts pre rest n E hb hn
    rw [e2] at h4
    cases h4
    exact ⟨d', rfl, by omega, h2 (by omega)⟩

-- Behind `1` an exponent was tried without success; this is reported only when failures are kept.
example : ∃ d d', lex asciiXid true c!"1€" = .err d ∧ lex asciiXid false c!"1€" = .err d' ∧ d.location = 1 ∧ d'.location = 1 ∧
    LErr.Literal c!"e" ∉ d.errors ∧ LErr.Literal c!"e" ∈ d'.errors := by
  have h : ∃ x, (lex asciiXid true c!"1€", lex asciiXid false c!"1€") = x := ⟨_, rfl⟩
  obtain ⟨⟨x, y⟩, h⟩ := h
  have h' : (match (lex asciiXid true c!"1€", lex asciiXid false c!"1€") with
    | (.err d, .err d') => decide (d.location = 1 ∧ d'.location = 1 ∧ LErr.Literal c!"e" ∉ d.errors ∧ LErr.Literal c!"e" ∈ d'.errors)
    | _ => false) = true := by decide +kernel
  rw [h] at h'
  obtain ⟨h1, h2⟩ := Prod.mk.inj h
  rw [h1, h2]
  cases x <;> cases y <;> first | cases h' | exact ⟨_, _, rfl, rfl, of_decide_eq_true h'⟩

example : ∃ f, ∀ cl cp, parseRustFile asciiXid cl cp c!"fn f() { 1 }" = .ok f := by
  have h : (match parseRustFile asciiXid true true c!"fn f() { 1 }" with | .ok _ => true | _ => false) = true := by decide +kernel
  generalize hr : parseRustFile asciiXid true true c!"fn f() { 1 }" = r at h
  cases r with
  | ok f => exact ⟨f, fun cl cp => (C77_accepted asciiXid true true cl cp _ f).mp hr⟩
  | _ => cases h

end Verif.Props
