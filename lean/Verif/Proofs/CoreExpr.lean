import Verif.Proofs.Core
/-!
# What is written by the grammar is read by the parser: expressions
-/

namespace Verif
open Spec Spec.Core

namespace CoreP
open Cat TK

section
variable {toks : List Token} {w : Place} {u s : Bool} {q : Kin} {f : Ending} {xs ys as rest : List Lexeme} {a : List V} {v l r : V}
  {b b' ss ss' : List (Option TK)} {ends : Bool}

/-- What is looked for by `p` does not come next. -/
theorem rejects_heads {F : List (Option TK)} {g : G} {am : Amb} (h : Heads F false xs) (hc : clear F (g.first NT.first) = true)
    (h0 : g.null = false) : Rejects toks g am (xs ++ rest) := by
  cases xs with
  | nil => cases h
  | cons x xs =>
    exact (stops_of_dead (clear_ahead hc h) (by simp [dead, h0])).rejects

theorem heads_ahead {F : List (Option TK)} (h : Heads F false xs) (hc : clear F b = true) :
    ahead (fun k => !b.contains k) (xs ++ rest) = true := by
  cases xs with
  | nil => cases h
  | cons x xs => exact clear_ahead hc h

theorem attrs {F : List (Option TK)} (ha : Sem toks w (many attr) as (L a)) (h : Heads F false xs)
    (hc : clear F (NT.first .attribute) = true) :
    Parses toks (.many (.r .attribute)) w.amb (as ++ (xs ++ rest)) (xs ++ rest) [.list a] := by
  have h1 := Sem.chunk (.many .attr) (by cases w <;> rfl) ha
  refine h1.parses _ rfl _ ?_ ?_
  · have : (CoreP.chunk w (many attr) (L a)).bad = [] := by cases w <;> rfl
    rw [this]
    generalize xs ++ rest = i
    cases i <;> simp [ahead]
  · intro g hg
    have : (CoreP.chunk w (many attr) (L a)).needs = [.r .attribute] := by cases w <;> rfl
    rw [this] at hg
    obtain rfl := List.mem_singleton.mp hg
    exact rejects_heads h hc rfl

theorem attrs_heads {F : List (Option TK)} (ha : Sem toks w (many attr) as (L a)) (h : Heads F false xs)
    (hs : ∀ k ∈ F, k ∈ exprFirst) : Heads exprFirst false (as ++ xs) := by
  have h1 := (Sem.chunk (.many .attr) (by cases w <;> rfl) ha).heads
  cases as with
  | nil => exact heads_mono h hs id
  | cons x as =>
    have h2 : x.kind ∈ NT.first .attribute := by cases w <;> exact h1
    show x.kind ∈ exprFirst
    simp only [exprFirst, List.mem_append]
    exact .inl (.inr h2)

theorem heads_append {F : List (Option TK)} (h : Heads F false xs) : Heads F false (xs ++ ys) := by
  cases xs with
  | nil => cases h
  | cons x xs => exact h

theorem ahead_left {b c : List (Option TK)} {i : List Lexeme} (h : ahead (fun k => !(b ++ c).contains k) i = true) :
    ahead (fun k => !b.contains k) i = true := ahead_sub h fun k hk => List.mem_append_left _ hk

theorem ahead_any (i : List Lexeme) : ahead (fun k => !([] : List (Option TK)).contains k) i = true := by
  cases i <;> simp [ahead]

theorem first_bad (w : Place) (u : Bool) : plainBad (w.first u) = plainBad w := by
  cases w <;> cases u <;> decide +kernel

/-- An atom is an operand. -/
theorem opd_atom {c : Cat} {S : List (Option TK)} (ha : Sem toks (w.first u) (many attr) as (L a))
    (hc : (chunk (w.first u) c v).Sem toks xs) (hm : mayTerminate v = ends) (hg : gOf c = .r .expression_atom)
    (hn : needsOf c = []) (h0 : nullOf c = false)
    (h1 : clear (firstOf c) (NT.first .attribute) = true) (h2 : ∀ k ∈ firstOf c, k ∈ exprFirst)
    (h3 : ∀ k ∈ badOf (w.first u) c, k ∈ b)
    (hp : rejTable (badOf (w.first u) c) [] (w.first u).amb (w.first u).amb (prefixTable.1 :: prefixTable.2)
      [.c (chunk (w.first u) c v)] = true)
    (hi : u = false → S ≠ allBut [] → (explore (b ++ S) [] w.amb steps w.amb itemG
      [.c (chunk w (many attr) (L a)), .c (chunk w c v)]).isRej = true) :
    Opd toks w u b S ends (as ++ xs) (A a v) := by
  have hh : Heads (firstOf c) false xs := by have := hc.heads; rwa [show (chunk (w.first u) c v).null = false from h0] at this
  refine ⟨attrs_heads ha hh h2, hm, ?_, ?_⟩
  · rintro rfl rest hr
    have hw : w.first false = w := by cases w <;> rfl
    rw [hw] at ha hc
    by_cases hS : S = allBut []
    · exfalso
      subst hS
      have : ahead (fun k => !(allBut []).contains k) rest = true := ahead_sub hr fun k hk => List.mem_append_right _ hk
      cases rest with
      | nil => revert this; decide +kernel
      | cons x rest =>
        cases x <;> rename_i k
        · have hk := TK.mem_all k
          simp [ahead, Lexeme.looks, allBut, hk] at this
        · have hk := TK.mem_all k
          simp [ahead, Lexeme.looks, allBut, hk] at this
        · simp [ahead, Lexeme.looks, allBut] at this
    have := explore_rej (toks := toks) (am := w.amb) (nd := []) (am0 := w.amb) hr (by simp)
      (Denotes.c (Sem.chunk (.many .attr) (by cases w <;> rfl) ha) (Denotes.last hc)) (hi rfl hS)
    exact this
  · intro rest hr
    have hr' := ahead_sub hr h3
    have h4 := hc.parses _ rfl rest hr' (by simp [chunk, hn])
    rw [hg] at h4
    refine ReadsAtom.operand (v := A a v) ?_
    have := readsAtom (toks := toks) (am := (w.first u).amb) (i := as ++ xs ++ rest) (m := xs ++ rest) (o := rest) (as := a) (v := v)
      (by rw [List.append_assoc]; exact attrs ha hh h1)
      (rejTable_sound (nd := []) (am0 := (w.first u).amb) hr' (by simp) (Denotes.last hc) hp) h4
    exact this

/-- The operator and what it carries. -/
def preOp : Pre → PrefixOp × List V
  | .box => (.Box, [])
  | .deref => (.Dereference, [])
  | .not => (.Not, [])
  | .neg => (.Negate, [])
  | .ref => (.Reference, [L []])
  | .refMut => (.Reference, [L [X]])
  | .range .excl => (.RangeExclusive, [])
  | .range .incl => (.RangeInclusive, [E .RangeInclusiveOperator_Recommended [X]])
  | .range .old => (.RangeInclusive, [E .RangeInclusiveOperator_Legacy [X]])

theorem preOp_tree (p : Pre) (v : V) : (preOp p).1.mk (preOp p).2 ⟨0, 0⟩ (Option.some v) = p.tree v := by
  rcases p with _ | _ | _ | _ | _ | _ | (_ | _ | _) <;> rfl

theorem denotes_symbols (xs : List Lexeme) : Denotes toks (xs.map .s) xs := by
  induction xs with
  | nil => exact .nil
  | cons x xs ih => exact .s ih

theorem pre_table {am : Amb} (p : Pre) (hx : ahead (fun k => ![Option.some Mut].contains k) rest = true) :
    ParsesP toks (fun n => tableP toks (eval toks n) prefixTable) am (p.symbols ++ rest) rest
      (fun r => r.1 = (preOp p).1 ∧ Likes r.2 (preOp p).2) := by
  have h : exploreTable [Option.some Mut] [] am am (prefixTable.1 :: prefixTable.2) (p.symbols.map .s) =
      Option.some ((preOp p).1, [], (preOp p).2) := by
    cases am <;> rcases p with _ | _ | _ | _ | _ | _ | (_ | _ | _) <;> krfl
  obtain ⟨ys, h1, h2⟩ := exploreTable_sound (toks := toks) hx (by simp) (denotes_symbols p.symbols) h
  cases h1
  exact h2

theorem pre_heads (p : Pre) : Heads ([Box, Asterisk, Bang, Minus, Ampersand, DoublePeriod, DoublePeriodEquals, TriplePeriod].map Option.some)
    false p.symbols := by
  rcases p with _ | _ | _ | _ | _ | _ | (_ | _ | _) <;> simp [Heads, Pre.symbols, RangeOp.symbol, Lexeme.kind]

theorem pre_read (p : Pre) (ha : Sem toks w (many attr) as (L a)) (hx : Heads exprFirst false xs) :
    ReadsPrefix toks w.amb (as ++ (p.symbols ++ xs) ++ rest) (xs ++ rest) (preOp p).1 a (preOp p).2 := by
  refine readsPrefix (m := p.symbols ++ (xs ++ rest)) ?_ (pre_table p (heads_ahead hx (by decide +kernel)))
  rw [List.append_assoc, List.append_assoc]
  exact attrs ha (pre_heads p) (by decide +kernel)

theorem pre_nots (p : Pre) (ha : Sem toks w (many attr) as (L a)) : Rejects toks itemG w.amb (as ++ (p.symbols ++ rest)) := by
  have := explore_rej (toks := toks) (am := w.amb) (nd := []) (am0 := w.amb) (b := []) (rest := rest) (g := itemG)
      (ahead_any _) (by simp) (Denotes.c (Sem.chunk (.many .attr) (by cases w <;> rfl) ha) (denotes_symbols p.symbols))
      (by cases w <;> rcases p with _ | _ | _ | _ | _ | _ | (_ | _ | _) <;> krfl)
  rwa [List.append_assoc] at this

theorem pre_may (p : Pre) (v : V) : mayTerminateAttributed (A a (p.tree v)) = false := by
  rcases p with _ | _ | _ | _ | _ | _ | (_ | _ | _) <;> rfl

theorem first_false (w : Place) : w.first false = w := by cases w <;> rfl

theorem opd_pre (p : Pre) (ha : Sem toks (w.first u) (many attr) as (L a)) (h : Opd toks w false b ss ends xs v) :
    Opd toks w u b [] false (as ++ (p.symbols ++ xs)) (A a (p.tree v)) := by
  have hp := pre_heads p
  refine ⟨attrs_heads ha (F := [Box, Asterisk, Bang, Minus, Ampersand, DoublePeriod, DoublePeriodEquals, TriplePeriod].map Option.some) ?_ ?_,
    pre_may p v, ?_, ?_⟩
  · exact heads_append hp
  · decide +kernel
  · rintro rfl rest hr
    rw [first_false] at ha
    simp only [List.append_assoc]
    exact pre_nots p ha
  · intro rest hr
    have h1 := pre_read (rest := rest) p ha h.heads
    have h2 := h.reads rest hr
    rw [first_false] at h2
    have h3 := h1.operand h2
    rw [preOp_tree] at h3
    exact h3

theorem dts_pre (p : Pre) (ha : Sem toks w (many attr) as (L a)) (h : Dts toks w xs v) :
    Dts toks w (as ++ (p.symbols ++ xs)) (A a (p.tree v)) := by
  have hp := pre_heads p
  refine ⟨attrs_heads ha (F := [Box, Asterisk, Bang, Minus, Ampersand, DoublePeriod, DoublePeriodEquals, TriplePeriod].map Option.some) ?_ ?_,
    pre_may p v, ?_, ?_⟩
  · exact heads_append hp
  · decide +kernel
  · intro rest
    simp only [List.append_assoc]
    exact pre_nots p ha
  · intro rest
    have h3 := (pre_read (rest := rest) p ha h.heads).dotsCons (h.reads rest)
    rw [preOp_tree] at h3
    exact h3

theorem rangeOp_table {am : Amb} (o : RangeOp) : ParsesP toks (fun n => tableP toks (eval toks n) prefixTable) am (.t o.symbol :: rest) rest
      (fun r => r.1 = (preOp (.range o)).1 ∧ Likes r.2 (preOp (.range o)).2) := by
  have h : exploreTable [] [] am am (prefixTable.1 :: prefixTable.2) [.s (.t o.symbol)] =
      Option.some ((preOp (.range o)).1, [], (preOp (.range o)).2) := by
    cases am <;> cases o <;> krfl
  obtain ⟨ys, h1, h2⟩ := exploreTable_sound (toks := toks) (rest := rest) (ahead_any _) (by simp) (.s .nil) h
  cases h1
  exact h2

theorem dts_one (o : RangeOp) (ha : Sem toks w (many attr) as (L a)) : Dts toks w (as ++ [.t o.symbol]) (A a (o.tree [] [])) := by
  have hh : Heads ([DoublePeriod, DoublePeriodEquals, TriplePeriod].map Option.some) false [.t o.symbol] := by
    cases o <;> simp [Heads, RangeOp.symbol, Lexeme.kind]
  refine ⟨attrs_heads ha hh ?_, by cases o <;> rfl, ?_, ?_⟩
  · decide +kernel
  · intro rest
    simp only [List.append_assoc]
    exact pre_nots (.range o) ha
  · intro rest
    have h1 : ReadsPrefix toks w.amb (as ++ [.t o.symbol] ++ rest) rest (preOp (.range o)).1 a (preOp (.range o)).2 := by
      refine readsPrefix (m := .t o.symbol :: rest) ?_ (rangeOp_table o)
      rw [List.append_assoc]
      exact attrs ha hh (by decide +kernel)
    have h2 := h1.dots (by cases o <;> rfl)
    cases o <;> exact h2

/-! ## Operators -/

/-- An operand is the left part of an expression. -/
theorem lft_opd (h : Opd toks w false b ss ends xs v) (he : (s && ends) = false) (hb : ∀ k ∈ b, k ∈ b')
    (hs : s = true → ∀ k ∈ ss, k ∈ b' ++ ss') :
    Lft toks w s b' ss' xs v := by
  have hm : s = false ∨ mayTerminateAttributed v = false := by
    rw [h.may]; cases s <;> simp_all
  refine ⟨h.heads, fun hs => hm.resolve_left (by simp [hs]), fun hst rest hr => ?_, fun rest hr => ?_⟩
  · refine h.nots rfl rest (ahead_sub hr fun k hk => ?_)
    rcases List.mem_append.mp hk with hk | hk
    · exact List.mem_append_left _ (hb k hk)
    · exact hs hst k hk
  · have := h.reads rest (ahead_sub hr hb)
    rw [first_false] at this
    exact this.left hm

/-- A longer left part. -/
theorem lft_more (h : Lft toks w s b ss xs l) (hm : mayTerminateAttributed v = false)
    (hn : ∀ rest, ahead (fun k => !b'.contains k) rest = true → ahead (fun k => !(b ++ ss).contains k) (ys ++ rest) = true)
    (hr : ∀ rest, ahead (fun k => !b'.contains k) rest = true → ReadsLeft toks s w.amb (xs ++ (ys ++ rest)) (ys ++ rest) l →
      ReadsLeft toks s w.amb (xs ++ (ys ++ rest)) rest v) : Lft toks w s b' ss' (xs ++ ys) v := by
  have hh := h.heads
  refine ⟨heads_append hh, fun _ => hm, fun hs rest hr => ?_, fun rest hr' => ?_⟩
  · rw [List.append_assoc]
    exact h.nots hs _ (hn rest (ahead_left hr))
  · rw [List.append_assoc]
    exact hr rest hr' (h.reads _ (ahead_left (hn rest hr')))

/-- What may come after the left part. -/
def goesOn (w : Place) (f : Ending) (k : TK) : Bool := clear [Option.some k] (plainBad w ++ endBad f ++ endSemi f)

theorem goes_ahead {k : TK} {i : List Lexeme} (h : goesOn w f k = true) :
    ahead (fun k => !(plainBad w ++ endBad f ++ endSemi f).contains k) (.t k :: i) = true := clear_sep h

theorem goesOn_bin {k : TK} (h : (binOp k).isSome = true) (hb : k ∉ f.bars) : goesOn w f k = true := by
  have : TK.all.all (fun k => [Place.free, .head, .bound].all fun w => [Ending.plain, .cast, .typed, .mac].all fun f =>
      !(binOp k).isSome || f.bars.contains k || goesOn w f k) = true := by decide +kernel
  have h1 := List.all_eq_true.mp this k (TK.mem_all k)
  have h2 := List.all_eq_true.mp h1 w (by cases w <;> simp)
  have h3 := List.all_eq_true.mp h2 f (by cases f <;> simp)
  simpa [h, hb] using h3

theorem goesOn_range (o : RangeOp) : goesOn w f o.symbol = true := by
  cases w <;> cases f <;> cases o <;> decide +kernel

theorem bin_read {am : Amb} {k : TK} {tag : Tag} (h : binOp k = Option.some tag) : ReadsInfix toks am (.t k :: rest) rest (.binary tag) [] := by
  have h : exploreTable [] [] am am (infixTable.1 :: infixTable.2) [.s (.t k)] = Option.some (.binary tag, [], []) := by
    cases k <;> first | (cases h; done) | (cases h; cases am <;> krfl)
  obtain ⟨ys, h1, h2⟩ := exploreTable_sound (toks := toks) (rest := rest) (ahead_any _) (by simp) (.s .nil) h
  cases h1
  exact readsInfix h2

def rangeIn : RangeOp → InfixOp × List V
  | .excl => (.RangeExclusive, [])
  | .incl => (.RangeInclusive, [E .RangeInclusiveOperator_Recommended [X]])
  | .old => (.RangeInclusive, [E .RangeInclusiveOperator_Legacy [X]])

theorem range_read {am : Amb} (o : RangeOp) : ReadsInfix toks am (.t o.symbol :: rest) rest (rangeIn o).1 (rangeIn o).2 := by
  have h : exploreTable [] [] am am (infixTable.1 :: infixTable.2) [.s (.t o.symbol)] = Option.some ((rangeIn o).1, [], (rangeIn o).2) := by
    cases o <;> cases am <;> krfl
  obtain ⟨ys, h1, h2⟩ := exploreTable_sound (toks := toks) (rest := rest) (ahead_any _) (by simp) (.s .nil) h
  cases h1
  exact readsInfix h2

theorem rangeIn_isRange (o : RangeOp) : (rangeIn o).1.isRange = true := by cases o <;> rfl

theorem level_first (w : Place) : levelAt w.amb (.Infix true) = (w.first true).amb := by cases w <;> rfl

theorem lft_bin {k : TK} {tag : Tag} (h : Lft toks w s (plainBad w ++ endBad f) (endSemi f) xs l) (hk : binOp k = Option.some tag)
    (hf : k ∉ f.bars) (h' : Opd toks w false b ss ends ys r) (hb : ∀ k ∈ b, k ∈ b') :
    Lft toks w s b' ss' (xs ++ .t k :: ys) (A [] (E .Expression_Binary [N .Binary [E tag [], l, r]])) := by
  refine lft_more h rfl (fun rest _ => goes_ahead (goesOn_bin (by simp [hk]) hf)) fun rest hr hl => ?_
  have h2 := h'.reads rest (ahead_sub hr hb)
  rw [first_false] at h2
  exact hl.infix (bin_read hk) (by cases w <;> exact h2)

theorem lft_range (o : RangeOp) (h : Lft toks w s (plainBad w ++ endBad f) (endSemi f) xs l)
    (h' : Opd toks w true b ss ends ys r) (hb : ∀ k ∈ b, k ∈ b') :
    Lft toks w s b' ss' (xs ++ .t o.symbol :: ys) (A [] (o.tree [l] [r])) := by
  refine lft_more h (by cases o <;> rfl) (fun rest _ => goes_ahead (goesOn_range o)) fun rest hr hl => ?_
  have h2 := h'.reads rest (ahead_sub hr hb)
  have h3 : levelAt w.amb (.Infix (rangeIn o).1.isRange) = (w.first true).amb := by rw [rangeIn_isRange, level_first]
  have h4 := hl.infix (range_read o) (h3 ▸ h2)
  cases o <;> exact h4

/-- A postfix operator. -/
theorem lft_post {op : PostfixOp} {pl : List V} {k : TK} {ps : List Piece} (h : Lft toks w s (plainBad w ++ endBad f) (endSemi f) xs l)
    (hk : goesOn w f k = true) (hd : Denotes toks ps (.t k :: ys)) (hm : mayTerminateAttributed (op.mk pl ⟨0, 0⟩ l) = false)
    (hi : rejTable b [] w.amb w.amb (infixTable.1 :: infixTable.2) ps = true)
    (hp : exploreTable b [] w.amb w.amb (postfixTable.1 :: postfixTable.2) ps = Option.some (op, [], pl)) :
    Lft toks w s b ss (xs ++ .t k :: ys) (op.mk pl ⟨0, 0⟩ l) := by
  refine lft_more h hm (fun rest _ => goes_ahead hk) fun rest hr hl => hl.postfix ?_
  obtain ⟨zs, h1, h2⟩ := exploreTable_sound (toks := toks) hr (by simp) hd hp
  cases h1
  exact readsPostfix (rejTable_sound (toks := toks) hr (by simp) hd hi) h2

/-- A postfix operator after an expression that ends with a brace. -/
theorem lft_limited {op : PostfixOp} {pl : List V} {k : TK} {ps : List Piece} (ha : Sem toks w (many attr) as (L a))
    (h : Sem toks w (atom .brace) xs v)
    (hd : Denotes toks ps (.t k :: ys)) (hk : clear [Option.some k] [Option.some Else] = true)
    (hm : mayTerminateAttributed (op.mk pl ⟨0, 0⟩ (A a v)) = false)
    (hp : exploreTable b [] w.amb w.amb (limitedTable.1 :: limitedTable.2) ps = Option.some (op, [], pl)) :
    Lft toks w true b ss (as ++ xs ++ .t k :: ys) (op.mk pl ⟨0, 0⟩ (A a v)) := by
  obtain ⟨hc, hv⟩ := h
  have hh : Heads (firstOf (atom .brace)) false xs := hc.heads
  have hax : Heads exprFirst false (as ++ xs) := attrs_heads ha hh (by decide +kernel)
  have hrej : ∀ i, Rejects toks itemG w.amb (as ++ xs ++ .t k :: i) := fun i =>
    explore_rej (toks := toks) (am := w.amb) (nd := []) (am0 := w.amb) (b := [Option.some Else]) (g := itemG)
      (clear_sep hk) (by simp) (Denotes.c (Sem.chunk (.many .attr) (by cases w <;> rfl) ha) (Denotes.last hc)) (by cases w <;> krfl)
  have hatom : ∀ i, ReadsAtom toks w.amb (as ++ xs ++ .t k :: i) (.t k :: i) (A a v) := fun i =>
    readsAtom (m := xs ++ .t k :: i) (by rw [List.append_assoc]; exact attrs ha hh (by decide +kernel))
      (rejTable_sound (toks := toks) (b := [Option.some Else]) (nd := []) (am0 := w.amb) (clear_sep hk) (by simp) (Denotes.last hc) (by cases w <;> krfl))
      (hc.parses _ rfl _ (clear_sep hk) (by simp [chunk, needsOf]))
  refine ⟨?_, fun _ => hm, fun _ rest hr => ?_, fun rest hr => ?_⟩
  · generalize as ++ xs = i at hax
    cases i with
    | nil => cases hax
    | cons => exact hax
  · rw [List.append_assoc]; exact hrej _
  · rw [List.append_assoc, List.cons_append]
    refine (hatom _).limited (by simp [mayTerminateAttributed, hv, Kin.ends]) ?_
    obtain ⟨zs, h1, h2⟩ := exploreTable_sound (toks := toks) hr (by simp) hd hp
    cases h1
    exact h2

/-! ## Expressions -/

theorem no_operator (hr : ahead (fun k => !(exprBad w).contains k) rest = true) : NoOperator toks w.amb rest :=
  noOperator (rejTable_sound (nd := []) (am0 := w.amb) hr (by simp) .nil (by cases w <;> krfl))
    (rejTable_sound (nd := []) (am0 := w.amb) hr (by simp) .nil (by cases w <;> krfl))

theorem no_operand (hr : ahead (fun k => !(exprBad w).contains k) rest = true) : NoOperand toks (w.first true).amb rest := by
  refine noOperand ?_ (rejTable_sound (nd := []) (am0 := w.amb) hr (by simp) .nil (by cases w <;> krfl))
    (explore_rej (nd := []) (am0 := w.amb) hr (by simp) .nil (by cases w <;> krfl))
  obtain ⟨ys, h1, h2⟩ := explore_ok (toks := toks) (am := (w.first true).amb) (nd := []) (am0 := w.amb) (ps' := []) (vs := [.list []])
    (g := .many (.r .attribute)) hr (by simp) .nil (by cases w <;> krfl)
  cases h1
  exact h2

theorem sem_expr (hh : Heads exprFirst false xs) (hm : s = true → mayTerminateAttributed v = false)
    (hn : s = true → ∀ rest, ahead (fun k => !(exprBad w).contains k) rest = true → Rejects toks itemG w.amb (xs ++ rest))
    (hp : ∀ rest, ahead (fun k => !(exprBad w).contains k) rest = true → Parses toks (.r (exprRule s)) w.amb (xs ++ rest) rest [v]) :
    Sem toks w (expr s) xs v := by
  refine ⟨.of rfl hh (fun rest hr _ => hp rest hr) fun x hx rest hr _ _ => ?_, hm⟩
  cases s with
  | false => cases hx
  | true =>
    obtain rfl := List.mem_singleton.mp hx
    exact hn rfl rest hr

theorem plain_expr (w : Place) (f : Ending) : ∀ k ∈ plainBad w ++ endBad f, k ∈ exprBad w := by
  cases w <;> cases f <;> decide +kernel

theorem expr_lft (h : Lft toks w s b ss xs v) (hb : ∀ k ∈ b, k ∈ exprBad w) (hs : s = true → ∀ k ∈ ss, k ∈ exprBad w) : Sem toks w (expr s) xs v := by
  refine sem_expr h.heads h.may (fun e rest hr => h.nots e rest (ahead_sub hr fun k hk => ?_)) fun rest hr =>
    (h.reads rest (ahead_sub hr hb)).expr (no_operator hr)
  rcases List.mem_append.mp hk with hk | hk
  · exact hb k hk
  · exact hs e k hk

theorem expr_from (o : RangeOp) (h : Lft toks w s (plainBad w ++ endBad f) (endSemi f) xs l) :
    Sem toks w (expr s) (xs ++ [.t o.symbol]) (A [] (o.tree [l] [])) := by
  have hh := h.heads
  refine sem_expr (heads_append hh) (fun _ => by cases o <;> rfl) (fun e rest hr => ?_) fun rest hr => ?_
  · rw [List.append_assoc]
    exact h.nots e _ (goes_ahead (goesOn_range o))
  · rw [List.append_assoc]
    have h1 := h.reads (.t o.symbol :: rest) (ahead_left (goes_ahead (goesOn_range o)))
    have h2 := h1.exprRange (rangeIn_isRange o) (range_read o) (by rw [level_first]; exact no_operand hr)
    cases o <;> exact h2

theorem expr_dts (h : Dts toks .free xs v) : Sem toks .free (expr s) xs v :=
  sem_expr h.heads (fun _ => h.may) (fun _ rest _ => h.nots rest) fun rest hr => (h.reads rest).expr (no_operand (w := .free) hr)

theorem last_expr (h : Sem toks w (expr true) xs v) : Sem toks w last xs v := by
  have hb : ∀ k ∈ exprBad w, k ∈ badOf w last := by cases w <;> decide +kernel
  exact ⟨⟨h.1.heads, fun g hg rest hr hn => h.1.parses g hg rest (ahead_sub hr hb) (by simp [chunk, needsOf]),
    fun x hx rest hr hn => h.1.nots x hx rest (ahead_sub hr hb) (by simp [chunk, needsOf])⟩, h.2 rfl⟩

theorem last_mac (h : Lft toks w true (plainBad w ++ endBad .mac) (endSemi .mac) xs v) : Sem toks w last xs v := by
  have hb : ∀ k ∈ exprBad w, k ∈ badOf w last := by cases w <;> decide +kernel
  have hb1 : ∀ k ∈ plainBad w ++ endBad .mac, k ∈ badOf w last := by cases w <;> decide +kernel
  have hb2 : ∀ k ∈ plainBad w ++ endBad .mac ++ endSemi .mac, k ∈ badOf w last := by cases w <;> decide +kernel
  refine ⟨.of rfl h.heads (fun rest hr hn => (h.reads rest (ahead_sub hr hb1)).expr (no_operator (ahead_sub hr hb)))
    fun x hx rest hr hn _ => ?_, h.may rfl⟩
  · obtain rfl := List.mem_singleton.mp hx
    exact h.nots rfl rest (ahead_sub hr hb2)

theorem sem_brc (ha : Sem toks w (many attr) as (L a)) (h : Sem toks w (atom .brace) xs v) : Sem toks w brc (as ++ xs) (A a v) := by
  obtain ⟨hc, hv⟩ := h
  have hh : Heads (firstOf (atom .brace)) false xs := hc.heads
  have hE : ∀ {rest}, ahead (fun k => !(badOf w brc).contains k) rest = true → ahead (fun k => ![Option.some Else].contains k) rest = true :=
    fun h => ahead_sub h (by cases w <;> decide +kernel)
  refine ⟨.of rfl ?_ (fun rest hr hn => ?_) fun x hx rest hr hn _ => ?_, by simp [mayTerminateAttributed, hv, Kin.ends]⟩
  · have h1 := (Sem.chunk (.many .attr) (by cases w <;> rfl) ha).heads
    cases as with
    | nil => exact heads_mono hh (fun k hk => List.mem_append_right _ hk) id
    | cons x as => exact List.mem_append_left _ (by cases w <;> exact h1)
  · refine ReadsAtom.statement ?_ (by simp [mayTerminateAttributed, hv, Kin.ends, CoreP.chunk])
      (rejTable_sound (nd := []) (am0 := w.amb) hr (by simp) .nil (by cases w <;> krfl))
    exact readsAtom (m := xs ++ rest) (by rw [List.append_assoc]; exact attrs ha hh (by decide +kernel))
      (rejTable_sound (toks := toks) (b := [Option.some Else]) (nd := []) (am0 := w.amb) (hE hr) (by simp) (Denotes.last hc) (by cases w <;> krfl))
      (hc.parses _ rfl _ (hE hr) (by simp [chunk, needsOf]))
  · obtain rfl := List.mem_singleton.mp hx
    exact explore_rej (toks := toks) (am := w.amb) (nd := []) (am0 := w.amb) (b := [Option.some Else]) (g := itemG)
      (hE hr) (by simp) (Denotes.c (Sem.chunk (.many .attr) (by cases w <;> rfl) ha) (Denotes.last hc)) (by cases w <;> krfl)

end
end CoreP
end Verif
