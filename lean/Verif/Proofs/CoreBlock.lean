import Verif.Proofs.CoreExpr
/-!
# What is written by the grammar is read by the parser: operands, match arms and statements
-/

namespace Verif
open Spec Spec.Core

namespace CoreP
open Cat TK

section
variable {toks : List Token} {w : Place} {u s : Bool} {q : Kin} {f : Ending} {xs ys as rest : List Lexeme} {a vs : List V} {v l r : V}

/-! ## Operands -/

theorem sem_operand (ha : Sem toks (w.first u) (many attr) as (L a)) (h : Sem toks (w.first u) (atom q) xs v) :
    Sem toks w (operand u q) (as ++ xs) (A a v) := by
  refine opd_atom ha h.1 h.2 rfl rfl rfl ?_ ?_ ?_ ?_ fun hu hS => ?_
  · cases q <;> decide +kernel
  · cases q <;> decide +kernel
  · cases w <;> cases u <;> cases q <;> decide +kernel
  · cases w <;> cases u <;> cases q <;> krfl
  · subst hu
    cases q with
    | curly => exact absurd rfl hS
    | plain | brace | mac => cases w <;> krfl

theorem sem_open (ha : Sem toks (w.first u) (many attr) as (L a)) (h : Sem toks (w.first u) opn xs v) :
    Sem toks w (openOperand u) (as ++ xs) (A a v) := by
  refine opd_atom ha h.1 h.2 rfl rfl rfl ?_ ?_ ?_ ?_ fun hu hS => ?_
  · decide +kernel
  · decide +kernel
  · cases w <;> cases u <;> decide +kernel
  · cases w <;> cases u <;> krfl
  · subst hu
    cases w <;> krfl

theorem sem_left (h : Sem toks w (operand false q) xs v) (hq : (s && q.ends) = false) : Sem toks w (left s q.ending) xs v := by
  refine lft_opd h hq (fun k hk => List.mem_append_left _ hk) fun hs k hk => ?_
  subst hs
  cases q with
  | plain | brace => cases hk
  | mac => exact List.mem_append_right _ hk
  | curly => cases hq

theorem sem_expr_left (h : Sem toks w (left s f) xs v) (hf : s = true → f ≠ .mac) : Sem toks w (expr s) xs v := by
  refine expr_lft h (plain_expr w f) fun hs k hk => ?_
  cases f with
  | mac => exact absurd rfl (hf hs)
  | plain | cast | typed => cases hk

theorem sem_exprOpen (h : Sem toks w (openOperand false) xs v) : Sem toks w (expr s) xs v :=
  expr_lft (lft_opd h (by simp) (fun _ h => h) (ss' := []) (by simp)) (fun _ h => h) (by simp)

theorem sem_exprBinary {k : TK} {tag : Tag} (h : Sem toks w (left s f) xs l) (hk : binOp k = Option.some tag) (hf : k ∉ f.bars)
    (h' : Sem toks w (openOperand false) ys r) :
    Sem toks w (expr s) (xs ++ .t k :: ys) (A [] (E .Expression_Binary [N .Binary [E tag [], l, r]])) :=
  expr_lft (lft_bin h hk hf h' (fun _ h => h) (ss' := [])) (fun _ h => h) (by simp)

theorem sem_exprRange (o : RangeOp) (h : Sem toks w (left s f) xs l) (h' : Sem toks w (openOperand true) ys r) :
    Sem toks w (expr s) (xs ++ .t o.symbol :: ys) (A [] (o.tree [l] [r])) :=
  expr_lft (lft_range o h h' (fun _ h => h) (ss' := [])) (fun _ h => h) (by simp)

/-! ## Match arms -/

abbrev closed (rest : List Lexeme) : Prop := ahead (· == Option.some RightCurly) rest = true

theorem closed_close : closed (.t RightCurly :: rest) := by simp [closed, ahead, Lexeme.looks, headsOf]

theorem dead_close {g : G} {am : Amb} (h0 : g.null = false) (h : (g.first NT.first).contains (Option.some RightCurly) = false)
    (hr : closed rest) : Stops toks g am rest := by
  refine stops_of_dead hr ?_
  simp only [dead, h0, Bool.not_false, Bool.true_and, List.all_eq_true, Bool.not_eq_true']
  intro k hk
  simp only [List.contains_eq_mem, decide_eq_false_iff_not] at h
  simp only [beq_eq_false_iff_ne, ne_eq]
  rintro rfl
  exact h hk

theorem ahead_close (hr : ahead (fun k => !(allBut [Option.some RightCurly]).contains k) rest = true) : closed rest := by
  refine ahead_mono hr fun k hk => ?_
  cases k with
  | none => simp [allBut] at hk
  | some k =>
    have := TK.mem_all k
    simpa [allBut, this] using hk

theorem close_ahead {b : List (Option TK)} (hr : closed rest) (hb : Option.some RightCurly ∉ b) :
    ahead (fun k => !b.contains k) rest = true := by
  refine ahead_mono hr fun k hk => ?_
  obtain rfl : k = Option.some RightCurly := by simpa using hk
  simpa using hb

theorem comma_close {am : Amb} (hr : closed rest) : Stops toks .comma am rest := dead_close rfl rfl hr

theorem arms_nil : Sem toks w arms [] (L []) :=
  ⟨[], rfl, rfl, fun _ hr => ⟨_, _, .nil (dead_close rfl (by decide +kernel) (ahead_close hr))⟩⟩

theorem arm_parses {b : Bool} (h : Sem toks w (arm b) xs v) (hr : ahead (fun k => !(badOf w (arm b)).contains k) rest = true) :
    Parses toks (.r .match_arm) w.amb (xs ++ rest) rest [v] :=
  h.1.parses _ rfl _ hr (by simp [chunk, needsOf])

theorem arms_one {b : Bool} (h : Sem toks w (arm b) xs v) : Sem toks w arms xs (L [v]) := by
  have hh : Heads (firstOf arms) false xs := h.1.heads
  refine ⟨_, rfl, heads_mono hh (fun _ h => h) (by simp), fun rest hr => ?_⟩
  have hr := ahead_close hr
  cases b with
  | false => exact ⟨_, _, .one (arm_parses h (close_ahead hr (by cases w <;> decide +kernel))) h.2 (comma_close hr)⟩
  | true => exact ⟨_, _, .implicit (arm_parses h (close_ahead hr (by cases w <;> decide +kernel))) h.2 (comma_close hr)
      (.nil (dead_close rfl (by decide +kernel) hr))⟩

theorem arms_comma {b : Bool} (h : Sem toks w (arm b) xs v) (h' : Sem toks w arms ys (L vs)) : Sem toks w arms (xs ++ .t Comma :: ys) (L (v :: vs)) := by
  obtain ⟨_, he, h'⟩ := h'
  cases he
  have hh : Heads (firstOf arms) false xs := h.1.heads
  refine ⟨_, rfl, heads_mono (heads_append hh) (fun _ h => h) (by simp), fun rest hr => ?_⟩
  obtain ⟨n, _, h'⟩ := h'.reads rest hr
  rw [List.append_assoc]
  exact ⟨_, _, .more (arm_parses h (by cases b <;> exact clear_sep (by cases w <;> decide +kernel))) (.tok rfl) h'⟩

theorem arms_brace (h : Sem toks w (arm true) xs v) (h' : Sem toks w arms ys (L vs)) : Sem toks w arms (xs ++ ys) (L (v :: vs)) := by
  obtain ⟨_, he, h'⟩ := h'
  cases he
  have hh : Heads (firstOf arms) false xs := h.1.heads
  refine ⟨_, rfl, heads_mono (heads_append hh) (fun _ h => h) (by simp), fun rest hr => ?_⟩
  have hs : Stops toks .comma w.amb (ys ++ rest) := by
    have hy := h'.heads
    cases ys with
    | nil => exact comma_close (ahead_close hr)
    | cons y ys => exact stops_of_dead (clear_ahead (ks := [Option.some Comma]) (first := firstOf arms) (by decide +kernel) hy) rfl
  obtain ⟨n, b, h'⟩ := h'.reads rest hr
  rw [List.append_assoc]
  exact ⟨_, _, .implicit (arm_parses h (ahead_any _)) h.2 hs h'⟩

/-! ## Statements -/

abbrev ParsesStmts (toks : List Token) (am : Amb) := ParsesImpl toks .statement (.tok .Semicolon) (.r .statement) am

theorem statement_close {am : Amb} (hr : closed rest) : Stops toks (.r .statement) am rest := by
  intro p hp n
  cases n with
  | zero => exact .hang
  | succ n =>
    have h1 := dead_close (toks := toks) (am := am) (g := .wrap .Statement_Item itemG) rfl (by decide +kernel) hr p hp n
    have h2 := dead_close (toks := toks) (am := am) (g := .wrap .Statement_Expression (.r .statement_expression)) rfl (by decide +kernel) hr p hp n
    refine P.no_orElse (P.no_orElse h1 h2) (P.no_map ?_)
    cases n with
    | zero => exact .hang
    | succ n =>
      exact P.no_map (P.no_spanned (P.no_peek (dead_close (toks := toks) (am := am) (g := .tok Semicolon) rfl (by decide +kernel) hr p hp n)))

theorem stmts_end {am : Amb} (hr : closed rest) : ParsesStmts toks am rest rest [] 0 Option.none := .nil (statement_close hr)

theorem stmts_nil : Sem toks w (stmts Option.none) [] (L []) :=
  ⟨[], rfl, rfl, fun _ => rfl, fun _ _ _ c b' _ h => ⟨c, by cases b' <;> exact h⟩⟩

/-- An expression as a statement. -/
theorem stmt_expr {c : Cat} (hc : (chunk w c v).Sem toks xs) (h : c = expr true ∨ c = last ∨ c = brc)
    (hr : ahead (fun k => !(badOf w c).contains k) rest = true) :
    Parses toks (.r .statement) w.amb (xs ++ rest) rest [E .Statement_Expression [v]] := by
  have he : explore (badOf w c) [] w.amb steps w.amb (.r .statement) [.c (chunk w c v)] = .ok [] [E .Statement_Expression [v]] := by
    clear hc hr
    rcases h with rfl | rfl | rfl <;> cases w <;> krfl
  obtain ⟨zs, h1, h2⟩ := explore_ok (toks := toks) hr (by simp) (Denotes.last hc) he
  cases h1
  exact h2

theorem stmt_item (hc : Sem toks w attrItem xs v) : Parses toks (.r .statement) w.amb (xs ++ rest) rest [E .Statement_Item [v]] := by
  have he : explore [] [] w.amb steps w.amb (.r .statement) [.c (chunk w attrItem v)] = .ok [] [E .Statement_Item [v]] := by
    clear hc
    cases w <;> krfl
  obtain ⟨zs, h1, h2⟩ := explore_ok (toks := toks) (rest := rest) (ahead_any _) (by simp) (Denotes.last (Sem.chunk .attrItem rfl hc)) he
  cases h1
  exact h2

theorem stmt_empty : Parses toks (.r .statement) w.amb (.t Semicolon :: rest) (.t Semicolon :: rest) [E .Statement_Empty [X]] := by
  have he : explore [] [] w.amb steps w.amb (.r .statement) [.s (.t Semicolon)] = .ok [.s (.t Semicolon)] [E .Statement_Empty [X]] := by
    cases w <;> krfl
  obtain ⟨zs, h1, h2⟩ := explore_ok (toks := toks) (rest := rest) (ahead_any _) (by simp) (.s .nil) he
  cases h1 with
  | s h1 => cases h1; exact h2

/-- A statement and `;` before others. -/
theorem stmts_semi {b : Option Bool} (hh : Heads stmtFirst true xs)
    (h : ∀ rest, Parses toks (.r .statement) w.amb (xs ++ .t Semicolon :: rest) (.t Semicolon :: rest) [v])
    (h' : Sem toks w (stmts b) ys (L vs)) : Sem toks w (stmts (b.or (Option.some true))) (xs ++ .t Semicolon :: ys) (L (v :: vs)) := by
  obtain ⟨_, he, h'⟩ := h'
  cases he
  refine ⟨_, rfl, ?_, ?_, fun rest o vss c b' hr hp => ?_⟩
  · cases xs with
    | nil => show Option.some Semicolon ∈ stmtFirst; decide +kernel
    | cons => exact hh
  · cases b <;> simp
  · obtain ⟨c', h2⟩ := h'.reads rest o vss c b' hr hp
    have := ParsesImpl.more (h (ys ++ rest)) (.tok rfl) h2
    rw [List.append_assoc]
    exact ⟨_, by rw [Option.or_assoc] at this; exact this⟩

/-- A statement without `;` before others. -/
theorem stmts_implicit {b : Option Bool} (hh : Heads stmtFirst false xs) (hi : Impl.app .statement [v] = true)
    (h : ∀ rest, ahead (fun k => !afterStmts.contains k) rest = true → Parses toks (.r .statement) w.amb (xs ++ rest) rest [v])
    (h' : Sem toks w (Cat.but Semicolon (stmts b)) ys (L vs)) : Sem toks w (stmts (b.or (Option.some false))) (xs ++ ys) (L (v :: vs)) := by
  obtain ⟨⟨_, he, h'⟩, hs⟩ := h'
  cases he
  refine ⟨_, rfl, heads_mono (heads_append hh) (fun _ h => h) (by simp), ?_, fun rest o vss c b' hr hp => ?_⟩
  · cases b <;> simp
  · obtain ⟨c', h2⟩ := h'.reads rest o vss c b' hr hp
    have ha : ahead (fun k => !afterStmts.contains k) (ys ++ rest) = true := by
      have hy := h'.heads
      cases ys with
      | nil => exact hr
      | cons y ys =>
        refine clear_ahead (first := stmtFirst.filter (· != Option.some Semicolon)) (by decide +kernel) ?_
        simp only [List.mem_filter, bne_iff_ne, ne_eq]
        exact ⟨hy, hs y rfl⟩
    have := ParsesImpl.implicit (h _ ha) hi (stops_tok ha (by decide +kernel)) h2
    rw [List.append_assoc]
    exact ⟨_, by rw [Option.or_assoc] at this; exact this⟩

theorem stmts_expr {b : Option Bool} (h : Sem toks w (expr true) xs v) (h' : Sem toks w (stmts b) ys (L vs)) :
    Sem toks w (stmts (b.or (Option.some true))) (xs ++ .t Semicolon :: ys) (L (E .Statement_Expression [v] :: vs)) := by
  have hh : Heads exprFirst false xs := h.1.heads
  exact stmts_semi (heads_mono hh (by decide +kernel) (by simp))
    (fun rest => stmt_expr h.1 (.inl rfl) (clear_sep (by cases w <;> decide +kernel))) h'

theorem brc_heads (h : Sem toks w brc xs v) : Heads stmtFirst false xs := by
  have hh : Heads (firstOf brc) false xs := h.1.heads
  exact heads_mono hh (by decide +kernel) (by simp)

theorem item_heads (h : Sem toks w attrItem xs v) : Heads stmtFirst false xs := by
  have hh : Heads (firstOf attrItem) false xs := (Sem.chunk .attrItem rfl h).heads
  exact heads_mono hh (by decide +kernel) (by simp)

theorem stmts_brace {b : Option Bool} (h : Sem toks w brc xs v) (h' : Sem toks w (Cat.but Semicolon (stmts b)) ys (L vs)) :
    Sem toks w (stmts (b.or (Option.some false))) (xs ++ ys) (L (E .Statement_Expression [v] :: vs)) :=
  stmts_implicit (brc_heads h) h.2 (fun rest hr => stmt_expr h.1 (.inr (.inr rfl)) (ahead_sub hr (by cases w <;> decide +kernel))) h'

theorem stmts_braceEnd {b : Option Bool} (h : Sem toks w brc xs v) (h' : Sem toks w (stmts b) ys (L vs)) :
    Sem toks w (stmts (b.or (Option.some true))) (xs ++ .t Semicolon :: ys) (L (E .Statement_Expression [v] :: vs)) :=
  stmts_semi (heads_mono (brc_heads h) (fun _ h => h) (by simp))
    (fun rest => stmt_expr h.1 (.inr (.inr rfl)) (clear_sep (by cases w <;> decide +kernel))) h'

theorem stmts_item {b : Option Bool} (h : Sem toks w attrItem xs v) (h' : Sem toks w (Cat.but Semicolon (stmts b)) ys (L vs)) :
    Sem toks w (stmts (b.or (Option.some false))) (xs ++ ys) (L (E .Statement_Item [v] :: vs)) :=
  stmts_implicit (item_heads h) rfl (fun _ _ => stmt_item h) h'

theorem stmts_itemEnd {b : Option Bool} (h : Sem toks w attrItem xs v) (h' : Sem toks w (stmts b) ys (L vs)) :
    Sem toks w (stmts (b.or (Option.some true))) (xs ++ .t Semicolon :: ys) (L (E .Statement_Item [v] :: vs)) :=
  stmts_semi (heads_mono (item_heads h) (fun _ h => h) (by simp)) (fun _ => stmt_item h) h'

theorem stmts_empty {b : Option Bool} (h' : Sem toks w (stmts b) ys (L vs)) :
    Sem toks w (stmts (b.or (Option.some true))) (.t Semicolon :: ys) (L (E .Statement_Empty [X] :: vs)) :=
  stmts_semi (xs := []) rfl (fun _ => stmt_empty) h'

/-! ## Blocks -/

theorem sem_block {zs : List Lexeme} {x y : V} (h : ∀ rest, ∃ vss n b, ParsesStmts toks w.amb (zs ++ .t RightCurly :: rest) (.t RightCurly :: rest) vss n b ∧
    TailK.out .block ⟨vss, n, b.getD false⟩ = [x, y]) : Sem toks w block (.t LeftCurly :: zs ++ [.t RightCurly]) (N .Block [x, y]) := by
  refine Chunk.Sem.of rfl (show Option.some LeftCurly ∈ NT.first .block by decide +kernel) (fun rest _ _ => ?_) (by simp [chunk, notsOf])
  obtain ⟨vss, n, b, h1, h2⟩ := h rest
  have h3 := Parses.r (nt := .block) rfl (Parses.build (f := .node .Block) (Parses.seq (Parses.drop (Parses.tok (s := .t LeftCurly) rfl))
    (Parses.seq (h1.tailed (k := .block)) (Parses.drop (Parses.tok (s := .t RightCurly) rfl)))))
  rw [h2] at h3
  rw [List.append_assoc]
  exact h3

theorem last_append (a : List V) (v : V) : ((a.map fun v => [v]) ++ [[v]]).flatten.getLast? = Option.some v := by
  simp [flatten_one]

theorem block_plain {b : Option Bool} (h : Sem toks w (stmts b) xs (L vs)) (hb : b ≠ Option.some false) :
    Sem toks w block (.t LeftCurly :: xs ++ [.t RightCurly]) (N .Block [L vs, L []]) := by
  obtain ⟨_, he, h⟩ := h
  cases he
  refine sem_block fun rest => ?_
  obtain ⟨c, h1⟩ := h.reads _ _ _ _ _ (close_ahead closed_close (by decide +kernel)) (stmts_end (rest := .t RightCurly :: rest) closed_close)
  refine ⟨_, _, _, h1, ?_⟩
  rcases b with _ | (_ | _)
  · rw [h.nil rfl]; rfl
  · exact absurd rfl hb
  · simp only [List.append_nil, flatten_one, TailK.out, Option.none_or, Option.getD_some, ↓reduceIte]
    split <;> rfl

theorem block_item {b : Option Bool} (h : Sem toks w (stmts b) xs (L vs)) (h' : Sem toks w attrItem ys v) :
    Sem toks w block (.t LeftCurly :: xs ++ ys ++ [.t RightCurly]) (N .Block [L (vs ++ [E .Statement_Item [v]]), L []]) := by
  obtain ⟨_, he, h⟩ := h
  cases he
  rw [List.append_assoc (.t LeftCurly :: xs), List.cons_append, ← List.append_assoc xs, ← List.cons_append]
  refine sem_block fun rest => ?_
  have h0 := stmts_end (toks := toks) (am := w.amb) (rest := .t RightCurly :: rest) closed_close
  have h1 := ParsesImpl.implicit (stmt_item h') (impl := .statement) rfl (dead_close rfl rfl closed_close) h0
  obtain ⟨c, h2⟩ := h.reads (ys ++ .t RightCurly :: rest) _ _ _ _ (heads_ahead (show Heads (firstOf attrItem) false ys from (Sem.chunk .attrItem rfl h').heads) (by decide +kernel)) h1
  rw [List.append_assoc]
  refine ⟨_, _, _, h2, ?_⟩
  simp [TailK.out, flatten_one, intoExpression]

theorem block_brace {b : Option Bool} (h : Sem toks w (stmts b) xs (L vs)) (h' : Sem toks w brc ys v) :
    Sem toks w block (.t LeftCurly :: xs ++ ys ++ [.t RightCurly]) (N .Block [L vs, L [v]]) := by
  obtain ⟨_, he, h⟩ := h
  cases he
  rw [List.append_assoc (.t LeftCurly :: xs), List.cons_append, ← List.append_assoc xs, ← List.cons_append]
  refine sem_block fun rest => ?_
  have h0 := stmts_end (toks := toks) (am := w.amb) (rest := .t RightCurly :: rest) closed_close
  have h1 := ParsesImpl.implicit (stmt_expr h'.1 (.inr (.inr rfl)) (close_ahead closed_close (by cases w <;> decide +kernel)))
    (impl := .statement) h'.2 (dead_close rfl rfl closed_close) h0
  obtain ⟨c, h2⟩ := h.reads (ys ++ .t RightCurly :: rest) _ _ _ _
    (heads_ahead (show Heads (firstOf brc) false ys from h'.1.heads) (by decide +kernel)) h1
  rw [List.append_assoc]
  refine ⟨_, _, _, h2, ?_⟩
  simp [TailK.out, flatten_one, intoExpression]

theorem last_heads (h : Sem toks w last xs v) : Heads exprFirst false xs := h.1.heads

theorem last_reads (h : Sem toks w last xs v) : ParsesStmts toks w.amb (xs ++ .t RightCurly :: rest) (.t RightCurly :: rest)
    [[E .Statement_Expression [v]]] 0 Option.none :=
  ParsesImpl.one (stmt_expr h.1 (.inr (.inl rfl)) (close_ahead closed_close (by cases w <;> decide +kernel)))
    (impl := .statement) h.2 (dead_close rfl rfl closed_close)

theorem block_value {b : Option Bool} (h : Sem toks w (stmts b) xs (L vs)) (hb : b ≠ Option.some true) (h' : Sem toks w last ys v) :
    Sem toks w block (.t LeftCurly :: xs ++ ys ++ [.t RightCurly]) (N .Block [L vs, L [v]]) := by
  obtain ⟨_, he, h⟩ := h
  cases he
  rw [List.append_assoc (.t LeftCurly :: xs), List.cons_append, ← List.append_assoc xs, ← List.cons_append]
  refine sem_block fun rest => ?_
  obtain ⟨c, h2⟩ := h.reads (ys ++ .t RightCurly :: rest) _ _ _ _ (heads_ahead (last_heads h') (by decide +kernel)) (last_reads h')
  rw [List.append_assoc]
  refine ⟨_, _, _, h2, ?_⟩
  rcases b with _ | (_ | _) <;> simp [TailK.out, flatten_one, intoExpression] at hb ⊢

theorem block_last (h : Sem toks w (stmts (Option.some true)) xs (L vs)) (h' : Sem toks w last ys v) :
    Sem toks w block (.t LeftCurly :: xs ++ ys ++ [.t RightCurly]) (N .Block [L (vs ++ [E .Statement_Expression [v]]), L []]) := by
  obtain ⟨_, he, h⟩ := h
  cases he
  rw [List.append_assoc (.t LeftCurly :: xs), List.cons_append, ← List.append_assoc xs, ← List.cons_append]
  refine sem_block fun rest => ?_
  obtain ⟨c, h2⟩ := h.reads (ys ++ .t RightCurly :: rest) _ _ _ _ (heads_ahead (last_heads h') (by decide +kernel)) (last_reads h')
  rw [List.append_assoc]
  refine ⟨_, _, _, h2, ?_⟩
  simp [TailK.out, flatten_one, intoExpression]

/-! ## Tuples -/

theorem tuple_items (h : Sem toks .free (expr false) xs v) (h' : Sem toks .free (sep Comma (expr false)) ys (L vs)) :
    Sem toks .free tupleItems (xs ++ .t Comma :: ys) (E .Expression_Tuple [L (v :: vs)]) := by
  obtain ⟨_, he, h'⟩ := h'
  cases he
  have hh : Heads exprFirst false xs := h.1.heads
  have hb : ∀ k ∈ badOf .free (expr false) ++ Option.some Comma :: G.first NT.first (gOf (expr false)), k ∈ badOf .free tupleItems := by
    decide +kernel
  have hc : clear [Option.some Comma] (badOf .free (expr false)) = true := by decide +kernel
  refine Chunk.Sem.of rfl (heads_append hh) (fun rest hr _ => ?_) (by simp [chunk, notsOf])
  obtain ⟨n, b, h1⟩ := h'.parses (fun _ _ h => h.1) rfl rfl hc (rest := rest) (ahead_sub hr hb)
  have h2 := ParsesTail.more (h.1.parses _ rfl (.t Comma :: (ys ++ rest)) (clear_sep hc) (by simp [chunk, needsOf]))
    (Parses.tok rfl) h1
  have h3 := h2.tailed (k := .paren)
  rw [List.append_assoc]
  refine h3.to ?_
  simp [TailK.out, flatten_one, chunk]

/-! ## Postfix operators -/

theorem post_access (h : Sem toks w (left s f) xs l) (h' : Sem toks w pcomp ys r) :
    Sem toks w (left s .plain) (xs ++ .t Period :: ys) (A [] (E .Expression_FieldAccess [N .FieldAccess [l, E .FieldName_Path [r]]])) := by
  have hd := Denotes.s (x := .t Period) (Denotes.last (Sem.chunk .pcomp (by cases w <;> rfl) h'))
  exact lft_post (op := .FieldAccess) (pl := [E .FieldName_Path [r]]) h (by cases w <;> cases f <;> decide +kernel) hd rfl
    (by clear hd h h'; cases w <;> krfl) (by clear hd h h'; cases w <;> krfl)

theorem post_call (h : Sem toks w (left s f) xs l) (hf : LeftParen ∉ f.bars) (h' : Sem toks .free (sep Comma (expr false)) ys r) :
    Sem toks w (left s .plain) (xs ++ .t LeftParen :: ys ++ [.t RightParen]) (A [] (E .Expression_Call [N .Call [l, r]])) := by
  have hd := Denotes.s (x := .t LeftParen) (Denotes.c (Sem.chunk (.sep .Comma (.expr false)) rfl h') (.s (x := .t RightParen) .nil))
  rw [List.append_assoc]
  refine lft_post (op := .Call) (pl := [r]) h ?_ hd rfl
    (by clear hd h h'; cases w <;> krfl) (by clear hd h h'; cases w <;> krfl)
  revert hf
  cases w <;> cases f <;> decide +kernel

theorem post_slice (h : Sem toks w (left s f) xs l) (h' : Sem toks .free (expr false) ys r) :
    Sem toks w (left s .plain) (xs ++ .t LeftSquare :: ys ++ [.t RightSquare]) (A [] (E .Expression_Slice [N .Slice [l, r]])) := by
  have hd := Denotes.s (x := .t LeftSquare) (Denotes.c h'.1 (.s (x := .t RightSquare) .nil))
  rw [List.append_assoc]
  exact lft_post (op := .Slice) (pl := [r]) h (by cases w <;> cases f <;> decide +kernel) hd rfl
    (by clear hd h h'; cases w <;> krfl) (by clear hd h h'; cases w <;> krfl)

theorem post_try (h : Sem toks w (left s f) xs l) :
    Sem toks w (left s .plain) (xs ++ [.t QuestionMark]) (A [] (E .Expression_TryOperator [N .TryOperator [l]])) :=
  lft_post (op := .Try) (pl := []) h (by cases w <;> cases f <;> decide +kernel) (.s .nil) rfl
    (by clear h; cases w <;> krfl) (by clear h; cases w <;> krfl)

theorem post_cast (h : Sem toks w (left s f) xs l) (h' : Sem toks w typ1 ys r) :
    Sem toks w (left s .cast) (xs ++ .t As :: ys) (A [] (E .Expression_AsType [N .AsType [l, r]])) := by
  have hd := Denotes.s (x := .t As) (Denotes.last (Sem.chunk .typ1 (by cases w <;> rfl) h'))
  exact lft_post (op := .AsType) (pl := [r]) h (by cases w <;> cases f <;> decide +kernel) hd rfl
    (by clear hd h h'; cases w <;> krfl) (by clear hd h h'; cases w <;> krfl)

theorem post_castF (h : Sem toks w (left s f) xs l) (h' : Sem toks w typ1F ys r) :
    Sem toks w (left s .typed) (xs ++ .t As :: ys) (A [] (E .Expression_AsType [N .AsType [l, r]])) := by
  have hd := Denotes.s (x := .t As) (Denotes.last (Sem.chunk .typ1F (by cases w <;> rfl) h'))
  exact lft_post (op := .AsType) (pl := [r]) h (by cases w <;> cases f <;> decide +kernel) hd rfl
    (by clear hd h h'; cases w <;> krfl) (by clear hd h h'; cases w <;> krfl)

theorem post_ascription (h : Sem toks w (left s f) xs l) (h' : Sem toks w typ ys r) :
    Sem toks w (left s .typed) (xs ++ .t Colon :: ys) (A [] (E .Expression_Ascription [N .Ascription [l, r]])) := by
  have hd := Denotes.s (x := .t Colon) (Denotes.last (Sem.chunk .typ (by cases w <;> rfl) h'))
  exact lft_post (op := .Ascription) (pl := [r]) h (by cases w <;> cases f <;> decide +kernel) hd rfl
    (by clear hd h h'; cases w <;> krfl) (by clear hd h h'; cases w <;> krfl)

theorem post_index {n : Number} (h : Sem toks w (left s f) xs l) (hn : n.intoSimple.isSome = true) :
    Sem toks w (left s .plain) (xs ++ [.t Period, .num n]) (A [] (E .Expression_FieldAccess [N .FieldAccess [l, E .FieldName_Number [X]]])) := by
  refine lft_more h rfl (fun rest _ => goes_ahead (by cases w <;> cases f <;> decide +kernel)) fun rest hr hl =>
    hl.postfix (op := .FieldAccess) (pl := [E .FieldName_Number [X]]) (readsPostfix ?_ ?_)
  · exact rejTable_sound (toks := toks) (b := []) (nd := []) (am0 := w.amb) (rest := .num n :: rest) (ahead_any _) (by simp)
      (.s (x := .t Period) .nil) (by clear h hl hr; cases w <;> krfl)
  · refine table_parses (y := (PostfixOp.FieldAccess, .r .operator_postfix_field_access))
      (pre := [(PostfixOp.AsType, .r .operator_postfix_as_type), (.Ascription, .r .operator_postfix_ascription), (.Call, .r .operator_postfix_call)])
      rfl (fun z hz => ?_) ?_
    · simp only [List.mem_cons, List.not_mem_nil, or_false] at hz
      exact explore_rej (toks := toks) (b := []) (nd := []) (am0 := w.amb) (rest := .num n :: rest) (ahead_any _) (by simp)
        (.s (x := .t Period) .nil) (by clear h hl hr; rcases hz with rfl | rfl | rfl <;> cases w <;> krfl)
    · have h1 : Rejects toks (.wrap .FieldName_Path (.r .path_component)) w.amb (.num n :: rest) :=
        explore_rej (toks := toks) (b := []) (nd := []) (am0 := w.amb) (rest := rest) (ahead_any _) (by simp)
        (.s (x := .num n) .nil) (by clear h hl hr; cases w <;> krfl)
      exact .r rfl (.seq (.drop (.tok rfl)) (.r rfl (.alt_right h1 (.map (f := .wrap .FieldName_Number) (.r rfl (.simpleNumber hn))))))

theorem brace_access (ha : Sem toks w (many attr) as (L a)) (h : Sem toks w (atom .brace) xs v) (h' : Sem toks w pcomp ys r) :
    Sem toks w (left true .plain) (as ++ xs ++ .t Period :: ys)
      (A [] (E .Expression_FieldAccess [N .FieldAccess [A a v, E .FieldName_Path [r]]])) := by
  have hd := Denotes.s (x := .t Period) (Denotes.last (Sem.chunk .pcomp (by cases w <;> rfl) h'))
  exact lft_limited (op := .FieldAccess) (pl := [E .FieldName_Path [r]]) ha h hd (by decide +kernel) rfl (by clear hd ha h h'; cases w <;> krfl)

theorem brace_try (ha : Sem toks w (many attr) as (L a)) (h : Sem toks w (atom .brace) xs v) :
    Sem toks w (left true .plain) (as ++ xs ++ [.t QuestionMark]) (A [] (E .Expression_TryOperator [N .TryOperator [A a v]])) :=
  lft_limited (op := .Try) (pl := []) ha h (.s .nil) (by decide +kernel) rfl (by clear ha h; cases w <;> krfl)

end
end CoreP
end Verif
