import Verif.Proofs.File
/-!
# Property theorems about parsing a file (C15-C18, C20, C21, C23-C27, C36, C37)

`parseRustFile X cl cp code` is the public `parse_rust_file`; `X` are arbitrary Unicode identifier tables, `cl` and `cp` the
unknown detail of `peresil` (see DESIGN.md) for the tokenizer and the parser; everything is for all of them.
-/

namespace Verif.Props
open Verif Verif.Spec

/-! ## Statements -/

/-- For the examples: a file was returned and passes a test. -/
def FileResult.okWith (r : FileResult) (p : File → Bool) : Bool := match r with | .ok f => p f | _ => false

theorem FileResult.of_okWith {r : FileResult} {p : File → Bool} (h : FileResult.okWith r p = true) :
    ∃ f, r = .ok f ∧ p f = true := by
  cases r <;> simp_all [FileResult.okWith]

theorem trivia?_isNone (t : Token) : t.trivia?.isNone = !isTrivia t := by
  cases t with
  | number => rfl
  | plain k e => cases k <;> rfl

theorem significant_eq (ts : List Token) : significant ts = ts.filter (fun t => !isTrivia t) := by
  unfold significant
  congr 1
  funext t
  exact trivia?_isNone t

theorem trivia?_token (ts : List Token) : (ts.filterMap Token.trivia?).map Ws.token = ts.filter isTrivia := by
  induction ts with
  | nil => rfl
  | cons t ts ih =>
    have key : (t.trivia?.map Ws.token) = if isTrivia t then some t else none := by
      cases t with
      | number => rfl
      | plain k e => cases k <;> rfl
    cases h : isTrivia t with
    | true =>
      rw [h] at key
      cases ht : t.trivia? with
      | none => rw [ht] at key; simp at key
      | some w =>
        rw [ht] at key; simp at key
        rw [List.filterMap_cons_some ht, List.map_cons, ih, key, List.filter_cons_of_pos h]
    | false =>
      rw [h] at key
      cases ht : t.trivia? with
      | some w => rw [ht] at key; simp at key
      | none => rw [List.filterMap_cons_none ht, ih, List.filter_cons_of_neg (by simp [h])]

theorem starts_increasing {X cl code ts} (h : lex X cl code = .ok ts) :
    ts.Pairwise (fun t u => t.extent.s < u.extent.s) := by
  obtain ⟨body, texts, hb, hch, hne, heof, -, -⟩ := run_ok (LexInv.new code) rfl (lex_ok_calls h 1)
  rw [hb, List.pairwise_append]
  refine ⟨body_starts hch hne, by simp, ?_⟩
  intro a ha b hb'
  simp at hb'; subst hb'
  have := ((chain_pairwise hch).2.2 a.extent (List.mem_map_of_mem ha))
  have := hne a ha
  show a.extent.s < blen code
  omega

/-! ## C15 -/

/-- Sorting the tokens into trivia and the tokens the parser sees keeps every token exactly once and in order; merging the
two by position gives the token stream back. -/
theorem C15_partition (X : Xid) (cl : Bool) (code : Text) (ts : List Token) (h : lex X cl code = .ok ts) :
    ∃ ws toks, extractWhitespace X cl code = .ok ws toks ∧
      ws.map Ws.token = ts.filter isTrivia ∧ toks = ts.filter (fun t => !isTrivia t) ∧
      (ws.map Ws.token).merge toks (fun t u => decide (t.extent.s ≤ u.extent.s)) = ts := by
  refine ⟨_, _, extract_ok h, trivia?_token ts, significant_eq ts, ?_⟩
  rw [trivia?_token, significant_eq]
  have hsort := starts_increasing h
  have hle : ts.Pairwise (fun t u => decide (t.extent.s ≤ u.extent.s) = true) :=
    hsort.imp (fun h => by simp; omega)
  refine List.Perm.eq_of_pairwise (le := fun t u => decide (t.extent.s ≤ u.extent.s) = true) ?_ ?_ hle ?_
  · intro a b ha hb h1 h2
    have ha : a ∈ ts := by
      rcases List.mem_merge.mp ha with ha | ha
      · exact (List.mem_filter.mp ha).1
      · exact (List.mem_filter.mp ha).1
    have heq : a.extent.s = b.extent.s := by simp at h1 h2; omega
    obtain ⟨i, hi, rfl⟩ := List.getElem_of_mem ha
    obtain ⟨j, hj, rfl⟩ := List.getElem_of_mem hb
    have hp := List.pairwise_iff_getElem.mp hsort
    rcases Nat.lt_trichotomy i j with hij | rfl | hij
    · have := hp i j hi hj hij; omega
    · rfl
    · have := hp j i hj hi hij; omega
  · exact List.pairwise_merge (fun a b c h1 h2 => by simp at *; omega) (fun a b => by simp; omega) _ _
      (hle.filter _) (hle.filter _)
  · exact (List.merge_perm_append _).trans (List.filter_append_perm _ _)

/-- Doc comments and the end of the file stay with the parser. -/
theorem C15_doc_comments_kept (X : Xid) (cl : Bool) (code : Text) (ws : List Ws) (toks ts : List Token)
    (h : lex X cl code = .ok ts) (h' : extractWhitespace X cl code = .ok ws toks) (t : Token) (ht : t ∈ ts)
    (hk : t.kind? = some .EndOfFile ∨ t.kind? = some .DocCommentOuterLine ∨ t.kind? = some .DocCommentOuterBlock ∨
      t.kind? = some .DocCommentInnerLine ∨ t.kind? = some .DocCommentInnerBlock) : t ∈ toks := by
  rw [extract_ok h] at h'
  cases h'
  rw [significant_eq]
  refine List.mem_filter.mpr ⟨ht, ?_⟩
  rcases hk with hk | hk | hk | hk | hk <;> simp [isTrivia, hk]

example : extractWhitespace asciiXid true c!"/// d\nx /* c */" =
    .ok [.whitespace ⟨5, 6⟩, .whitespace ⟨7, 8⟩, .commentBlock ⟨8, 15⟩]
      [.plain .DocCommentOuterLine ⟨0, 5⟩, .plain .Ident ⟨6, 7⟩, .plain .EndOfFile ⟨15, 15⟩] := by decide +kernel

/-! ## C16 -/

/-- The pieces of a split token: they are adjacent, not empty, cover what is left of the token, and each is spelled as its
kind is. -/
theorem C16_split_tiles (X : Xid) (cl : Bool) (code : Text) (t hd tl : Token) (n : Nat) (h : Yields X cl code t)
    (hs : split t n = some (hd, tl)) :
    hd.extent.s = t.extent.s + n ∧ hd.extent.s < hd.extent.e ∧ hd.extent.e = tl.extent.s ∧
    tl.extent.s < tl.extent.e ∧ tl.extent.e = t.extent.e ∧
    (∃ k w, hd = .plain k hd.extent ∧ symbolText k = some w ∧ sliceText code hd.extent = some w) ∧
    (∃ k w, tl = .plain k tl.extent ∧ symbolText k = some w ∧ sliceText code tl.extent = some w) := by
  have slice : ∀ (a m b pre post : Text) (e : Extent), code = pre ++ (a ++ m ++ b) ++ post →
      e = ⟨blen pre + blen a, blen pre + blen a + blen m⟩ → sliceText code e = some m := by
    rintro a m b pre post e hc rfl
    subst hc
    have := sliceText_append (pre ++ a) m (b ++ post)
    simpa [List.append_assoc] using this
  unfold split at hs
  split at hs <;> cases hs
  all_goals
    obtain ⟨pre, post, hc, he⟩ := symbol_extent h rfl
    simp only [Extent.mk.injEq] at he
    obtain ⟨rfl, rfl⟩ := he
  · exact ⟨rfl, by simp [Token.extent], rfl, by simp [Token.extent, blen, Char.utf8Size], rfl,
      ⟨_, c!"<", rfl, rfl, slice [] c!"<" c!"<" pre post _ hc rfl⟩,
      ⟨_, c!"<", rfl, rfl, slice c!"<" c!"<" [] pre post _ hc (by rfl)⟩⟩
  · exact ⟨rfl, by simp [Token.extent], rfl, by simp [Token.extent, blen, Char.utf8Size], rfl,
      ⟨_, c!">", rfl, rfl, slice [] c!">" c!">" pre post _ hc rfl⟩,
      ⟨_, c!">", rfl, rfl, slice c!">" c!">" [] pre post _ hc (by rfl)⟩⟩
  · exact ⟨rfl, by simp [Token.extent], rfl, by simp [Token.extent, blen, Char.utf8Size], rfl,
      ⟨_, c!">", rfl, rfl, slice [] c!">" c!">=" pre post _ hc rfl⟩,
      ⟨_, c!">=", rfl, rfl, slice c!">" c!">=" [] pre post _ hc (by rfl)⟩⟩
  · exact ⟨rfl, by simp [Token.extent], rfl, by simp [Token.extent, blen, Char.utf8Size], rfl,
      ⟨_, c!">", rfl, rfl, slice c!">" c!">" c!"=" pre post _ hc (by rfl)⟩,
      ⟨_, c!"=", rfl, rfl, slice c!">>" c!"=" [] pre post _ hc (by rfl)⟩⟩
  · exact ⟨rfl, by simp [Token.extent], rfl, by simp [Token.extent, blen, Char.utf8Size], rfl,
      ⟨_, c!">", rfl, rfl, slice [] c!">" c!"=" pre post _ hc rfl⟩,
      ⟨_, c!"=", rfl, rfl, slice c!">" c!"=" [] pre post _ hc (by rfl)⟩⟩
  · exact ⟨rfl, by simp [Token.extent], rfl, by simp [Token.extent, blen, Char.utf8Size], rfl,
      ⟨_, c!"|", rfl, rfl, slice [] c!"|" c!"|" pre post _ hc rfl⟩,
      ⟨_, c!"|", rfl, rfl, slice c!"|" c!"|" [] pre post _ hc (by rfl)⟩⟩
  · exact ⟨rfl, by simp [Token.extent], rfl, by simp [Token.extent, blen, Char.utf8Size], rfl,
      ⟨_, c!"&", rfl, rfl, slice [] c!"&" c!"&" pre post _ hc rfl⟩,
      ⟨_, c!"&", rfl, rfl, slice c!"&" c!"&" [] pre post _ hc (by rfl)⟩⟩

example : Yields asciiXid true c!"x>>=" (.plain .ShiftRightEquals ⟨1, 4⟩) ∧
    split (.plain .ShiftRightEquals ⟨1, 4⟩) 1 = some (.plain .RightAngle ⟨2, 3⟩, .plain .Equals ⟨3, 4⟩) :=
  ⟨⟨2, by decide +kernel⟩, by decide⟩

/-! ## C17 -/

/-- The parser is at a token, and if it has taken part of it then the rest can be produced. -/
def CanResume (toks : List Token) (p : Pt) : Prop :=
  ∃ t, toks[p.off]? = some t ∧ ∀ n, p.sub = some n → ∃ hd tl, split t n = some (hd, tl)

theorem canResume_iff {toks : List Token} {p : Pt} : CanResume toks p ↔ ValidPt toks p := by
  simp [CanResume, ValidPt, Option.isSome_iff_exists, Prod.exists]

/-- Every parser function, called at a point where the token can be resumed, in any mode and with any bound on the depth of
the recursion, does not panic, and every point it ends at or logs a failure at is such a point again. -/
theorem C17_resume (X : Xid) (cl : Bool) (code : Text) (ws : List Ws) (toks : List Token)
    (h : extractWhitespace X cl code = .ok ws toks) (nt : NT) (a : Amb) (p : Pt) (hp : CanResume toks p) (n : Nat) :
    (eval toks n nt a p).out ≠ .panic ∧
    (∀ q vs, (eval toks n nt a p).out = .ok q vs → CanResume toks q) ∧
    (∀ q e, (eval toks n nt a p).out = .fail q e → CanResume toks q) ∧
    (∀ x ∈ (eval toks n nt a p).log, CanResume toks x.1) := by
  have hs := Src.of_extract h
  have hr := (eval_known hs.eof (Φ := fun _ _ _ _ _ => True) true_inductive n).run nt a p (canResume_iff.mp hp)
  generalize eval toks n nt a p = r at hr
  obtain ⟨out, a', l⟩ := r
  obtain ⟨-, h2, h3⟩ := hr
  refine ⟨?_, ?_, ?_, fun x hx => canResume_iff.mpr (h2 x hx).1⟩
  · rintro rfl; exact h3
  · rintro q vs rfl; exact canResume_iff.mpr h3.1
  · rintro q e rfl; exact canResume_iff.mpr h3.1

/-- The parser starts at such a point. -/
theorem C17_start (X : Xid) (cl : Bool) (code : Text) (ws : List Ws) (toks : List Token)
    (h : extractWhitespace X cl code = .ok ws toks) : CanResume toks .zero :=
  canResume_iff.mpr (ValidPt.of_none (Src.of_extract h).eof.pos)

example : extractWhitespace asciiXid true c!"a>>=" =
      .ok [] [.plain .Ident ⟨0, 1⟩, .plain .ShiftRightEquals ⟨1, 4⟩, .plain .EndOfFile ⟨4, 4⟩] ∧
    CanResume [.plain .Ident ⟨0, 1⟩, .plain .ShiftRightEquals ⟨1, 4⟩, .plain .EndOfFile ⟨4, 4⟩] ⟨1, some 1⟩ :=
  ⟨by decide +kernel, _, rfl, by rintro n ⟨⟩; exact ⟨_, _, rfl⟩⟩

/-! ## C18 -/

/-- Whatever any parser function builds, on whatever branch: extents are in order and inside the text.  (An extent
computation that panics would make the result a panic, see `C17_resume`.) -/
theorem C18_extents (X : Xid) (cl : Bool) (code : Text) (ws : List Ws) (toks : List Token)
    (h : extractWhitespace X cl code = .ok ws toks) (nt : NT) (a : Amb) (p q : Pt) (hp : CanResume toks p) (n : Nat)
    (vs : List V) (hr : (eval toks n nt a p).out = .ok q vs) : ∀ e ∈ extsL vs, e.s ≤ e.e ∧ e.e ≤ blen code := by
  have hs := Src.of_extract h
  have hr' := (eval_known hs.eof (full_inductive hs true_inductive) n).run nt a p (canResume_iff.mp hp)
  generalize eval toks n nt a p = r at hr hr'
  obtain ⟨out, a', l⟩ := r
  obtain ⟨-, h2, h3⟩ := hr'
  dsimp only at hr; subst hr
  obtain ⟨hv, -, -, -, hw, -⟩ := h3
  intro e he
  have h4 := hw e he
  obtain ⟨t, ht, -⟩ := id hv
  have h5 := (hs.pos_le hv ht).2
  have h6 := (hs.inside t (List.mem_of_getElem? ht) _ (extent_mem_allExtents t)).2.2.2.2.le
  exact ⟨h4.2.1, by omega⟩

theorem extsL_bareL (vs : List V) : extsL (bareL vs) = extsL vs :=
  V.rec_1 (motive_1 := fun v => v.bare.exts = v.exts) (motive_2 := fun vs => extsL (bareL vs) = extsL vs)
    (fun _ => rfl) (fun _ => rfl) (fun vs ih => by simp [V.bare, ih]) (fun t vs ih => by simp [V.bare, ih])
    (fun k e ws vs ih => by simp [V.bare, ih]) rfl (fun v vs ih ih' => by simp [bareL, ih, ih']) vs

theorem extsL_bare {vs ws : List V} (h : bareL vs = bareL ws) : extsL vs = extsL ws := by
  rw [← extsL_bareL vs, ← extsL_bareL ws, h]

/-- The same for the tree that is returned. -/
theorem C18_file_extents (X : Xid) (cl cp : Bool) (code : Text) (f : File) (h : parseRustFile X cl cp code = .ok f) :
    ∀ e ∈ extsL f.items, e.s ≤ e.e ∧ e.e ≤ blen code := by
  obtain ⟨ts, items, q, hp⟩ := parseRustFile_ok h (Ψ := fun _ _ _ _ _ _ => True) (fun _ _ => true_inductive)
  rw [extsL_bare hp.took.bare]
  exact hp.exts

example : ∃ f, parseRustFile asciiXid true true c!"fn f() { a >>= b }" = .ok f ∧
    decide (18 ≤ (extsL f.items).length) = true := FileResult.of_okWith (by decide +kernel)

/-! ## C20 and C21 -/

/-- `parse_rust_file` ends, with a tree or an error: the bounds on the depth of the recursion and on the number of turns of
each loop (`hang`) are never reached, and nothing panics. -/
theorem C20_C21_total (X : Xid) (cl cp : Bool) (code : Text) :
    (∃ f, parseRustFile X cl cp code = .ok f) ∨ (∃ d, parseRustFile X cl cp code = .lexErr d) ∨
    (∃ loc errs, parseRustFile X cl cp code = .parseErr loc errs) := by
  rcases parseRustFile_cases X cl cp code (Ψ := fun _ _ _ _ _ _ => True) (fun _ _ => true_inductive) with
    ⟨d, -, h⟩ | ⟨ts, loc, errs, -, -, h⟩ | ⟨f, ts, items, q, h, -, -⟩
  · exact .inr (.inl ⟨d, h⟩)
  · exact .inr (.inr ⟨loc, errs, h⟩)
  · exact .inl ⟨f, h⟩

theorem C20_terminates (X : Xid) (cl cp : Bool) (code : Text) : parseRustFile X cl cp code ≠ .hang := by
  rcases C20_C21_total X cl cp code with ⟨_, h⟩ | ⟨_, h⟩ | ⟨_, _, h⟩ <;> rw [h] <;> simp

theorem C21_no_panic (X : Xid) (cl cp : Bool) (code : Text) : parseRustFile X cl cp code ≠ .panic := by
  rcases C20_C21_total X cl cp code with ⟨_, h⟩ | ⟨_, h⟩ | ⟨_, _, h⟩ <;> rw [h] <;> simp

/-- Every parser function ends within a depth of recursion that depends on the number of tokens only. -/
theorem C20_depth (X : Xid) (cl : Bool) (code : Text) (ws : List Ws) (toks : List Token)
    (h : extractWhitespace X cl code = .ok ws toks) (nt : NT) (a : Amb) (p : Pt) (hp : CanResume toks p) (n : Nat)
    (hn : 40 * toks.length + 10 ≤ n) : (eval toks n nt a p).out ≠ .hang := by
  have := eval_noHang (Src.of_extract h).eof n nt a p (canResume_iff.mp hp) (by have := rank_lt nt; omega)
  intro hh
  generalize eval toks n nt a p = r at this hh
  obtain ⟨out, a', l⟩ := r
  dsimp only at hh; subst hh
  exact this

/-! ## C23 -/

theorem item_shape {code : Text} {toks : List Token} {Φ : NT → Rel} {a m q v} (hm : m.sub = none)
    (h : den toks (Known Φ) itemG a m q v) :
    ∃ fs t u, v = [.node .AttributedItem ⟨t.extent.s, u.extent.e⟩ [] fs] ∧ toks[m.off]? = some t ∧
      toks[q.off - 1]? = some u ∧ m.off < q.off ∧ q.sub = none := by
  obtain ⟨h1, h2⟩ := item_end hm h
  obtain ⟨w, e, -, he, rfl⟩ := h
  unfold ex at he
  split at he
  · cases he
  · rename_i t ht
    dsimp only at he
    rw [if_pos h2] at he
    split at he
    · cases he
    · rename_i u hu
      simp [Pt.subw, hm, h1] at he
      subst he
      exact ⟨w, t, u, rfl, ht, hu, h2, h1⟩

/-- Extents of items between two points. -/
structure ItemsOK (toks : List Token) (p q : Nat) (es : List Extent) : Prop where
  ordered : es.Pairwise (fun a b => a.e ≤ b.s)
  tokens : ∀ e ∈ es, ∃ t ∈ toks, ∃ u ∈ toks, e = ⟨t.extent.s, u.extent.e⟩
  bounded : ∀ e ∈ es, ∀ j u, q ≤ j → toks[j]? = some u → e.e ≤ u.extent.s
  covers : ∀ i t, p ≤ i → i < q → toks[i]? = some t → ∃ pre e post, es = pre ++ e :: post ∧
    e.s ≤ t.extent.s ∧ t.extent.e ≤ e.e ∧ (∀ x ∈ pre, x.e ≤ t.extent.s) ∧ ∀ x ∈ post, t.extent.e ≤ x.s

theorem items_ok {code : Text} {toks : List Token} {Φ : NT → Rel} (hs : Src code toks) {a p q vs}
    (h : ItemsR toks Φ a p q vs) : p.off ≤ q.off ∧ ∃ es, vs.map V.own = es.map some ∧ ItemsOK toks p.off q.off es := by
  induction h with
  | nil => exact ⟨Nat.le_refl _, [], rfl, by simp, by simp, by simp, by omega⟩
  | @snoc m q _ v _ _ hm h ih =>
    obtain ⟨fs, t, u, rfl, ht, hu, hlt, hq⟩ := item_shape (code := code) hm h
    obtain ⟨hle, es, hes, ih⟩ := ih
    refine ⟨by omega, es ++ [⟨t.extent.s, u.extent.e⟩], by simp [hes, V.own], ?_⟩
    have hb : ∀ x ∈ es, x.e ≤ t.extent.s := fun x hx => ih.bounded x hx _ t (Nat.le_refl _) ht
    refine ⟨?_, ?_, ?_, ?_⟩
    · rw [List.pairwise_append]
      exact ⟨ih.ordered, by simp, by simpa using hb⟩
    · intro e he
      simp at he
      rcases he with he | rfl
      · exact ih.tokens e he
      · exact ⟨t, List.mem_of_getElem? ht, u, List.mem_of_getElem? hu, rfl⟩
    · intro e he j w hj hw
      have hlast : u.extent.e ≤ w.extent.s := hs.le_of_lt hu hw (by omega)
      simp at he
      rcases he with he | rfl
      · exact ih.bounded e he j w (by omega) hw
      · exact hlast
    · intro i w hi hi' hw
      rcases Nat.lt_or_ge i m.off with him | him
      · obtain ⟨pre, e, post, rfl, h1, h2, h3, h4⟩ := ih.covers i w hi him hw
        refine ⟨pre, e, post ++ [⟨t.extent.s, u.extent.e⟩], by simp, h1, h2, h3, ?_⟩
        intro x hx
        simp at hx
        rcases hx with hx | rfl
        · exact h4 x hx
        · exact hs.le_of_lt hw ht him
      · have h1 : t.extent.s ≤ w.extent.s := by
          rcases Nat.lt_or_ge m.off i with h | h
          · have := hs.le_of_lt ht hw h
            have := hs.self_le (List.mem_of_getElem? ht)
            omega
          · have : i = m.off := by omega
            subst this; rw [ht] at hw; cases hw; exact Nat.le_refl _
        have h2 : w.extent.e ≤ u.extent.e := by
          rcases Nat.lt_or_ge i (q.off - 1) with h | h
          · have := hs.le_of_lt hw hu h
            have := hs.self_le (List.mem_of_getElem? hu)
            omega
          · have : i = q.off - 1 := by omega
            subst this; rw [hu] at hw; cases hw; exact Nat.le_refl _
        refine ⟨es, ⟨t.extent.s, u.extent.e⟩, [], rfl, h1, h2, ?_, by simp⟩
        intro x hx
        have := hb x hx
        omega

theorem own_bare (v : V) : v.bare.own = v.own := by cases v <;> rfl

theorem map_own_bareL (vs : List V) : (bareL vs).map V.own = vs.map V.own := by
  induction vs with
  | nil => rfl
  | cons v vs ih => simp [bareL, ih, own_bare]

/-- The items of a file have extents in source order that do not overlap and that begin and end with a token; every token
the parser sees lies inside exactly one of them. -/
theorem C23_items_cover (X : Xid) (cl cp : Bool) (code : Text) (f : File) (h : parseRustFile X cl cp code = .ok f) :
    ∃ ts es, lex X cl code = .ok ts ∧ f.items.map V.own = es.map some ∧
      es.Pairwise (fun a b => a.e ≤ b.s) ∧
      (∀ e ∈ es, ∃ t ∈ ts, ∃ u ∈ ts, isTrivia t = false ∧ isTrivia u = false ∧ e = ⟨t.extent.s, u.extent.e⟩) ∧
      ∀ t ∈ ts, isTrivia t = false → t.kind? ≠ some .EndOfFile →
        ∃ pre e post, es = pre ++ e :: post ∧ e.s ≤ t.extent.s ∧ t.extent.e ≤ e.e ∧
          ∀ x ∈ pre ++ post, x.e ≤ t.extent.s ∨ t.extent.e ≤ x.s := by
  obtain ⟨ts, items, q, hp⟩ := parseRustFile_ok h (Ψ := fun _ _ _ _ _ _ => True) (fun _ _ => true_inductive)
  obtain ⟨-, es, hes, hok⟩ := items_ok hp.src hp.run
  refine ⟨ts, es, hp.lexed, ?_, hok.ordered, ?_, ?_⟩
  · rw [← hes, ← map_own_bareL f.items, hp.took.bare, map_own_bareL]
  · intro e he
    obtain ⟨t, ht, u, hu, rfl⟩ := hok.tokens e he
    rw [significant_eq, List.mem_filter] at ht hu
    exact ⟨t, ht.1, u, hu.1, by simpa using ht.2, by simpa using hu.2, rfl⟩
  · intro t ht htr hk
    have hmem : t ∈ significant ts := by
      rw [significant_eq, List.mem_filter]; exact ⟨ht, by simp [htr]⟩
    obtain ⟨i, hi, rfl⟩ := List.getElem_of_mem hmem
    have hne : i < q.off := by
      have hall := hp.all
      rcases Nat.lt_or_ge i q.off with h | h
      · exact h
      · exfalso
        obtain ⟨body, t, hb, ht, hlast⟩ := hp.src.eof
        have hlen : i = body.length := by rw [hb] at hall hi; simp at hall hi; omega
        have : (significant ts)[i] = t := by
          have : (significant ts)[i]? = some t := by rw [hb, hlen]; simp
          rw [List.getElem?_eq_getElem hi] at this
          simpa using this
        rw [this] at hk
        cases t with
        | number => cases ht
        | plain k e => cases k <;> simp_all [Token.isEOF, Token.kind?]
    obtain ⟨pre, e, post, h1, h2, h3, h4, h5⟩ := hok.covers i _ (Nat.zero_le _) hne (List.getElem?_eq_getElem hi)
    refine ⟨pre, e, post, h1, h2, h3, ?_⟩
    intro x hx
    rcases List.mem_append.mp hx with hx | hx
    · exact .inl (h4 x hx)
    · exact .inr (h5 x hx)

example : ∃ f, parseRustFile asciiXid true true c!" struct A ; /* c */ fn f() {}" = .ok f ∧
    decide (f.items.map V.own = [some ⟨1, 11⟩, some ⟨20, 29⟩]) = true := FileResult.of_okWith (by decide +kernel)

/-! ## C24, C25, C26 -/

theorem wsL_noWs {vs : List V} (h : NoWs vs) : wsL vs = [] := by
  unfold wsL
  rw [List.flatMap_eq_nil_iff]
  intro v hv
  cases v with
  | node k e ws fs => exact h k e ws fs hv
  | _ => rfl

/-- The whitespace lists of the nodes and of the file together hold every white space and comment token exactly once. -/
theorem C24_all_attached (X : Xid) (cl cp : Bool) (code : Text) (f : File) (h : parseRustFile X cl cp code = .ok f) :
    ∃ ts, lex X cl code = .ok ts ∧ ((wsL f.items ++ f.whitespace).map Ws.token).Perm (ts.filter isTrivia) ∧
      ((wsL f.items ++ f.whitespace).map Ws.token).Nodup := by
  obtain ⟨ts, items, q, hp⟩ := parseRustFile_ok h (Ψ := fun _ _ _ _ _ _ => True) (fun _ _ => true_inductive)
  have h1 := hp.took.perm
  rw [wsL_noWs hp.orig.noWs, List.nil_append] at h1
  have h2 : ((wsL f.items ++ f.whitespace).map Ws.token).Perm (ts.filter isTrivia) := by
    rw [← trivia?_token]; exact h1.map _
  refine ⟨ts, hp.lexed, h2, h2.nodup_iff.mpr ?_⟩
  refine List.Pairwise.filter _ ((starts_increasing hp.lexed).imp ?_)
  rintro t u hlt rfl
  omega

/-- Every whitespace list, of a node or of the file, is strictly in source order. -/
theorem C26_in_order (X : Xid) (cl cp : Bool) (code : Text) (f : File) (h : parseRustFile X cl cp code = .ok f) :
    f.whitespace.Pairwise (fun a b => a.extent.s < b.extent.s) ∧
    ∀ v ∈ subsL f.items, v.ws.Pairwise (fun a b => a.extent.s < b.extent.s) := by
  obtain ⟨ts, items, q, hp⟩ := parseRustFile_ok h (Ψ := fun _ _ _ _ _ _ => True) (fun _ _ => true_inductive)
  have hinc := trivia_increasing hp.lexed
  refine ⟨hinc.sublist hp.took.sub, ?_⟩
  intro v hv
  cases v with
  | node k e ws fs => exact hinc.sublist (hp.took.placed k e ws fs hv).1
  | _ => exact .nil

/-- Whitespace goes to the innermost node.  What is missing: the nodes below must be of a kind the apportioner has a method for
(`K.handled`), and not inside a field that visitors ignore. -/
theorem C25_innermost_partial (X : Xid) (cl cp : Bool) (code : Text) (f : File)
    (h : parseRustFile X cl cp code = .ok f) :
    (∀ k e ws fs, V.node k e ws fs ∈ subsL f.items → ∀ w ∈ ws, e.holds w ∧
      ∀ k' e' ws' fs', V.node k' e' ws' fs' ∈ reachedF k.fields fs → k'.handled = true → ¬ e'.holds w) ∧
    (∀ w ∈ f.whitespace, ∀ k e ws fs, V.node k e ws fs ∈ reachedL f.items → k.handled = true → ¬ e.holds w) := by
  obtain ⟨ts, items, q, hp⟩ := parseRustFile_ok h (Ψ := fun _ _ _ _ _ _ => True) (fun _ _ => true_inductive)
  refine ⟨?_, ?_⟩
  · intro k e ws fs hx w hw
    obtain ⟨-, h1, h2, -⟩ := hp.took.placed k e ws fs hx
    exact ⟨h1 w hw, fun k' e' ws' fs' hx' hk' => h2 k' e' ws' fs' hx' hk' w hw⟩
  · intro w hw k e ws fs hx hk
    exact hp.took.clear k e ws fs hx hk w hw

/-- The only kinds of nodes with a whitespace list that never get whitespace. -/
theorem C25_unhandled (k : K) : (k.hasWs = true ∧ k.handled = false) ↔
    k ∈ [K.GenericDeclarationConst, .TypeDynTrait, .AssociatedTypeValueEqual, .AssociatedTypeValueBound, .AsyncBlock,
      .AttributedGenericDeclarationConst] := by
  have h : K.all.all (fun k => decide ((k.hasWs = true ∧ k.handled = false) ↔
    k ∈ [K.GenericDeclarationConst, .TypeDynTrait, .AssociatedTypeValueEqual, .AssociatedTypeValueBound, .AsyncBlock,
      .AttributedGenericDeclarationConst])) = true := by decide +kernel
  exact of_decide_eq_true (List.all_eq_true.mp h k (K.mem_all k))

/-- Is there a node with whitespace in the extent of a node of kind `k0` below it that has a whitespace list? -/
def tooHigh (f : File) (k0 : K) : Bool :=
  (subsL f.items).any fun v =>
    match v with
    | .node _ _ ws fs => (subsL fs).any fun v' =>
      match v' with
      | .node k' e' _ _ => decide (k' = k0) && k'.hasWs && ws.any (fun w => decide (e'.s ≤ w.extent.s ∧ w.extent.s < e'.e))
      | _ => false
    | _ => false

/-- The innermost rule is broken for nodes the apportioner has no method for: the space in `dyn A` goes to the type around. -/
theorem C25_false_unhandled : ∃ f, parseRustFile asciiXid true true c!"fn f(x: dyn A) {}" = .ok f ∧
    tooHigh f .TypeDynTrait = true := FileResult.of_okWith (by decide +kernel)

/-- It is also broken for the path of a visibility qualifier, which visitors do not get to. -/
theorem C25_false_ignored : ∃ f, parseRustFile asciiXid true true c!"pub(a :: b) fn f() {}" = .ok f ∧
    tooHigh f .Path = true := FileResult.of_okWith (by decide +kernel)

example : ∃ f, parseRustFile asciiXid true true c!"fn f() { /* c */ }  " = .ok f ∧
    decide ((wsL f.items ++ f.whitespace).length = 6 ∧ f.whitespace = [.whitespace ⟨18, 20⟩]) = true :=
  FileResult.of_okWith (by decide +kernel)

/-! ## C27 -/

/-- No parser function changes the ambiguity mode, whether it succeeds or fails. -/
theorem C27_mode_restored (X : Xid) (cl : Bool) (code : Text) (ws : List Ws) (toks : List Token)
    (h : extractWhitespace X cl code = .ok ws toks) (nt : NT) (a : Amb) (p : Pt) (hp : CanResume toks p) (n : Nat) :
    (eval toks n nt a p).amb = a := by
  have hs := Src.of_extract h
  exact ((eval_known hs.eof (Φ := fun _ _ _ _ _ => True) true_inductive n).run nt a p (canResume_iff.mp hp)).1

/-! ## C36 -/

/-- A parse error is at the start of a token the parser sees, says what was expected, and is not before the start of the item
that failed; everything before that item was parsed as items. -/
theorem C36_error_location (X : Xid) (cl cp : Bool) (code : Text) (loc : Nat) (errs : List PErr)
    (h : parseRustFile X cl cp code = .parseErr loc errs) :
    errs ≠ [] ∧ ∃ ts, lex X cl code = .ok ts ∧
      (∃ t ∈ ts, isTrivia t = false ∧ t.extent.s = loc) ∧ loc ≤ blen code ∧ IsBoundary code loc ∧
      ∃ first t q e a l, (ts.filter (fun t => !isTrivia t))[first]? = some t ∧ t.extent.s ≤ loc ∧
        parseItem (ts.filter (fun t => !isTrivia t)) .Unambiguous ⟨first, none⟩ = ⟨.fail q e, a, l⟩ ∧
        ∃ es, ItemsOK (ts.filter (fun t => !isTrivia t)) 0 first es := by
  rcases parseRustFile_cases X cl cp code (Ψ := fun _ _ _ _ _ _ => True) (fun _ _ => true_inductive) with
    ⟨d, -, h'⟩ | ⟨ts, loc', errs', hl, hp, h'⟩ | ⟨f, ts, items, q, h', -, -⟩
  · rw [h] at h'; cases h'
  · rw [h] at h'; cases h'
    have hs := Src.of_extract (extract_ok hl)
    have h1 := parseTokens_ok (Φ := fun _ _ _ _ _ => True) hs.eof true_inductive cp
    rw [hp] at h1
    obtain ⟨h2, m, q, vs, t, h3, h4, h5, h6, rfl, h8, q', e, a', l, h9⟩ := h1
    obtain ⟨u, hu, -⟩ := h4
    have htm := List.mem_of_getElem? h6
    have hin := hs.inside t htm _ (extent_mem_allExtents t)
    refine ⟨h2, ts, hl, ⟨t, ?_⟩, ?_, hin.2.2.2.1, m.off, u, q', e, a', l, ?_, ?_, ?_, ?_⟩
    · rw [significant_eq, List.mem_filter] at htm
      exact ⟨htm.1, by simpa using htm.2, rfl⟩
    · exact hin.2.2.2.1.le
    · rw [← significant_eq]; exact hu
    · rcases Nat.lt_or_ge m.off q with h | h
      · have := hs.le_of_lt hu h6 h
        have := hs.self_le (List.mem_of_getElem? hu)
        omega
      · have : q = m.off := by omega
        subst this; rw [hu] at h6; cases h6; exact Nat.le_refl _
    · rw [← significant_eq]
      obtain ⟨off, sub⟩ := m
      dsimp only at h5; subst h5
      exact h9
    · obtain ⟨-, es, -, hok⟩ := items_ok hs h3
      rw [← significant_eq]
      exact ⟨es, hok⟩
  · rw [h] at h'; cases h'

/-- For the examples: the parse error. -/
def FileResult.errorAt : FileResult → Option Nat
  | .parseErr loc _ => some loc
  | _ => none

example : FileResult.errorAt (parseRustFile asciiXid true true c!"fn a() {} fn b() { 1 + ; }") = some 23 := by decide +kernel

/-! ## C37 -/

theorem Pt.lt_trichotomy (p q : Pt) : p.lt q ∨ p = q ∨ q.lt p := by
  obtain ⟨o, s⟩ := p
  obtain ⟨o', s'⟩ := q
  unfold Pt.lt
  rcases Nat.lt_trichotomy o o' with h | rfl | h
  · exact .inl (.inl h)
  · cases s <;> cases s' <;> simp [Pt.subw] <;> omega
  · exact .inr (.inr (.inl h))

theorem Pt.lt_irrefl (p : Pt) : ¬ p.lt p := by unfold Pt.lt; omega
theorem Pt.lt_trans {p q r : Pt} (h : p.lt q) (h' : q.lt r) : p.lt r := by unfold Pt.lt at *; omega
theorem Pt.not_lt_zero (p : Pt) : ¬ p.lt .zero := by simp [Pt.lt, Pt.zero, Pt.subw]

theorem addAll_append (f : PFailures) (l l' : Log) : f.addAll (l ++ l') = (f.addAll l).addAll l' := by
  induction l generalizing f with
  | nil => rfl
  | cons x l ih => simp [PFailures.addAll, ih]

/-- After any sequence of failures the position kept is the furthest, and the kinds kept are exactly those recorded at that
position, in order. -/
theorem C37_furthest_wins (l : Log) (hl : l ≠ []) :
    (PFailures.new.addAll l).point ∈ l.map (·.1) ∧
    (∀ x ∈ l, ¬ (PFailures.new.addAll l).point.lt x.1) ∧
    (PFailures.new.addAll l).kinds = (l.filter (fun x => x.1 = (PFailures.new.addAll l).point)).map (·.2) := by
  have key : ∀ l : Log, ((PFailures.new.addAll l).point ∈ l.map (·.1) ∨ (PFailures.new.addAll l).point = .zero) ∧
      (∀ x ∈ l, ¬ (PFailures.new.addAll l).point.lt x.1) ∧
      (PFailures.new.addAll l).kinds = (l.filter (fun x => x.1 = (PFailures.new.addAll l).point)).map (·.2) := by
    intro l
    rw [← List.reverse_reverse l]
    induction l.reverse with
    | nil => exact ⟨.inr rfl, by simp, rfl⟩
    | cons x m ih =>
      rw [List.reverse_cons, addAll_append]
      generalize hf : PFailures.new.addAll m.reverse = f at ih
      obtain ⟨p, e⟩ := x
      obtain ⟨h1, h2, h3⟩ := ih
      show _ ∧ _ ∧ _
      simp only [PFailures.addAll, PFailures.add]
      split
      · rename_i hlt
        refine ⟨h1.imp (fun h => by simp at h ⊢; exact .inl h) id, ?_, ?_⟩
        · intro x hx
          simp at hx
          rcases hx with hx | rfl
          · exact h2 x (by simpa using hx)
          · intro h; exact Pt.lt_irrefl _ (Pt.lt_trans h hlt)
        · rw [h3, List.filter_append, List.filter_cons_of_neg]
          · simp
          · simp only [decide_eq_true_eq]; rintro rfl; exact Pt.lt_irrefl _ hlt
      · rename_i hnlt
        split
        · rename_i hlt
          refine ⟨.inl (by simp), ?_, ?_⟩
          · intro x hx
            simp at hx
            rcases hx with hx | rfl
            · intro h; exact h2 x (by simpa using hx) (Pt.lt_trans hlt h)
            · exact Pt.lt_irrefl _
          · rw [List.filter_append]
            have : m.reverse.filter (fun x => x.1 = p) = [] := by
              rw [List.filter_eq_nil_iff]
              intro x hx h
              simp only [decide_eq_true_eq] at h
              exact h2 x hx (h ▸ hlt)
            rw [this]; simp
        · rename_i hnlt'
          have heq : p = f.point := by
            rcases Pt.lt_trichotomy p f.point with h | h | h
            · exact absurd h hnlt
            · exact h
            · exact absurd h hnlt'
          subst heq
          refine ⟨.inl (by simp), ?_, ?_⟩
          · intro x hx
            simp at hx
            rcases hx with hx | rfl
            · exact h2 x (by simpa using hx)
            · exact Pt.lt_irrefl _
          · rw [List.filter_append, h3]; simp
  obtain ⟨h1, h2, h3⟩ := key l
  refine ⟨?_, h2, h3⟩
  rcases h1 with h1 | h1
  · exact h1
  · cases l with
    | nil => exact absurd rfl hl
    | cons x l =>
      have := h2 x (by simp)
      rw [h1] at this ⊢
      rcases Pt.lt_trichotomy .zero x.1 with h | h | h
      · exact absurd h this
      · simp [← h]
      · exact absurd h (Pt.not_lt_zero _)

example : PFailures.new.addAll [(⟨1, none⟩, .ExpectedNumber), (⟨2, none⟩, .ExpectedExpression), (⟨2, none⟩, .ExpectedNumber),
    (⟨0, none⟩, .ExpectedNumber)] = ⟨⟨2, none⟩, [.ExpectedExpression, .ExpectedNumber]⟩ := by decide

end Verif.Props
