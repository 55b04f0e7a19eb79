import Verif.Props.Lex
import Verif.Proofs.Terminate
/-!
# What is known of the tokens the parser gets
-/

namespace Verif
open Spec Props

/-- `toks` are the significant tokens of `code`. -/
structure Src (code : Text) (toks : List Token) : Prop where
  eof : EofLast toks
  eofAt : ∀ t ∈ toks, t.isEOF = true → t.extent = ⟨blen code, blen code⟩
  mono : toks.Pairwise (fun t u => t.extent.e ≤ u.extent.s)
  inside : ∀ t ∈ toks, ∀ x ∈ allExtents t, t.extent.s ≤ x.s ∧ x.s ≤ x.e ∧ x.e ≤ t.extent.e ∧
    IsBoundary code x.s ∧ IsBoundary code x.e
  nonempty : ∀ t ∈ toks, t.isEOF = false → t.extent.s < t.extent.e
  width : ∀ t ∈ toks, ∀ n, (split t n).isSome → t.extent.s + n + 1 < t.extent.e ∧ IsBoundary code (t.extent.s + n + 1)
  sig : ∀ t ∈ toks, t.trivia? = none

theorem extent_mem_allExtents (t : Token) : t.extent ∈ allExtents t := by
  cases t <;> simp [allExtents, Token.extent]

theorem chain_pairwise {a b : Nat} {xs : List Extent} (h : Chain a xs b) :
    a ≤ b ∧ xs.Pairwise (fun x y => x.e ≤ y.s) ∧ ∀ x ∈ xs, a ≤ x.s ∧ x.s ≤ x.e ∧ x.e ≤ b := by
  induction xs generalizing a with
  | nil => simp only [Chain] at h; subst h; simp
  | cons x xs ih =>
    obtain ⟨h1, h2, h3⟩ := h
    obtain ⟨i1, i2, i3⟩ := ih h3
    refine ⟨by omega, ?_, ?_⟩
    · rw [List.pairwise_cons]; exact ⟨fun y hy => (i3 y hy).1, i2⟩
    · intro y hy
      rcases List.mem_cons.mp hy with rfl | hy
      · omega
      · have := i3 y hy; omega

theorem partitionTokens_snd (ts : List Token) : (partitionTokens ts).2 = ts.filter (fun t => t.trivia?.isNone) := by
  induction ts with
  | nil => rfl
  | cons t ts ih =>
    unfold partitionTokens
    cases h : t.trivia? <;> simp [h, ih, List.filter_cons]

theorem partitionTokens_fst (ts : List Token) : (partitionTokens ts).1 = ts.filterMap Token.trivia? := by
  induction ts with
  | nil => rfl
  | cons t ts ih =>
    unfold partitionTokens
    cases h : t.trivia? <;> simp [h, ih, List.filterMap_cons]

theorem symbol_extent {X clear code k e w} (h : Yields X clear code (.plain k e)) (hk : symbolText k = some w) :
    ∃ pre post, code = pre ++ w ++ post ∧ e = ⟨blen pre, blen pre + blen w⟩ := by
  obtain ⟨pre, post, hl, -⟩ := C07_longest_symbol X clear code k e h w hk
  exact ⟨pre, post, hl.1, hl.2⟩

theorem cut {code pre w post : Text} {e : Extent} (hc : code = pre ++ w ++ post) (he : e = ⟨blen pre, blen pre + blen w⟩)
    (n : Nat) (h1 : blen (w.take (n + 1)) = n + 1) (h2 : 0 < blen (w.drop (n + 1))) :
    e.s + n + 1 < e.e ∧ IsBoundary code (e.s + n + 1) := by
  have h3 : blen w = blen (w.take (n + 1)) + blen (w.drop (n + 1)) := by rw [← blen_append, List.take_append_drop]
  subst he
  refine ⟨by simp only; omega, pre ++ w.take (n + 1), w.drop (n + 1) ++ post, ?_, ?_⟩
  · rw [hc, List.append_assoc pre, List.append_assoc pre, ← List.append_assoc (w.take _), List.take_append_drop]
  · simp only [blen_append]; omega

theorem split_width {X clear code t n} (h : Yields X clear code t) (hs : (split t n).isSome) :
    t.extent.s + n + 1 < t.extent.e ∧ IsBoundary code (t.extent.s + n + 1) := by
  unfold split at hs
  split at hs <;> first | simp at hs; done | skip
  all_goals
    obtain ⟨pre, post, hc, he⟩ := symbol_extent h rfl
    first
    | exact cut hc he 0 (by decide) (by decide)
    | exact cut hc he 1 (by decide) (by decide)

theorem allExtents_inside {X clear code t x} (h : Yields X clear code t) (hx : x ∈ allExtents t) :
    t.extent.s ≤ x.s ∧ x.s ≤ x.e ∧ x.e ≤ t.extent.e ∧ IsBoundary code x.s ∧ IsBoundary code x.e := by
  obtain ⟨-, h1, -, h2, h3⟩ := C03_token_extents_slice X clear code t h x hx
  cases t with
  | plain k e => simp [allExtents] at hx; subst hx; exact ⟨Nat.le_refl _, h1, Nat.le_refl _, h2, h3⟩
  | number n =>
    obtain ⟨-, -, -, -, -, -, -, -, -, -, -, h4, -⟩ := C12_number_parts X clear code n h
    rcases List.mem_cons.mp (by simpa [allExtents] using hx : x ∈ n.extent :: (n.integral ::
      (n.fractional.toList ++ (n.exponent.toList ++ n.type_suffix.toList)))) with rfl | hx
    · exact ⟨Nat.le_refl _, h1, Nat.le_refl _, h2, h3⟩
    · have := h4 x (by simpa using hx)
      exact ⟨this.1, this.2.1, this.2.2, h2, h3⟩

theorem Src.of_extract {X clear code ws toks} (h : extractWhitespace X clear code = .ok ws toks) : Src code toks := by
  unfold extractWhitespace at h
  split at h <;> cases h
  rename_i ts hts
  obtain ⟨body, texts, hb, hch, hne, heof, -, -⟩ := run_ok (LexInv.new code) rfl (lex_ok_calls hts 1)
  have hy : ∀ t ∈ ts, Yields X clear code t := fun t ht => yields_of_lex hts ht
  rw [partitionTokens_snd]
  have hmem : ∀ t ∈ ts.filter (fun t => t.trivia?.isNone), t ∈ ts := fun t ht => (List.mem_filter.mp ht).1
  have hch := chain_pairwise hch
  have hpw : ts.Pairwise (fun t u => t.extent.e ≤ u.extent.s) := by
    subst hb
    rw [List.pairwise_append]
    refine ⟨List.pairwise_map.mp hch.2.1, by simp, ?_⟩
    intro a ha b hb
    simp at hb; subst hb
    exact (hch.2.2 a.extent (List.mem_map_of_mem ha)).2.2
  constructor
  · subst hb
    refine ⟨body.filter (fun t => t.trivia?.isNone), .plain .EndOfFile ⟨blen code, blen code⟩, ?_, rfl, ?_⟩
    · rw [List.filter_append]; rfl
    · intro u hu; exact heof u (List.mem_filter.mp hu).1
  · intro t ht he
    have := hmem t ht
    subst hb
    rcases List.mem_append.mp this with h1 | h1
    · rw [heof t h1] at he; cases he
    · simp at h1; subst h1; rfl
  · exact hpw.filter _
  · intro t ht x hx; exact allExtents_inside (hy t (hmem t ht)) hx
  · intro t ht he
    have := hmem t ht
    subst hb
    rcases List.mem_append.mp this with h1 | h1
    · exact hne t h1
    · simp at h1; subst h1; cases he
  · intro t ht n hn; exact split_width (hy t (hmem t ht)) hn
  · intro t ht; simpa using (List.mem_filter.mp ht).2

end Verif
