import Verif.Proofs.Boundary
import Verif.Props.Comb
/-!
# Slicing the text with the extents of a tree

C19.
-/

namespace Verif.Props
open Verif.Spec

/-- No whitespace token contains a character of more than one byte.  (Comments may contain any characters.) -/
def AsciiWhitespace (code : Text) (ts : List Token) : Prop :=
  ∀ e body, Token.plain .Whitespace e ∈ ts → sliceText code e = some body → ∀ c ∈ body, c.utf8Size = 1

/-- A single-byte character at a byte is followed by a boundary. -/
theorem boundary_next {code pre post : Text} {c : Char} (h : code = pre ++ c :: post) (hc : c.utf8Size = 1) :
    IsBoundary code (blen pre + 1) := ⟨pre ++ [c], post, by simp [h], by simp [hc]⟩

theorem boundary_next2 {code pre post : Text} {c d : Char} (h : code = pre ++ c :: d :: post) (hc : c.utf8Size = 1)
    (hd : d.utf8Size = 1) : IsBoundary code (blen pre + 2) := ⟨pre ++ [c, d], post, by simp [h], by simp [hc, hd]⟩

/-- After the first byte of the token there is a boundary. -/
def One (code : Text) (t : Token) : Prop := IsBoundary code (t.extent.s + 1)

/-- After the first two bytes of the token there is a boundary, unless it has only one byte. -/
def Two (code : Text) (t : Token) : Prop := t.extent.e = t.extent.s + 1 ∨ IsBoundary code (t.extent.s + 2)

theorem comment_two {X cl code k e} (h : Yields X cl code (.plain k e)) (hk : k = .CommentLine ∨ k = .CommentBlock) :
    One code (.plain k e) ∧ Two code (.plain k e) := by
  have hk' : k ∈ commentKinds := by rcases hk with rfl | rfl <;> simp [commentKinds]
  obtain ⟨pre, body, post, hl, hc⟩ := C11_only_comments X cl code k e h hk'
  obtain ⟨h1, h2⟩ := hl
  have h3 : ∃ d rest, body ++ post = '/' :: d :: rest ∧ d.utf8Size = 1 := by
    unfold commentKind at hc
    split at hc
    · next h =>
      obtain ⟨rest, hr⟩ := List.isPrefixOf_iff_prefix.mp h
      exact ⟨'/', rest, hr.symm, by decide⟩
    · split at hc
      · next h =>
        obtain ⟨rest, hr⟩ := List.isPrefixOf_iff_prefix.mp h
        exact ⟨'*', rest, hr.symm, by decide⟩
      · cases hc
  obtain ⟨d, rest, h3, hd⟩ := h3
  rw [List.append_assoc, h3] at h1
  unfold One Two
  rw [h2]
  exact ⟨boundary_next h1 (by decide), .inr (boundary_next2 h1 (by decide) hd)⟩

theorem whitespace_two {X cl code e} (h : Yields X cl code (.plain .Whitespace e))
    (ha : ∀ body, sliceText code e = some body → ∀ c ∈ body, c.utf8Size = 1) :
    One code (.plain .Whitespace e) ∧ Two code (.plain .Whitespace e) := by
  obtain ⟨pre, body, post, l, ⟨h1, h2⟩, -, h3⟩ := h.located (by simp [Token.kind?])
  have hne : body ≠ [] := TokenShape.ne_nil h3
  have he : e = ⟨blen pre, blen pre + blen body⟩ := h2
  have hs : sliceText code e = some body := by
    rw [h1, he, List.append_assoc, sliceText_append]
  have hb := ha body hs
  unfold One Two
  rw [h2]
  match body, hne, hb with
  | [c], _, hb => exact ⟨boundary_next (post := post) (by simpa using h1) (hb c (by simp)), .inl (by simp [hb c (by simp)])⟩
  | c :: d :: body, _, hb =>
    exact ⟨boundary_next (post := d :: body ++ post) (by simpa using h1) (hb c (by simp)),
      .inr (boundary_next2 (post := body ++ post) (by simpa using h1) (hb c (by simp)) (hb d (by simp)))⟩

/-- Where a token is split, also when measured from the end of the token before it, there is a boundary. -/
def Gap (code : Text) (toks : List Token) : Prop :=
  ∀ i t u n, toks[i]? = some t → toks[i + 1]? = some u → (split u n).isSome → IsBoundary code (t.extent.e + n + 1)

theorem adjacent {α : Type} {p : α → Bool} {ts : List α} {i : Nat} {t u : α} (h : (ts.filter p)[i]? = some t)
    (h' : (ts.filter p)[i + 1]? = some u) : ∃ l1 l2, ts = l1 ++ t :: l2 ∧ l2.find? p = some u := by
  induction ts generalizing i with
  | nil => simp at h
  | cons x ts ih =>
    by_cases hx : p x = true
    · rw [List.filter_cons_of_pos hx] at h h'
      cases i with
      | zero =>
        simp at h; subst h
        refine ⟨[], ts, rfl, ?_⟩
        simpa [← List.head?_filter, List.head?_eq_getElem?] using h'
      | succ i =>
        obtain ⟨l1, l2, rfl, h2⟩ := ih (by simpa using h) (by simpa using h')
        exact ⟨x :: l1, l2, rfl, h2⟩
    · rw [List.filter_cons_of_neg hx] at h h'
      obtain ⟨l1, l2, rfl, h2⟩ := ih h h'
      exact ⟨x :: l1, l2, rfl, h2⟩

theorem chain_suffix {a z : Nat} {l1 l2 : List Extent} {x : Extent} (h : Chain a (l1 ++ x :: l2) z) : Chain x.e l2 z := by
  induction l1 generalizing a with
  | nil => exact h.2.2
  | cons y l1 ih => exact ih h.2.2

section
variable {code : Text}

theorem first_boundary {b z : Nat} {ts : List Token} {u : Token} (hc : Chain b (ts.map Token.extent) z)
    (h1 : ∀ t ∈ ts, t.trivia?.isSome → One code t) (hu : ts.find? (fun t => t.trivia?.isNone) = some u) (hw : One code u) :
    IsBoundary code (b + 1) := by
  cases ts with
  | nil => simp at hu
  | cons t ts =>
    obtain ⟨rfl, -, -⟩ := hc
    cases ht : t.trivia?.isNone with
    | true => simp [ht] at hu; subst hu; exact hw
    | false => exact h1 t (by simp) (by cases h : t.trivia? <;> simp_all)

theorem second_boundary {b z : Nat} {ts : List Token} {u : Token} (hc : Chain b (ts.map Token.extent) z)
    (h1 : ∀ t ∈ ts, t.trivia?.isSome → One code t ∧ Two code t) (hu : ts.find? (fun t => t.trivia?.isNone) = some u)
    (hw : One code u) (hw' : IsBoundary code (u.extent.s + 2)) : IsBoundary code (b + 2) := by
  cases ts with
  | nil => simp at hu
  | cons t ts =>
    obtain ⟨rfl, -, hc⟩ := hc
    cases ht : t.trivia?.isNone with
    | true => simp [ht] at hu; subst hu; exact hw'
    | false =>
      rcases (h1 t (by simp) (by cases h : t.trivia? <;> simp_all)).2 with h2 | h2
      · rw [h2] at hc
        exact first_boundary hc (fun t ht h => (h1 t (by simp [ht]) h).1) (by simpa [ht] using hu) hw
      · exact h2

end

theorem split_lt {t : Token} {n : Nat} (h : (split t n).isSome) : n = 0 ∨ n = 1 ∧ (split t 0).isSome := by
  unfold split at h
  split at h <;> first | (exact .inl rfl) | (exact .inr ⟨rfl, rfl⟩) | cases h

theorem gap_of_ascii {X : Xid} {cl : Bool} {code : Text} {ts : List Token} (h : lex X cl code = .ok ts)
    (ha : AsciiWhitespace code ts) : Gap code (significant ts) := by
  have hy : ∀ t ∈ ts, Yields X cl code t := fun t ht => yields_of_lex h ht
  have hs := Src.of_extract (extract_ok h)
  have htriv : ∀ t ∈ ts, t.trivia?.isSome → One code t ∧ Two code t := by
    intro t ht hv
    cases t with
    | number => simp [Token.trivia?] at hv
    | plain k e =>
      cases k <;> simp [Token.trivia?] at hv
      · exact whitespace_two (hy _ ht) (fun body hb => ha e body ht hb)
      · exact comment_two (hy _ ht) (by simp)
      · exact comment_two (hy _ ht) (by simp)
  obtain ⟨body, texts, hb, hch, -, -⟩ := C01_tokens_tile X cl code ts h
  have hch : Chain 0 (ts.map Token.extent) (blen code) := by
    rw [hb, List.map_append]
    clear hb
    generalize 0 = a at hch ⊢
    induction body generalizing a with
    | nil => simp only [List.map_nil, Chain] at hch; subst hch; simp [Chain, Token.extent]
    | cons x body ih => exact ⟨hch.1, hch.2.1, ih _ hch.2.2⟩
  intro i t u n ht hu hn
  have hu' := List.mem_of_getElem? hu
  have hw := hs.width u hu' n hn
  have hsig : significant ts = ts.filter (fun t => t.trivia?.isNone) := rfl
  rw [hsig] at ht hu
  obtain ⟨l1, l2, hl, hf⟩ := adjacent ht hu
  rw [hl, List.map_append, List.map_cons] at hch
  have hc := chain_suffix hch
  have hmem : ∀ x ∈ l2, x ∈ ts := fun x hx => by rw [hl]; simp [hx]
  rcases split_lt hn with rfl | ⟨rfl, h0⟩
  · exact first_boundary hc (fun t ht h => (htriv t (hmem t ht) h).1) hf hw.2
  · exact second_boundary hc (fun t ht h => htriv t (hmem t ht) h) hf (hs.width u hu' 0 h0).2 hw.2

section
variable {code : Text} {toks : List Token}

theorem pos_boundary (hs : Src code toks) {p : Pt} (hv : ValidPt toks p) : IsBoundary code (p.pos toks) := by
  obtain ⟨t, ht, hv⟩ := hv
  have h1 := hs.inside t (List.mem_of_getElem? ht) _ (extent_mem_allExtents t)
  rw [Pt.pos_eq ht]
  unfold Pt.subw
  split
  · exact h1.2.2.2.1
  · next n hn => exact (hs.width t (List.mem_of_getElem? ht) n (hv n hn)).2

theorem boundary_sound (hs : Src code toks) (hg : Gap code toks) :
    Sound toks (fun e => IsBoundary code e.s ∧ IsBoundary code e.e) := by
  have tokenEnds : ∀ t ∈ toks, IsBoundary code t.extent.s ∧ IsBoundary code t.extent.e := fun t ht =>
    (hs.inside t ht _ (extent_mem_allExtents t)).2.2.2
  constructor
  · intro p q k e hb h
    have h1 := (hs.tok_range hb h).1
    refine ⟨by rw [h1]; exact pos_boundary hs hb.1, ?_⟩
    cases h with
    | whole h2 h3 =>
      rename_i t
      have he : t.extent = e := by cases t <;> simp [convTK] at h3; exact h3.2
      unfold current at h2
      split at h2
      · cases h2
      · next o ho =>
        have := (tokenEnds o (List.mem_of_getElem? ho)).2
        split at h2
        · simp only [Option.map_eq_some_iff] at h2
          obtain ⟨⟨a, b⟩, h4, rfl⟩ := h2
          rw [← he, (split_exts h4).2.1]; exact this
        · cases h2; rw [← he]; exact this
    | part h0 h2 h3 h4 h5 =>
      rename_i o t h' r
      have he : h'.extent = e := by cases h' <;> simp [convTK] at h5; exact h5.2
      rw [← he, (split_exts h4).1]
      exact (hs.width o (List.mem_of_getElem? h0) _ (by simp [h4])).2
  · intro p q n hb h e he
    exact (hs.inside _ (List.mem_of_getElem? (hs.number_step h).1) e he).2.2.2
  · intro p q e hb he
    refine ⟨by rw [(hs.ex_range hb he).1]; exact pos_boundary hs hb.1, ?_⟩
    unfold ex at he
    split at he
    · cases he
    · next t ht =>
      dsimp only at he
      split at he
      · split at he
        · cases he
        · next u hu =>
          cases he
          dsimp only
          obtain ⟨w, hw, hv⟩ := hb.2.1
          unfold Pt.subw
          split
          · exact (tokenEnds u (List.mem_of_getElem? hu)).2
          · next n hn =>
            have h1 : q.off - 1 + 1 = q.off := by omega
            exact hg (q.off - 1) u w n hu (by rw [h1]; exact hw) (hv n hn)
      · next hlt =>
        split at he
        · next heq =>
          have hq := pos_boundary hs hb.2.1
          have hp := pos_boundary hs hb.1
          rw [Pt.pos_eq (by rw [← heq]; exact ht)] at hq
          rw [Pt.pos_eq ht] at hp
          split at he
          · cases he; exact hq
          · split at he
            · cases he; exact hp
            · cases he
        · cases he

end

/-- C19: if the whitespace of a text that is parsed is ASCII, then every extent in the tree can be used to slice the text, and so can
the extents of the whitespace and comments.  Missing from the full claim: other whitespace, see `C19_false`. -/
theorem C19_slices_partial (X : Xid) (cl cp : Bool) (code : Text) (f : File) (h : parseRustFile X cl cp code = .ok f)
    (ts : List Token) (hts : lex X cl code = .ok ts) (ha : AsciiWhitespace code ts) :
    (∀ e ∈ extsL f.items, (sliceText code e).isSome = true) ∧
    (∀ w ∈ wsL f.items ++ f.whitespace, (sliceText code w.extent).isSome = true) := by
  constructor
  · let Ψ : List Token → NT → Rel := fun toks _ _ _ _ vs =>
      Gap code toks → Each (fun e => IsBoundary code e.s ∧ IsBoundary code e.e) vs
    obtain ⟨ts', items, q, hp⟩ := parseRustFile_ok h (Ψ := Ψ) (by
      intro toks hs nt am p q vs hb hd hg
      refine denRule_each (boundary_sound hs hg) ?_ hs nt am p q vs hd
      exact fun _ _ _ _ _ h => h.2.2 hg)
    have : ts' = ts := by have := hp.lexed; rw [hts] at this; cases this; rfl
    subst this
    have hg := gap_of_ascii hts ha
    have h1 : Each (fun e => IsBoundary code e.s ∧ IsBoundary code e.e) items := by
      have hr := hp.run
      clear hp h
      induction hr with
      | nil => exact .nil
      | snoc _ _ _ h ih => exact ih.append (den_each (boundary_sound (Src.of_extract (extract_ok hts)) hg)
          (fun _ _ _ _ _ h => h.2.2.2.1 hg) itemG _ _ _ _ h)
    intro e he
    rw [extsL_bare hp.took.bare] at he
    have h2 := h1 e he
    exact (sliceText_isSome code e).mpr ⟨(hp.exts e he).1, h2.1, h2.2⟩
  · obtain ⟨ts', h1, h2, -⟩ := C24_all_attached X cl cp code f h
    rw [hts] at h1; cases h1
    intro w hw
    have h3 : w.token ∈ ts := (List.mem_filter.mp (h2.subset (List.mem_map_of_mem hw))).1
    have h4 := (C03_token_extents_slice X cl code _ (yields_of_lex hts h3) w.token.extent (extent_mem_allExtents _)).1
    cases w <;> exact h4

/-- Not so with other whitespace: the outer type arguments of `Vec<Vec<u8 >>`, where the space is U+200E, end inside the space. -/
theorem C19_false : ∃ f, parseRustFile asciiXid true true c!"fn f(a: Vec<Vec<u8\u200e>>) {}" = .ok f ∧
    (extsL f.items).any (fun e => !(sliceText c!"fn f(a: Vec<Vec<u8\u200e>>) {}" e).isSome) = true :=
  FileResult.of_okWith (by decide +kernel)

/-- `AsciiWhitespace`, decided. -/
def asciiWhitespace (code : Text) (ts : List Token) : Bool :=
  ts.all fun
    | .plain .Whitespace e => ((sliceText code e).getD []).all (fun c => c.utf8Size == 1)
    | _ => true

theorem asciiWhitespace_sound {code : Text} {ts : List Token} (h : asciiWhitespace code ts = true) : AsciiWhitespace code ts := by
  intro e body he hb c hc
  have := List.all_eq_true.mp h _ he
  simp only [hb, Option.getD_some] at this
  simpa using List.all_eq_true.mp this c hc

/-- A text with characters of several bytes in strings and comments, and with split tokens after whitespace. -/
def sampleText : Text := c!"fn f(a: V<V<u8 /*é*/ >>) { \"é\"; } // é"

/-- C19 applies to it. -/
example : (∃ f, parseRustFile asciiXid true true sampleText = .ok f ∧ decide (20 ≤ (extsL f.items).length) = true) ∧
    ∃ ts, lex asciiXid true sampleText = .ok ts ∧ AsciiWhitespace sampleText ts := by
  refine ⟨FileResult.of_okWith (by decide +kernel), ?_⟩
  have h : (match lex asciiXid true sampleText with
    | .ok ts => asciiWhitespace sampleText ts
    | _ => false) = true := by decide +kernel
  split at h
  · next ts hts => exact ⟨ts, hts, asciiWhitespace_sound h⟩
  · cases h

end Verif.Props
