import Verif.Spec.Pieces
import Verif.Proofs.Snug
import Verif.Props.Excerpt
/-!
# C79: the items and the whitespace of a file make up its text
-/

namespace Verif.Props
open Verif Verif.Spec

/-- Extents in order that do not overlap, and leave nothing out, follow on each other. -/
theorem chain_of_cover {ys : List Extent} {a n : Nat} (han : a ≤ n) (hp : ys.Pairwise (fun x y => x.e ≤ y.s))
    (hne : ∀ x ∈ ys, a ≤ x.s ∧ x.s < x.e ∧ x.e ≤ n) (hc : ∀ b, a ≤ b → b < n → ∃ x ∈ ys, x.s ≤ b ∧ b < x.e) : Chain a ys n := by
  induction ys generalizing a with
  | nil =>
    rcases Nat.lt_or_ge a n with h | h
    · obtain ⟨x, hx, -⟩ := hc a (Nat.le_refl _) h
      cases hx
    · show a = n
      omega
  | cons x ys ih =>
    rw [List.pairwise_cons] at hp
    have h0 := hne x (by simp)
    have hxa : x.s = a := by
      obtain ⟨y, hy, h1, h2⟩ := hc a (Nat.le_refl _) (by omega)
      rcases List.mem_cons.mp hy with rfl | hy
      · omega
      · have := hp.1 y hy
        omega
    refine ⟨hxa, by omega, ih (by omega) hp.2 (fun y hy => ?_) fun b hb hbn => ?_⟩
    · have := hp.1 y hy
      have := hne y (by simp [hy])
      omega
    · obtain ⟨y, hy, h1, h2⟩ := hc b (by omega) hbn
      rcases List.mem_cons.mp hy with rfl | hy
      · omega
      · exact ⟨y, hy, h1, h2⟩

/-- Extents that do not overlap, and leave nothing out, make up the text. -/
theorem tile_of_cover {xs : List Extent} {n : Nat} (hp : xs.Pairwise (fun x y => x.e ≤ y.s ∨ y.e ≤ x.s))
    (hne : ∀ x ∈ xs, x.s < x.e ∧ x.e ≤ n) (hc : ∀ b, b < n → ∃ x ∈ xs, x.s ≤ b ∧ b < x.e) : Tile xs n := by
  let le : Extent → Extent → Bool := fun x y => decide (x.s ≤ y.s)
  have hperm : (xs.mergeSort le).Perm xs := List.mergeSort_perm xs le
  have hmem : ∀ x, x ∈ xs.mergeSort le ↔ x ∈ xs := fun x => hperm.mem_iff
  have hsort : (xs.mergeSort le).Pairwise (fun x y => le x y = true) :=
    List.pairwise_mergeSort (by intro a b c; simp [le]; omega) (by intro a b; simp [le]; omega) xs
  have hdis : (xs.mergeSort le).Pairwise (fun x y => x.e ≤ y.s ∨ y.e ≤ x.s) :=
    (hperm.pairwise_iff (fun h => h.symm)).mpr hp
  have hne' : ∀ x ∈ xs.mergeSort le, x.s < x.e ∧ x.e ≤ n := fun x hx => hne x ((hmem x).mp hx)
  refine ⟨xs.mergeSort le, hperm, chain_of_cover (Nat.zero_le _) ?_ (fun x hx => ⟨Nat.zero_le _, hne' x hx⟩) ?_, fun x hx => (hne' x hx).1⟩
  · refine List.Pairwise.imp_of_mem ?_ (hsort.and hdis)
    rintro x y hx hy ⟨h1, h2⟩
    have := hne' y hy
    simp [le] at h1
    omega
  · intro b _ hb
    obtain ⟨x, hx, h⟩ := hc b hb
    exact ⟨x, (hmem x).mpr hx, h⟩

/-- Different tokens do not overlap. -/
theorem tokens_apart {X : Xid} {cl : Bool} {code : Text} {ts : List Token} (h : lex X cl code = .ok ts) {t u : Token} (ht : t ∈ ts) (hu : u ∈ ts)
    (hne : t ≠ u) : t.extent.e ≤ u.extent.s ∨ u.extent.e ≤ t.extent.s := by
  obtain ⟨body, texts, hb, hch, -⟩ := C01_tokens_tile X cl code ts h
  have h1 : ts.Pairwise (fun t u => t.extent.e ≤ u.extent.s) := by
    rw [hb, List.pairwise_append]
    refine ⟨List.pairwise_map.mp (chain_pairwise hch).2.1, by simp, ?_⟩
    intro a ha b hb'
    simp at hb'; subst hb'
    exact ((chain_pairwise hch).2.2 a.extent (List.mem_map_of_mem ha)).2.2
  obtain ⟨i, hi, rfl⟩ := List.getElem_of_mem ht
  obtain ⟨j, hj, rfl⟩ := List.getElem_of_mem hu
  rcases Nat.lt_trichotomy i j with h2 | rfl | h2
  · exact .inl (List.pairwise_iff_getElem.mp h1 i j hi hj h2)
  · exact absurd rfl hne
  · exact .inr (List.pairwise_iff_getElem.mp h1 j i hj hi h2)

/-- A byte of the text is in one of the extents. -/
theorem chain_has {xs : List Extent} {a n : Nat} (h : Chain a xs n) (b : Nat) (ha : a ≤ b) (hb : b < n) : ∃ x ∈ xs, x.s ≤ b ∧ b < x.e := by
  induction xs generalizing a with
  | nil => have : a = n := h; omega
  | cons x xs ih =>
    obtain ⟨h1, h2, h3⟩ := h
    rcases Nat.lt_or_ge b x.e with h4 | h4
    · exact ⟨x, by simp, by omega, h4⟩
    · obtain ⟨y, hy, h⟩ := ih h3 h4
      exact ⟨y, by simp [hy], h⟩

theorem token_ordered {X : Xid} {cl : Bool} {code : Text} {ts : List Token} (h : lex X cl code = .ok ts) {t : Token} (ht : t ∈ ts) :
    t.extent.s ≤ t.extent.e ∧ t.extent.e ≤ blen code := by
  obtain ⟨body, texts, hb, hch, -⟩ := C01_tokens_tile X cl code ts h
  rw [hb] at ht
  rcases List.mem_append.mp ht with ht | ht
  · exact ((chain_pairwise hch).2.2 t.extent (List.mem_map_of_mem ht)).2
  · simp at ht
    subst ht
    exact ⟨Nat.le_refl _, Nat.le_refl _⟩

theorem token_nonempty {X : Xid} {cl : Bool} {code : Text} {ts : List Token} (h : lex X cl code = .ok ts) {t : Token} (ht : t ∈ ts)
    (hk : t.kind? ≠ some .EndOfFile) : t.extent.s < t.extent.e := by
  obtain ⟨body, texts, hb, -, hne, -⟩ := run_ok (LexInv.new code) rfl (lex_ok_calls h 1)
  rw [hb] at ht
  rcases List.mem_append.mp ht with ht | ht
  · exact hne t ht
  · simp at ht
    subst ht
    exact absurd rfl hk

theorem mem_wsL {vs : List V} {w : Ws} : w ∈ wsL vs ↔ ∃ x ∈ subsL vs, w ∈ x.ws := by
  unfold wsL
  rw [List.mem_flatMap]

theorem Ws.token_extent (w : Ws) : w.token.extent = w.extent := by cases w <;> rfl

theorem Ws.token_trivia (w : Ws) : isTrivia w.token = true := by cases w <;> rfl

theorem mem_reachedL {vs : List V} {v : V} (h : v ∈ vs) : ∀ x ∈ v.reached, x ∈ reachedL vs := by
  induction vs with
  | nil => cases h
  | cons y vs ih =>
    intro x hx
    simp only [reachedL, List.mem_append]
    rcases List.mem_cons.mp h with rfl | h
    · exact .inl hx
    · exact .inr (ih h x hx)

/-- A byte between the ends of a whole number of tokens is in a token between them. -/
theorem item_has_token {X : Xid} {cl : Bool} {code : Text} {ts : List Token} (h : lex X cl code = .ok ts) {t u w : Token} (ht : t ∈ ts) (hu : u ∈ ts)
    (hw : w ∈ ts) (hwt : w ≠ t) (hwu : w ≠ u) {b : Nat} (hb : w.extent.s ≤ b ∧ b < w.extent.e) (hin : t.extent.s ≤ b ∧ b < u.extent.e) :
    t.extent.s ≤ w.extent.s ∧ w.extent.e ≤ u.extent.e := by
  have h1 := token_ordered h ht
  have h2 := token_ordered h hu
  have h3 := tokens_apart h hw ht hwt
  have h4 := tokens_apart h hw hu hwu
  omega

theorem mem_bareL {vs : List V} {v : V} (h : v ∈ vs) : v.bare ∈ bareL vs := by
  induction vs with
  | nil => cases h
  | cons y vs ih =>
    rcases List.mem_cons.mp h with rfl | h
    · simp [bareL]
    · simp [bareL, ih h]

/-- The whitespace in an item lies in its extent, which is not empty. -/
theorem C79_inside (X : Xid) (cl cp : Bool) (code : Text) (f : File) (h : parseRustFile X cl cp code = .ok f) :
    ∀ v ∈ f.items, ∃ e, v.own = some e ∧ e.s < e.e ∧ ∀ w ∈ wsL [v], e.s ≤ w.extent.s ∧ w.extent.e ≤ e.e := by
  intro v hv
  obtain ⟨ts, items, q, hp⟩ := parseRustFile_ok h (Ψ := fun toks _ _ p q vs => Snug toks p q vs) (fun _ hs => snug_inductive hs)
  have hvb : v.bare ∈ items := by
    rw [← hp.bare]
    exact mem_bareL hv
  obtain ⟨e, he, h0, h1⟩ := item_snug hp.src hp.run _ hvb
  rw [own_bare] at he
  refine ⟨e, he, h0, fun w hw => ?_⟩
  obtain ⟨x, hx, hwx⟩ := mem_wsL.mp hw
  rw [subsL_single] at hx
  cases x with
  | node k e' ws fs =>
    have hxf : V.node k e' ws fs ∈ subsL f.items := mem_subsL.mpr ⟨v, hv, hx⟩
    have h2 := ((C25_innermost_partial X cl cp code f h).1 k e' ws fs hxf w hwx).1
    have h3 := h1 e' (List.mem_filterMap.mpr ⟨(V.node k e' ws fs).bare, by
      have := bareL_subs [v] _ (by rw [subsL_single]; exact hx)
      simpa [bareL] using this, rfl⟩)
    obtain ⟨ts', hl, hperm, -⟩ := C24_all_attached X cl cp code f h
    rw [hp.lexed] at hl
    cases hl
    have hwt : w.token ∈ ts := by
      have : w.token ∈ ts.filter isTrivia := hperm.mem_iff.mp (List.mem_map_of_mem (List.mem_append_left _ (mem_wsL.mpr ⟨_, hxf, hwx⟩)))
      exact (List.mem_filter.mp this).1
    obtain ⟨ts', es, hl, hown, -, htok, -⟩ := C23_items_cover X cl cp code f h
    rw [hp.lexed] at hl
    cases hl
    have hmem : e ∈ es := by
      have : some e ∈ es.map some := by rw [← hown, ← he]; exact List.mem_map_of_mem hv
      simpa using this
    obtain ⟨t, ht, u, hu, htt, hut, rfl⟩ := htok e hmem
    have hne : ∀ t, isTrivia t = false → w.token ≠ t := by
      rintro _ h1 rfl
      rw [Ws.token_trivia] at h1
      cases h1
    have hlt : w.extent.s < w.extent.e := by
      rw [← Ws.token_extent]
      exact token_nonempty hp.lexed hwt (by cases w <;> simp [Ws.token, Token.kind?])
    have h4 := h2.1
    have h5 := h2.2
    have := item_has_token hp.lexed ht hu hwt (hne t htt) (hne u hut) (b := w.extent.s) (by rw [Ws.token_extent]; omega) (by simp at h3; omega)
    rw [Ws.token_extent] at this
    exact this
  | _ => simp [V.ws] at hwx

/-- The items of an accepted program, with the whitespace in them, and the whitespace of the file make up the text: every byte is in exactly one
of them. -/
theorem C79_tiling (X : Xid) (cl cp : Bool) (code : Text) (f : File) (h : parseRustFile X cl cp code = .ok f) :
    Tile (pieces f) (blen code) := by
  obtain ⟨ts, es, hl, hown, hord, htok, hcov⟩ := C23_items_cover X cl cp code f h
  obtain ⟨ts', hl', hperm, hnodup⟩ := C24_all_attached X cl cp code f h
  rw [hl] at hl'
  cases hl'
  have hes : f.items.filterMap V.own = es := by
    have h1 : (f.items.map V.own).filterMap id = (es.map some).filterMap id := by rw [hown]
    simpa [List.filterMap_map] using h1
  have hws : ∀ w ∈ f.whitespace, w.token ∈ ts ∧ w.extent.s < w.extent.e := by
    intro w hw
    have h1 : w.token ∈ ts := by
      have : w.token ∈ ts.filter isTrivia := hperm.mem_iff.mp (List.mem_map_of_mem (List.mem_append_right _ hw))
      exact (List.mem_filter.mp this).1
    exact ⟨h1, by rw [← Ws.token_extent]; exact token_nonempty hl h1 (by cases w <;> simp [Ws.token, Token.kind?])⟩
  have hne : ∀ (w : Ws) t, isTrivia t = false → w.token ≠ t := by
    rintro w _ h1 rfl
    rw [Ws.token_trivia] at h1
    cases h1
  -- an item and whitespace of the file
  have hmix : ∀ e ∈ es, ∀ w ∈ f.whitespace, e.e ≤ w.extent.s ∨ w.extent.e ≤ e.s := by
    intro e he w hw
    have h1 : ∃ v ∈ f.items, v.own = some e := by
      have : some e ∈ f.items.map V.own := by rw [hown]; exact List.mem_map_of_mem he
      obtain ⟨v, hv, h⟩ := List.mem_map.mp this
      exact ⟨v, hv, h⟩
    obtain ⟨v, hv, hve⟩ := h1
    have hty := C44_conforms X cl cp code f h v hv
    obtain ⟨k, e', ws, vs, rfl⟩ := items_are_nodes h v hv
    cases hve
    have hk : k = .AttributedItem := by
      simp [V.hasTy] at hty
      exact hty.1
    subst hk
    have h2 := (C25_innermost_partial X cl cp code f h).2 w hw .AttributedItem e ws vs
      (mem_reachedL hv _ (by simp [V.reached])) (by decide)
    obtain ⟨t, ht, u, hu, htt, hut, rfl⟩ := htok e he
    have h3 := tokens_apart hl (hws w hw).1 ht (hne w t htt)
    have h4 := tokens_apart hl (hws w hw).1 hu (hne w u hut)
    have h5 := (hws w hw).2
    rw [Ws.token_extent] at h3 h4
    have h6 : ¬ (t.extent.s ≤ w.extent.s ∧ w.extent.s < u.extent.e) := h2
    have h7 := token_ordered hl ht
    have h8 := token_ordered hl hu
    simp only
    omega
  refine tile_of_cover ?_ ?_ ?_
  · unfold pieces
    rw [hes, List.pairwise_append]
    refine ⟨hord.imp .inl, ?_, ?_⟩
    · rw [List.pairwise_map]
      rw [List.map_append] at hnodup
      have h1 := (List.nodup_append.mp hnodup).2.1
      have h2 : f.whitespace.Pairwise (fun a b => a.token ≠ b.token) := List.pairwise_map.mp h1
      refine List.Pairwise.imp_of_mem ?_ h2
      intro a b ha hb hab
      have := tokens_apart hl (hws a ha).1 (hws b hb).1 hab
      rwa [Ws.token_extent, Ws.token_extent] at this
    · intro e he x hx
      obtain ⟨w, hw, rfl⟩ := List.mem_map.mp hx
      exact hmix e he w hw
  · intro x hx
    unfold pieces at hx
    rw [hes] at hx
    rcases List.mem_append.mp hx with hx | hx
    · rw [← hes] at hx
      obtain ⟨v, hv, hve⟩ := List.mem_filterMap.mp hx
      obtain ⟨e, he, h1, -⟩ := C79_inside X cl cp code f h v hv
      rw [hve] at he
      cases he
      rw [hes] at hx
      obtain ⟨t, ht, u, hu, htt, hut, rfl⟩ := htok x hx
      exact ⟨h1, (token_ordered hl hu).2⟩
    · obtain ⟨w, hw, rfl⟩ := List.mem_map.mp hx
      refine ⟨(hws w hw).2, ?_⟩
      rw [← Ws.token_extent]
      exact (token_ordered hl (hws w hw).1).2
  · intro b hb
    obtain ⟨body, texts, hbody, hch, -⟩ := C01_tokens_tile X cl code ts hl
    obtain ⟨x, hx, htb⟩ := chain_has hch b (Nat.zero_le _) hb
    obtain ⟨t, ht, rfl⟩ := List.mem_map.mp hx
    have htts : t ∈ ts := by rw [hbody]; simp [ht]
    unfold pieces
    rw [hes]
    cases htr : isTrivia t with
    | false =>
      obtain ⟨pre, e, post, rfl, h1, h2, -⟩ := hcov t htts htr (by
        intro hk
        obtain ⟨body', texts', hb', -, -, heof, -⟩ := run_ok (LexInv.new code) rfl (lex_ok_calls hl 1)
        have h1 : body = body' := List.append_cancel_right (hbody.symm.trans hb')
        subst h1
        have := heof t ht
        cases t with
        | number n => simp [Token.kind?] at hk
        | plain k x =>
          simp [Token.kind?] at hk
          subst hk
          cases this)
      exact ⟨e, by simp, by omega⟩
    | true =>
      have h1 : t ∈ (wsL f.items ++ f.whitespace).map Ws.token := hperm.mem_iff.mpr (List.mem_filter.mpr ⟨htts, htr⟩)
      obtain ⟨w, hw, rfl⟩ := List.mem_map.mp h1
      rw [Ws.token_extent] at htb
      rcases List.mem_append.mp hw with hw | hw
      · obtain ⟨x, hx, hwx⟩ := mem_wsL.mp hw
        obtain ⟨v, hv, hx⟩ := mem_subsL.mp hx
        obtain ⟨e, he, -, h2⟩ := C79_inside X cl cp code f h v hv
        have h3 := h2 w (mem_wsL.mpr ⟨x, by rw [subsL_single]; exact hx, hwx⟩)
        refine ⟨e, List.mem_append_left _ ?_, by omega⟩
        rw [← hes]
        exact List.mem_filterMap.mpr ⟨v, hv, he⟩
      · exact ⟨w.extent, List.mem_append_right _ (List.mem_map_of_mem hw), htb⟩

theorem chain_text {code p s : Text} {ys : List Extent} (hc : code = p ++ s) (h : Chain (blen p) ys (blen code))
    (hy : ∀ y ∈ ys, (sliceText code y).isSome = true) :
    ∃ texts : List Text, ys.map (sliceText code) = texts.map some ∧ texts.flatten = s := by
  induction ys generalizing p s with
  | nil =>
    have h1 : blen p = blen code := h
    rw [hc, blen_append] at h1
    refine ⟨[], rfl, ?_⟩
    cases s with
    | nil => rfl
    | cons c s =>
      have := blen_pos (t := c :: s) (by simp)
      omega
  | cons y ys ih =>
    obtain ⟨h1, h2, h3⟩ := h
    obtain ⟨m, hm⟩ := Option.isSome_iff_exists.mp (hy y (by simp))
    have hm' := hm
    unfold sliceText at hm
    rw [if_pos h2, h1, hc, splitAtByte_blen] at hm
    dsimp only at hm
    split at hm
    · rename_i m' r hr
      cases hm
      obtain ⟨h4, h5⟩ := splitAtByte_some hr
      obtain ⟨texts, h6, h7⟩ := ih (p := p ++ m) (s := r) (by rw [hc, h4]; simp) (by
        have : blen (p ++ m) = y.e := by rw [blen_append]; omega
        rw [this]; exact h3) (fun z hz => hy z (by simp [hz]))
      exact ⟨m :: texts, by simp [hm', h6], by simp [h7, h4]⟩
    · cases hm

/-- A token starts and ends between characters. -/
theorem token_boundary {X : Xid} {cl : Bool} {code : Text} {ts : List Token} (h : lex X cl code = .ok ts) {t : Token} (ht : t ∈ ts) :
    IsBoundary code t.extent.s ∧ IsBoundary code t.extent.e := by
  obtain ⟨body, texts, hb, -, hsl, -⟩ := C01_tokens_tile X cl code ts h
  rw [hb] at ht
  rcases List.mem_append.mp ht with ht | ht
  · have h1 : sliceText code t.extent ∈ texts.map some := by
      rw [← hsl]
      exact List.mem_map_of_mem (f := fun t => sliceText code t.extent) ht
    obtain ⟨x, -, hx⟩ := List.mem_map.mp h1
    exact ((sliceText_isSome code t.extent).mp (by rw [← hx]; rfl)).2
  · simp at ht
    subst ht
    exact ⟨⟨code, [], by simp, rfl⟩, ⟨code, [], by simp, rfl⟩⟩

/-- So the text can be put together from the texts of the items and of the whitespace of the file, each taken once. -/
theorem C79_text (X : Xid) (cl cp : Bool) (code : Text) (f : File) (h : parseRustFile X cl cp code = .ok f) :
    ∃ (ys : List Extent) (texts : List Text), ys.Perm (pieces f) ∧ ys.Pairwise (fun x y => x.e ≤ y.s) ∧
      ys.map (sliceText code) = texts.map some ∧ texts.flatten = code := by
  obtain ⟨ys, hperm, hch, hne⟩ := C79_tiling X cl cp code f h
  obtain ⟨texts, h1, h2⟩ := chain_text (p := []) (s := code) rfl hch (by
    intro y hy
    have hy' := hperm.mem_iff.mp hy
    have hb : IsBoundary code y.s ∧ IsBoundary code y.e := by
      unfold pieces at hy'
      rcases List.mem_append.mp hy' with hx | hx
      · obtain ⟨ts, es, hl, hown, -, htok, -⟩ := C23_items_cover X cl cp code f h
        obtain ⟨v, hv, hve⟩ := List.mem_filterMap.mp hx
        have hmem : y ∈ es := by
          have : some y ∈ es.map some := by rw [← hown, ← hve]; exact List.mem_map_of_mem hv
          simpa using this
        obtain ⟨t, ht, u, hu, -, -, rfl⟩ := htok y hmem
        exact ⟨(token_boundary hl ht).1, (token_boundary hl hu).2⟩
      · obtain ⟨w, hw, rfl⟩ := List.mem_map.mp hx
        obtain ⟨ts, hl, hp, -⟩ := C24_all_attached X cl cp code f h
        have : w.token ∈ ts.filter isTrivia := hp.mem_iff.mp (List.mem_map_of_mem (List.mem_append_right _ hw))
        rw [← Ws.token_extent]
        exact token_boundary hl (List.mem_filter.mp this).1
    exact (sliceText_isSome code y).mpr ⟨Nat.le_of_lt (hne y hy), hb⟩)
  exact ⟨ys, texts, hperm, (chain_pairwise hch).2.1, h1, h2⟩

/-- C79 for a program with comments between, before and in its items. -/
example : ∃ f, parseRustFile asciiXid true true c!" /*a*/fn f() { 1 } \n//b\n#[c] struct S<T: >; // d" = .ok f ∧
    decide (pieces f = [⟨6, 18⟩, ⟨24, 43⟩, ⟨0, 1⟩, ⟨1, 6⟩, ⟨18, 20⟩, ⟨20, 23⟩, ⟨23, 24⟩, ⟨43, 44⟩, ⟨44, 48⟩]) = true :=
  FileResult.of_okWith (by decide +kernel)

end Verif.Props
