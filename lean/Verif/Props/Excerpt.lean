import Verif.Proofs.Excerpt
import Verif.Proofs.ExcerptLex
import Verif.Props.Join
import Verif.Props.Tree
import Verif.Spec.Excerpt
/-!
# Property theorems: a part of a program is a program (C62, C63)
-/

namespace Verif.Props
open Verif Verif.Spec

/-- All that is known of the text of some items. -/
theorem excerpt_facts (X : Xid) (hX : Sane X) (cl cl' cp cp' : Bool) (code : Text) (ts toks : List Token) (eof : Token) (f : File)
    (h : lex X cl code = .ok ts) (htoks : ts.filter (fun t => !isTrivia t) = toks ++ [eof]) (hb : Matched toks)
    (hok : parseRustFile X cl cp code = .ok f) (before items after : List V) (hitems : f.items = before ++ items ++ after)
    (k₁ k₂ : K) (e₁ e₂ : Extent) (ws₁ ws₂ : List Ws) (vs₁ vs₂ : List V)
    (hfirst : items.head? = some (.node k₁ e₁ ws₁ vs₁)) (hlast : items.getLast? = some (.node k₂ e₂ ws₂ vs₂)) :
    ∃ text ts' toks' eof' g, sliceText code ⟨e₁.s, e₂.e⟩ = some text ∧ lex X cl' text = .ok ts' ∧
      ts'.filter (fun t => !isTrivia t) = toks' ++ [eof'] ∧ Matched toks' ∧ parseRustFile X cl' cp' text = .ok g ∧
      moveds e₁.s (bareL g.items) = bareL items ∧ (Finished code ts → Finished text ts') ∧
      ∃ tb tm ta eof'' x u, ts = tb ++ (tm ++ ta) ∧ ts'.map (·.moved e₁.s) = tm ++ [eof''] ∧ eof''.isEOF = true ∧ tm.head? = some x ∧
        x.extent.s = e₁.s ∧ tm.getLast? = some u ∧ u.extent.e = e₂.e ∧ u.kind? ≠ some .EndOfFile := by
  rw [← significant_eq] at htoks
  have hs := (lex_spelled hX cl _ _).mp h
  -- the items are there
  obtain ⟨hp, he⟩ : parseTokens (toks ++ [eof]) cp = .ok (bareL f.items) ∧ EofLast (toks ++ [eof]) := by
    rcases file_outcome X cl cp code with ⟨d, hd, -⟩ | ⟨us, hl, ⟨loc, errs, -, hr⟩ | ⟨g, hp, hr⟩⟩
    · rw [h] at hd; cases hd
    · rw [hok] at hr; cases hr
    · rw [h] at hl; cases hl
      rw [hok] at hr; cases hr
      rw [htoks] at hp
      refine ⟨hp, ?_⟩
      have h1 : extractWhitespace X cl code = .ok (partitionTokens ts).1 (partitionTokens ts).2 := by simp [extractWhitespace, h]
      have := Src.of_extract h1
      rw [partitionTokens_snd] at this
      exact htoks ▸ this.eof
  obtain ⟨i, e, h3, h4, h5⟩ := he
  obtain ⟨rfl, h6⟩ := List.append_inj' h3 rfl
  cases h6
  have hrun := parseTokens_excerpt hb h4 h5 hp
  rw [hitems, bareL_append, bareL_append, List.append_assoc] at hrun
  obtain ⟨a, ha0, hr1, hr2⟩ := hrun.split rfl rfl
  obtain ⟨b, hb0, hr2, hr3⟩ := hr2.split rfl ha0
  have hab := hr2.le
  have hbl := hr3.le
  -- the first and the last token
  obtain ⟨x, hx, hxs⟩ : ∃ x, (toks ++ [eof])[a]? = some x ∧ e₁.s = x.extent.s := by
    cases items with
    | nil => cases hfirst
    | cons v vs =>
      simp at hfirst
      subst hfirst
      obtain ⟨k, e, ws, fs, t, h7, h8, h9⟩ := hr2.first (v := (V.node k₁ e₁ ws₁ vs₁).bare) (vs := bareL vs)
      simp [V.bare] at h7
      exact ⟨t, h8, by rw [h7.2.1]; exact h9⟩
  obtain ⟨m, u, k, rfl, hu, hue, huk, hum⟩ : ∃ m u k, b = m + 1 ∧ (toks ++ [eof])[m]? = some u ∧ e₂.e = u.extent.e ∧ u.kind? = some k ∧
      k ∈ itemLast := by
    obtain ⟨l, rfl⟩ := List.getLast?_eq_some_iff.mp hlast
    obtain ⟨k, e, ws, fs, m, t, k', h7, h8, h9, h10, h11, h12⟩ := hr2.last (v := (V.node k₂ e₂ ws₂ vs₂).bare)
      (by rw [bareL_append]; simp [bareL])
    simp [V.bare] at h7
    exact ⟨m, t, k', h8, h9, by rw [h7.2.1]; exact h10, h11, h12⟩
  have ham : a ≤ m := by
    cases items with
    | nil => cases hfirst
    | cons v vs =>
      cases hr2 with
      | cons _ h7 _ _ h8 => have := h8.le; omega
  rw [List.getElem?_append_left (by omega)] at hu hx
  -- the tokens in parts
  have hm := (List.getElem?_eq_some_iff.mp hu).1
  have e1 : toks = toks.take a ++ ((toks.drop a).take (m - a) ++ u :: toks.drop (m + 1)) := by
    have e2 : toks.drop a = (toks.drop a).take (m - a) ++ (toks.drop a).drop (m - a) := (List.take_append_drop ..).symm
    rw [List.drop_drop, show a + (m - a) = m by omega, List.drop_eq_getElem_cons hm, (List.getElem?_eq_some_iff.mp hu).2] at e2
    rw [← e2, List.take_append_drop]
  generalize hP : toks.take a = P at e1
  generalize hQ : (toks.drop a).take (m - a) = Q at e1
  generalize hR : toks.drop (m + 1) = R at e1
  have hPl : P.length = a := by rw [← hP, List.length_take]; omega
  have hQl : Q.length = m - a := by rw [← hQ, List.length_take, List.length_drop]; omega
  have hx' : (Q ++ [u]).head? = some x := by
    rw [e1, List.getElem?_append_right (by omega), hPl, Nat.sub_self] at hx
    cases Q with
    | nil => simpa using hx
    | cons y Q => simpa using hx
  have key : ∀ k ∈ itemLast, k ≠ .Period ∧ k ≠ .EndOfFile := by decide
  obtain ⟨pre, mid, post, ts', eof', rfl, h7, h8, h9, h10, h11, hsub, tb, tm, ta, h20, h21, h22, h23⟩ := spelled_excerpt hX (P := P) (Q := Q) (R := R ++ [eof]) hs
    (by rw [htoks, e1]; simp) hx' (by rw [huk]; exact fun h => (key k hum).1 (by simpa using h))
    (by rw [huk]; exact fun h => (key k hum).2 (by simpa using h))
  have hPQ : (P ++ (Q ++ [u])).length = m + 1 := by
    rw [List.length_append, List.length_append, hPl, hQl, List.length_singleton]; omega
  have hbQ : Matched (Q ++ [u]) := Matched.between (P := P) (R := R) (t := eof) hb (by rw [e1]; simp) (by rw [hPl]; exact ha0)
    (by rw [hPQ]; exact hb0)
  have h12 : parseTokens (Q ++ [u] ++ [eof']) cp' = .ok (bareL items) :=
    Runs.parseTokens (P := P) (R := R) h4 h11 h5 (by rw [e1]; simp) (by rw [hPQ, hPl]; exact hr2)
  rw [List.append_assoc, List.singleton_append, ← h10, Move.parseTokens_moved] at h12
  -- its brackets
  obtain ⟨toks', eof'', h14, h15⟩ : ∃ toks' eof'', significant ts' = toks' ++ [eof''] ∧ toks'.map (·.moved (blen pre)) = Q ++ [u] := by
    rw [show Q ++ u :: [eof'] = (Q ++ [u]) ++ [eof'] by simp] at h10
    obtain ⟨a1, a2, h16, h17, h18⟩ := List.map_eq_append_iff.mp h10
    obtain ⟨x', a3, rfl, h19, h20⟩ := List.map_eq_cons_iff.mp h18
    rw [List.map_eq_nil_iff.mp h20] at h16
    exact ⟨a1, x', h16, h17⟩
  have h16 : Matched toks' := by
    rw [← h15] at hbQ
    refine hbQ.sameKinds ?_
    clear h14 h15 hbQ
    induction toks' with
    | nil => exact .nil
    | cons t ts ih => exact .cons (by cases t <;> simp [SameKind, Token.moved, Number.moved]) ih
  refine ⟨mid, ts', toks', eof'', ?_⟩
  rw [hxs, hue, h7, h8, ← significant_eq]
  rcases file_outcome X cl' cp' mid with ⟨d, hd, -⟩ | ⟨us, hl, h13⟩
  · rw [(lex_spelled hX cl' _ _).mpr h9] at hd; cases hd
  · rw [(lex_spelled hX cl' _ _).mpr h9] at hl; cases hl
    rcases h13 with ⟨loc, errs, h13, -⟩ | ⟨g, h13, hr⟩
    · rw [h13] at h12; cases h12
    · rw [h13] at h12
      simp only [ParseResult.moved, ParseResult.ok.injEq] at h12
      refine ⟨g, sliceText_append pre mid post, (lex_spelled hX cl' _ _).mpr h9, h14, h16, hr, h12, fun hf => hf.part hX h9 hsub,
        tb, tm, ta, eof', x, u, h20, h21, h11, h22, h7, h23, h8,
        by rw [huk]; exact fun h => (key k hum).2 (by simpa using h)⟩

/-- Take the text of an accepted program whose brackets match, from the start of one of its items to the end of the same or a later one.
This text is a program too, and its items are these items, as far back as the text before them was long. -/
theorem C62_excerpt (X : Xid) (hX : Sane X) (cl cl' cp cp' : Bool) (code : Text) (ts toks : List Token) (eof : Token) (f : File)
    (h : lex X cl code = .ok ts) (htoks : ts.filter (fun t => !isTrivia t) = toks ++ [eof]) (hb : Matched toks)
    (hok : parseRustFile X cl cp code = .ok f) (before items after : List V) (hitems : f.items = before ++ items ++ after)
    (k₁ k₂ : K) (e₁ e₂ : Extent) (ws₁ ws₂ : List Ws) (vs₁ vs₂ : List V)
    (hfirst : items.head? = some (.node k₁ e₁ ws₁ vs₁)) (hlast : items.getLast? = some (.node k₂ e₂ ws₂ vs₂)) :
    ∃ text g, sliceText code ⟨e₁.s, e₂.e⟩ = some text ∧ parseRustFile X cl' cp' text = .ok g ∧
      moveds e₁.s (bareL g.items) = bareL items := by
  obtain ⟨text, ts', toks', eof', g, h1, -, -, -, h2, h3, -, -⟩ :=
    excerpt_facts X hX cl cl' cp cp' code ts toks eof f h htoks hb hok before items after hitems k₁ k₂ e₁ e₂ ws₁ ws₂ vs₁ vs₂ hfirst hlast
  exact ⟨text, g, h1, h2, h3⟩

/-- In particular: the text of any item of an accepted program whose brackets match is a program with just that item. -/
theorem C62_item (X : Xid) (hX : Sane X) (cl cl' cp cp' : Bool) (code : Text) (ts toks : List Token) (eof : Token) (f : File)
    (h : lex X cl code = .ok ts) (htoks : ts.filter (fun t => !isTrivia t) = toks ++ [eof]) (hb : Matched toks)
    (hok : parseRustFile X cl cp code = .ok f) (k : K) (e : Extent) (ws : List Ws) (vs : List V) (hv : .node k e ws vs ∈ f.items) :
    ∃ text g, sliceText code e = some text ∧ parseRustFile X cl' cp' text = .ok g ∧
      moveds e.s (bareL g.items) = [(V.node k e ws vs).bare] := by
  obtain ⟨before, after, hi⟩ := List.append_of_mem hv
  exact C62_excerpt X hX cl cl' cp cp' code ts toks eof f h htoks hb hok before [.node k e ws vs] after (by rw [hi]; simp) k k e e ws ws vs vs
    rfl rfl

/-- Every item says where it stands. -/
theorem items_are_nodes {X : Xid} {cl cp : Bool} {code : Text} {f : File} (hok : parseRustFile X cl cp code = .ok f) :
    ∀ v ∈ f.items, ∃ k e ws vs, v = .node k e ws vs := by
  intro v hv
  have := C44_conforms X cl cp code f hok v hv
  cases v with
  | node k e ws vs => exact ⟨k, e, ws, vs, rfl⟩
  | _ => simp [V.hasTy] at this

mutual
theorem moved_moved (a b : Nat) : ∀ v : V, moved a (moved b v) = moved (b + a) v
  | .ext e => by simp [moved, Extent.moved_add]
  | .bool _ => rfl
  | .list vs => by simp [moved, moveds_moveds a b vs]
  | .enm _ vs => by simp [moved, moveds_moveds a b vs]
  | .node k e ws vs => by
    have : ∀ w : Ws, (w.moved b).moved a = w.moved (b + a) := by intro w; cases w <;> simp [Ws.moved, Extent.moved_add]
    simp [moved, moveds_moveds a b vs, Extent.moved_add, this]
theorem moveds_moveds (a b : Nat) : ∀ vs : List V, moveds a (moveds b vs) = moveds (b + a) vs
  | [] => rfl
  | v :: vs => by simp [moveds, moved_moved a b v, moveds_moveds a b vs]
end

/-- The items of an accepted program whose brackets match and that leaves nothing open can be taken apart and put together anew: write the
texts of any of its items, in any order and as often as one likes, each on lines of its own.  This is a program whose items
are these items, each at another place. -/
theorem C63_rearrange (X : Xid) (hX : Sane X) (cl cl' cp cp' : Bool) (code : Text) (ts toks : List Token) (eof : Token) (f : File)
    (h : lex X cl code = .ok ts) (hf : Finished code ts) (htoks : ts.filter (fun t => !isTrivia t) = toks ++ [eof]) (hb : Matched toks)
    (hok : parseRustFile X cl cp code = .ok f) (items : List V) (hitems : ∀ v ∈ items, v ∈ f.items) :
    ∃ text g, OnLines code items text ∧ parseRustFile X cl' cp' text = .ok g ∧ g.items.length = items.length ∧
      ∀ (i : Nat) (v w : V), items[i]? = some v → g.items[i]? = some w → ∃ d d', moved d w.bare = moved d' v.bare := by
  induction items with
  | nil =>
    refine ⟨[], ?_⟩
    have h1 : lex X cl' [] = .ok [.plain .EndOfFile ⟨0, 0⟩] := (lex_spelled hX cl' _ _).mpr .done
    rcases file_outcome X cl' cp' [] with ⟨d, hd, -⟩ | ⟨us, hl, h2⟩
    · rw [h1] at hd; cases hd
    · rw [h1] at hl; cases hl
      have h3 : parseTokens (significant [.plain .EndOfFile ⟨0, 0⟩]) cp' = .ok [] := rfl
      rcases h2 with ⟨loc, errs, h2, -⟩ | ⟨g, h2, hr⟩
      · rw [h3] at h2; cases h2
      · rw [h3] at h2
        have : g.items.length = 0 := by rw [← bareL_length]; simp at h2; rw [h2]; rfl
        exact ⟨g, .nil, hr, this, fun i v w hv => by simp at hv⟩
  | cons v items ih =>
    obtain ⟨rest, g, h1, h2, h3, h4⟩ := ih (fun v hv => hitems v (by simp [hv]))
    have hv := hitems v (by simp)
    obtain ⟨k, e, ws, vs, rfl⟩ := items_are_nodes hok v hv
    obtain ⟨before, after, hi⟩ := List.append_of_mem hv
    obtain ⟨text, ts', toks', eof', g', h5, h6, h7, h8, h9, h10, h11, -⟩ :=
      excerpt_facts X hX cl cl' cp cp' code ts toks eof f h htoks hb hok before [.node k e ws vs] after (by rw [hi]; simp) k k e e ws ws vs vs
        rfl rfl
    have h12 := C61_join X hX cl' cp' cp' text rest ts' toks' eof' g' h6 (h11 hf) h7 h8 h9
    rw [h2] at h12
    generalize hx : parseRustFile X cl' cp' (text ++ '\n' :: rest) = x at h12
    cases x with
    | ok both =>
      have h12 : bareL both.items = bareL g'.items ++ moveds (blen text + 1) (bareL g.items) := h12
      -- the first item
      obtain ⟨w0, h13, h14⟩ : ∃ w0, bareL g'.items = [w0] ∧ moved e.s w0 = (V.node k e ws vs).bare := by
        rw [Move.moveds_map] at h10
        obtain ⟨w0, l, h13, h14, h15⟩ := List.map_eq_cons_iff.mp h10
        rw [List.map_eq_nil_iff.mp h15] at h13
        exact ⟨w0, h13, h14⟩
      have h15 : both.items.length = items.length + 1 := by
        rw [← bareL_length, h12, h13, Move.moveds_map, List.length_append, List.length_map, bareL_length, h3]
        simp; omega
      refine ⟨text ++ '\n' :: rest, both, .cons h5 h1, hx, by rw [h15]; rfl, ?_⟩
      intro i v w hv hw
      have h16 : (bareL both.items)[i]? = some w.bare := by rw [bareL_map, List.getElem?_map, hw]; rfl
      rw [h12, h13] at h16
      cases i with
      | zero =>
        simp at hv h16
        subst hv
        exact ⟨e.s + 1, 1, by rw [← h16, ← moved_moved, h14]⟩
      | succ i =>
        simp [Move.moveds_map, bareL_map] at hv h16
        obtain ⟨w', h17, h18⟩ := h16
        obtain ⟨d, d', h19⟩ := h4 i v w' hv h17
        exact ⟨d, d' + (blen text + 1), by rw [← h18, moved_moved, Nat.add_comm, ← moved_moved, h19, moved_moved]⟩
    | lexErr => exact h12.elim
    | parseErr => exact h12.elim
    | panic => exact h12.elim
    | hang => exact h12.elim

/-- The hypotheses of all three are met by a program of three items, with comments and a number that ends in a period. -/
example : ∃ ts toks eof f v₁ v₂ v₃, lex asciiXid true c!"// a\nuse b; #[c] fn f() -> u8 { [1., 2.5] } /* d */ struct S;" = .ok ts ∧
    Finished c!"// a\nuse b; #[c] fn f() -> u8 { [1., 2.5] } /* d */ struct S;" ts ∧
    ts.filter (fun t => !isTrivia t) = toks ++ [eof] ∧ Matched toks ∧
    parseRustFile asciiXid true true c!"// a\nuse b; #[c] fn f() -> u8 { [1., 2.5] } /* d */ struct S;" = .ok f ∧ f.items = [v₁, v₂, v₃] := by
  obtain ⟨ts, toks, eof, rest, h1, h2, h⟩ := of_cutAt (n := 23)
    (r := lex asciiXid true c!"// a\nuse b; #[c] fn f() -> u8 { [1., 2.5] } /* d */ struct S;")
    (p := fun ts toks _ rest => rest.isEmpty && closes [] toks &&
      finished c!"// a\nuse b; #[c] fn f() -> u8 { [1., 2.5] } /* d */ struct S;" ts) (by decide +kernel)
  simp only [Bool.and_eq_true, List.isEmpty_iff] at h
  obtain ⟨⟨rfl, h5⟩, h7⟩ := h
  obtain ⟨f, h8, h9⟩ := FileResult.of_itemCount (n := 3)
    (r := parseRustFile asciiXid true true c!"// a\nuse b; #[c] fn f() -> u8 { [1., 2.5] } /* d */ struct S;") (by decide +kernel)
  match hf : f.items, h9 with
  | [v₁, v₂, v₃], _ => exact ⟨ts, toks, eof, f, v₁, v₂, v₃, h1, Finished.of_finished h7, h2, Matched.of_closes h5, h8, hf⟩

end Verif.Props
