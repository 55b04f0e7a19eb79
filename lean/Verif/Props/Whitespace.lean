import Verif.Proofs.WsPlace
import Verif.Props.Excerpt
/-!
# Property theorems: whitespace and comments stay where they are when a text is moved, joined or cut (C65)
-/

namespace Verif.Props
open Verif Verif.Spec

/-- The white space in front of a text, as it is recorded. -/
def frontWs (code : Text) : List Ws :=
  let l := code.takeWhile (fun c => decide (c ∈ wsChars))
  if l = [] then [] else [.whitespace ⟨0, blen l⟩]

theorem isWs_fun : (fun c => decide (c ∈ wsChars)) = isWs := by
  funext c
  cases h : isWs c with
  | true => simpa using (isWs_mem c).mp h
  | false => simpa using fun h' => by rw [(isWs_mem c).mpr h'] at h; cases h

theorem frontWs_eq (code : Text) : frontWs code = (leadTok 0 (code.takeWhile isWs)).filterMap Token.trivia? := by
  unfold frontWs leadTok
  rw [isWs_fun]
  dsimp only
  split <;> simp [Token.trivia?]

/-- The tokens behind the white space in front. -/
theorem front_tokens {X : Xid} (hX : Sane X) {code : Text} {f : File} {ts us : List Token} (h : Made X code f ts)
    (hu : Spelled X (0 + blen (code.takeWhile isWs)) us (code.dropWhile isWs)) (e : ts = leadTok 0 (code.takeWhile isWs) ++ us) :
    Between (bareL f.items) (blen (code.takeWhile isWs)) (blen code) ∧ ∃ m, apportionL (bareL f.items) (us.filterMap Token.trivia?) = some (f.items, m) ∧
      f.whitespace = frontWs code ++ m ∧ m.Sublist (us.filterMap Token.trivia?) := by
  have hb : Between (bareL f.items) (blen (code.takeWhile isWs)) (blen code) := by
    refine h.between _ _ fun t ht h1 _ => ?_
    rw [e] at ht
    rcases List.mem_append.mp ht with ht | ht
    · unfold leadTok at ht
      split at ht
      · cases ht
      · simp at ht; subst ht; cases h1
    · have h2 := (spelled_within hX hu t ht).1
      have h3 := (spelled_within hX h.spelled t (by rw [e]; simp [ht])).2.1
      omega
  refine ⟨hb, ?_⟩
  have hm : Misses (bareL f.items) (frontWs code) := by
    refine hb.misses fun w hw => .inl ?_
    unfold frontWs at hw
    rw [isWs_fun] at hw
    dsimp only at hw
    split at hw
    · cases hw
    · rename_i hl
      simp at hw; subst hw
      exact blen_pos hl
  obtain ⟨m, h1, h2, h3⟩ := h.inner (a := frontWs code) (m := us.filterMap Token.trivia?) (c := []) (by rw [e, frontWs_eq]; simp) hm
    (fun _ _ _ _ _ w hw => by cases hw)
  exact ⟨m, h1, by simpa using h2, h3⟩

/-- White space in front of an accepted text moves the whole tree, with all the whitespace and the comments recorded in it; what is
recorded in no struct is moved too, but for the white space in front itself. -/
theorem C65_indent (X : Xid) (hX : Sane X) (cl cp : Bool) (w code : Text) (hw : ∀ c ∈ w, c ∈ wsChars) (f f' : File)
    (h : parseRustFile X cl cp code = .ok f) (h' : parseRustFile X cl cp (w ++ code) = .ok f') :
    f'.items = moveds (blen w) f.items ∧ ∃ rest, f.whitespace = frontWs code ++ rest ∧
      f'.whitespace = frontWs (w ++ code) ++ rest.map (·.moved (blen w)) := by
  have hm := C60_indent X hX cl cp w code hw
  rw [h, h'] at hm
  have hm : bareL f'.items = moveds (blen w) (bareL f.items) := hm
  obtain ⟨ts, -, h1⟩ := made_of_ok hX h
  obtain ⟨ts', -, h1'⟩ := made_of_ok hX h'
  obtain ⟨us, h2, h3, h4⟩ := spelled_indent_all hX h1.spelled hw h1'.spelled
  obtain ⟨-, m, h5, h6, -⟩ := front_tokens hX h1 h2 h3
  obtain ⟨e1, e2⟩ := ws_takeWhile (s := code) hw
  have h2' := spelled_moved h2 (blen w)
  obtain ⟨-, m', h5', h6', -⟩ := front_tokens hX h1' (us := us.map (·.moved (blen w)))
    (by rw [e1, e2, blen_append, ← Nat.add_assoc, Nat.add_right_comm]; exact h2') (by rw [e1]; exact h4)
  have h7 := apportionL_moved (blen w) _ _ _ _ h5
  rw [trivias_moved, hm, h7] at h5'
  simp only [Option.some.injEq, Prod.mk.injEq] at h5'
  exact ⟨h5'.1.symm, m, h6, by rw [h6', h5'.2]⟩

/-- If a second accepted text stands on the line after a first one, whose brackets match and that leaves nothing open, all whitespace and all comments are
recorded as they are in the two texts; only the white space at the end of the first one, the new line, and the white space at the
front of the second one become one piece, which is recorded in no struct. -/
theorem C65_join (X : Xid) (hX : Sane X) (cl cp₁ cp : Bool) (code₁ code₂ : Text) (ts₁ toks : List Token) (eof : Token) (first second both : File)
    (h₁ : lex X cl code₁ = .ok ts₁) (hf : Finished code₁ ts₁) (htoks : ts₁.filter (fun t => !isTrivia t) = toks ++ [eof])
    (hb : Matched toks) (hok : parseRustFile X cl cp₁ code₁ = .ok first) (hok₂ : parseRustFile X cl cp code₂ = .ok second)
    (hboth : parseRustFile X cl cp (code₁ ++ '\n' :: code₂) = .ok both) :
    both.items = first.items ++ moveds (blen code₁ + 1) second.items ∧
    ∃ rest₁ rest₂ back a, first.whitespace = rest₁ ++ back ∧ (back = [] ∧ a = blen code₁ ∨ back = [.whitespace ⟨a, blen code₁⟩]) ∧
      second.whitespace = frontWs code₂ ++ rest₂ ∧
      both.whitespace = rest₁ ++ .whitespace ⟨a, blen code₁ + 1 + blen (code₂.takeWhile (fun c => decide (c ∈ wsChars)))⟩ ::
        rest₂.map (·.moved (blen code₁ + 1)) := by
  have hj := C61_join X hX cl cp₁ cp code₁ code₂ ts₁ toks eof first h₁ hf htoks hb hok
  rw [hok₂, hboth] at hj
  have hj : bareL both.items = bareL first.items ++ moveds (blen code₁ + 1) (bareL second.items) := hj
  obtain ⟨ts, hl, m₁⟩ := made_of_ok hX hok
  rw [h₁] at hl; cases hl
  obtain ⟨ts₂, -, m₂⟩ := made_of_ok hX hok₂
  obtain ⟨ts', -, mb⟩ := made_of_ok hX hboth
  -- the second text
  obtain ⟨us, hu, e₂⟩ := spelled_behind_all hX m₂.spelled
  obtain ⟨hb₂, r₂, h3, h4, h5⟩ := front_tokens hX m₂ hu e₂
  rw [Nat.zero_add] at hu
  generalize hl2 : blen (code₂.takeWhile isWs) = L at *
  -- the new line
  have hu' := spelled_moved hu (blen code₁ + 1)
  have h6 := ws_spelling X (blen code₁) (w := c!"\n") code₂ (by simp) (by decide)
  have h7 : Spelled X (blen code₁) (.plain .Whitespace ⟨blen code₁, blen code₁ + 1 + L⟩ :: us.map (·.moved (blen code₁ + 1))) ('\n' :: code₂) := by
    have e1 : blen (c!"\n" ++ code₂.takeWhile isWs) = 1 + L := by rw [blen_append, hl2]; rfl
    have := Spelled.token h6 (ts := us.map (·.moved (blen code₁ + 1))) (by rw [e1, show blen code₁ + (1 + L) = L + (blen code₁ + 1) by omega]; exact hu')
    rw [e1, List.append_assoc, ← takeWhile_split, ← Nat.add_assoc] at this
    exact this
  -- the first text
  obtain ⟨A, tr, a, h8, h9, h10⟩ := spelled_join_all hX hf m₁.spelled [] rfl rfl (fun _ h => h) (by simpa using h7)
  rw [Nat.zero_add] at h8 h9
  have ha : a ≤ blen code₁ := by
    rcases h9 with ⟨-, rfl⟩ | rfl
    · exact Nat.le_refl _
    · have := (spelled_within hX m₁.spelled (.plain .Whitespace ⟨a, blen code₁⟩) (by rw [h8]; simp)).2.2 (by simp [Token.kind?])
      simp [Token.extent] at this
      omega
  obtain ⟨h11, h12⟩ := spelled_order hX h10
  have hb₁ : Between (bareL first.items) 0 a := by
    refine m₁.between _ _ fun t ht h1 h2 => ⟨Nat.zero_le _, ?_⟩
    rw [h8] at ht
    rcases List.mem_append.mp ht with ht | ht
    · exact h11 t ht
    · rcases List.mem_append.mp ht with ht | ht
      · rcases h9 with ⟨rfl, -⟩ | rfl
        · cases ht
        · simp at ht; subst ht; cases h1
      · simp at ht; subst ht; cases h2
  have htr : Misses (bareL first.items) (tr.filterMap Token.trivia?) := by
    refine hb₁.misses fun w hw => .inr ?_
    rcases h9 with ⟨rfl, -⟩ | rfl
    · cases hw
    · simp [Token.trivia?] at hw; subst hw; exact Nat.le_refl _
  obtain ⟨r₁, h13, h14, h15⟩ := m₁.inner (a := []) (m := A.filterMap Token.trivia?) (c := tr.filterMap Token.trivia?)
    (by rw [h8]; simp [Token.trivia?]) (fun _ _ _ _ _ w hw => by cases hw) htr
  -- both
  have e3 := spelled_unique hX h10 mb.spelled
  have hkeys : ∀ w ∈ (us.filterMap Token.trivia?).map (·.moved (blen code₁ + 1)), a ≤ w.extent.s := by
    intro w hw
    obtain ⟨w, hw, rfl⟩ := List.mem_map.mp hw
    simp [Extent.moved]; omega
  have h16 := apportionL_frame (a := []) (c := .whitespace ⟨a, blen code₁ + 1 + L⟩ :: (us.filterMap Token.trivia?).map (·.moved (blen code₁ + 1))) _ _ _ _ h13
    (fun _ _ _ _ _ w hw => by cases hw)
    (hb₁.misses fun w hw => .inr (by
      rcases List.mem_cons.mp hw with rfl | hw
      · exact Nat.le_refl _
      · exact hkeys w hw))
  have h17 := apportionL_moved (blen code₁ + 1) _ _ _ _ h3
  have h18 := apportionL_frame (a := r₁ ++ [.whitespace ⟨a, blen code₁ + 1 + L⟩]) (c := []) _ _ _ _ h17
    ((hb₂.moved (blen code₁ + 1)).misses fun w hw => .inl (by
      rcases List.mem_append.mp hw with hw | hw
      · obtain ⟨t, ht, hw⟩ := List.mem_filterMap.mp (h15.subset hw)
        have h19 := h11 t ht
        have h20 := (Token.trivia_extent hw).1
        have h21 := (spelled_within hX m₁.spelled t (by rw [h8]; simp [ht])).2.2 (Token.trivia_extent hw).2
        have h22 : t.extent.e ≤ a := h19
        rw [h20]; omega
      · simp at hw; subst hw
        show a < _
        omega))
    (fun _ _ _ _ _ w hw => by cases hw)
  have h23 : apportionL (moveds (blen code₁ + 1) (bareL second.items)) ([] ++ r₁ ++ .whitespace ⟨a, blen code₁ + 1 + L⟩ :: (us.filterMap Token.trivia?).map (·.moved (blen code₁ + 1))) =
      some (moveds (blen code₁ + 1) second.items, r₁ ++ [.whitespace ⟨a, blen code₁ + 1 + L⟩] ++ r₂.map (·.moved (blen code₁ + 1)) ++ []) := by
    rw [← h18]; simp
  have h24 := apportionL_seq h16 h23
  have h25 := mb.whole
  rw [hj, e3, List.filterMap_append, List.filterMap_cons, trivias_moved] at h25
  simp only [Token.trivia?] at h25
  rw [List.nil_append, h25] at h24
  simp only [Option.some.injEq, Prod.mk.injEq] at h24
  refine ⟨h24.1, r₁, r₂, tr.filterMap Token.trivia?, a, by simpa using h14, ?_, h4, ?_⟩
  · rcases h9 with ⟨rfl, h⟩ | rfl
    · exact .inl ⟨rfl, h⟩
    · exact .inr (by simp [Token.trivia?])
  · rw [h24.2, isWs_fun, hl2]; simp

theorem sliceText_blen {code text : Text} {x : Extent} (h : sliceText code x = some text) : x.s + blen text = x.e := by
  unfold sliceText at h
  split at h
  · split at h
    · split at h
      · rename_i h1 _ _ _ _ _ h2
        cases h
        have := (splitAtByte_some h2).2
        omega
      · cases h
    · cases h
  · cases h

theorem items_apart {X : Xid} {cl cp : Bool} {code : Text} {f : File} (hok : parseRustFile X cl cp code = .ok f) :
    f.items.Pairwise (fun v w => ∀ e e', v.own = some e → w.own = some e' → e.e ≤ e'.s) := by
  obtain ⟨ts, es, -, h1, h2, -⟩ := C23_items_cover X cl cp code f hok
  have h3 : (f.items.map V.own).Pairwise (fun a b => ∀ e e', a = some e → b = some e' → e.e ≤ e'.s) := by
    rw [h1, List.pairwise_map]
    exact h2.imp fun h e e' h1 h2 => by cases h1; cases h2; exact h
  exact List.pairwise_map.mp h3

/-- The structs of some items lie between the start of the first and the end of the last one. -/
theorem part_between (X : Xid) (hX : Sane X) (cl cp : Bool) (code : Text) (ts toks : List Token) (eof : Token) (f : File)
    (h : lex X cl code = .ok ts) (htoks : ts.filter (fun t => !isTrivia t) = toks ++ [eof]) (hb : Matched toks)
    (hok : parseRustFile X cl cp code = .ok f) (before items after : List V) (hitems : f.items = before ++ items ++ after)
    (k₁ k₂ : K) (e₁ e₂ : Extent) (ws₁ ws₂ : List Ws) (vs₁ vs₂ : List V)
    (hfirst : items.head? = some (.node k₁ e₁ ws₁ vs₁)) (hlast : items.getLast? = some (.node k₂ e₂ ws₂ vs₂)) :
    Between (bareL items) e₁.s e₂.e := by
  obtain ⟨text, ts', toks', eof', g, h1, -, -, -, h2, h3, -⟩ :=
    excerpt_facts X hX cl cl cp cp code ts toks eof f h htoks hb hok before items after hitems k₁ k₂ e₁ e₂ ws₁ ws₂ vs₁ vs₂ hfirst hlast
  obtain ⟨ts'', -, h4⟩ := made_of_ok hX h2
  have h5 := (h4.between 0 (blen text) fun t ht _ _ => ⟨Nat.zero_le _, by have := (spelled_within hX h4.spelled t ht).2.1; omega⟩).moved e₁.s
  rw [h3] at h5
  have := sliceText_blen h1
  exact h5.mono (by omega) (by simp at this; omega)

/-- The whitespace of these items. -/
theorem segment_whitespace {X : Xid} (hX : Sane X) {code text : Text} {f g : File} {ts ts' : List Token} (mf : Made X code f ts) (mg : Made X text g ts')
    {before items after : List V} (hitems : f.items = before ++ items ++ after) {tb tm ta : List Token} {eof'' : Token} {o : Nat}
    (h4 : ts = tb ++ (tm ++ ta)) (h5 : ts'.map (·.moved o) = tm ++ [eof'']) (h6 : eof''.isEOF = true)
    (h3 : moveds o (bareL g.items) = bareL items)
    (hlo : ∀ t, (tm ++ ta).head? = some t → t.extent.s = o) (hhi : ∀ t, ta.head? = some t → t.extent.s = o + blen text) (hta : ta ≠ [])
    (hbb : Between (bareL before) 0 o) {hi : Nat} (hba : Between (bareL after) (o + blen text) hi) :
    moveds o g.items = items ∧
    g.whitespace.map (·.moved o) = f.whitespace.filter (fun w => decide (o ≤ w.extent.s ∧ w.extent.s < o + blen text)) := by
  have hbm : Between (bareL items) o (o + blen text) := by
    have := (mg.between 0 (blen text) fun t ht _ _ => ⟨Nat.zero_le _, by have := (spelled_within hX mg.spelled t ht).2.1; omega⟩).moved o
    rw [h3] at this
    exact this.mono (by omega) (by omega)
  -- where the tokens are
  have hB : ∀ w ∈ tb.filterMap Token.trivia?, w.extent.s < o := by
    intro w hw
    obtain ⟨t, ht, hw⟩ := List.mem_filterMap.mp hw
    obtain ⟨h7, h8⟩ := Token.trivia_extent hw
    obtain ⟨y, S, hyS⟩ : ∃ y S, tm ++ ta = y :: S := List.exists_cons_of_ne_nil (by simp [hta])
    have h9 := (spelled_order hX (A := tb) (t := y) (B := S) (by have := mf.spelled; rw [h4, hyS] at this; exact this)).1 t ht
    have h10 := (spelled_within hX mf.spelled t (by rw [h4]; simp [ht])).2.2 h8
    rw [hlo y (by rw [hyS]; rfl)] at h9
    rw [h7]; omega
  have hA : ∀ w ∈ ta.filterMap Token.trivia?, o + blen text ≤ w.extent.s := by
    intro w hw
    obtain ⟨t, ht, hw⟩ := List.mem_filterMap.mp hw
    obtain ⟨h7, h8⟩ := Token.trivia_extent hw
    obtain ⟨y, S, rfl⟩ := List.exists_cons_of_ne_nil hta
    have h9 := spelled_order hX (A := tb ++ tm) (t := y) (B := S) (by have := mf.spelled; rw [h4] at this; simpa using this)
    have h10 := hhi y rfl
    have h11 := spelled_le hX mf.spelled y (by rw [h4]; simp)
    rw [h7]
    rcases List.mem_cons.mp ht with rfl | ht
    · omega
    · have := h9.2 t ht
      omega
  have e3 : (ts'.filterMap Token.trivia?).map (·.moved o) = tm.filterMap Token.trivia? := by
    rw [← trivias_moved, h5, List.filterMap_append]
    have : eof''.trivia? = none := by
      have := isEOF_kind h6
      cases eof'' with
      | number => rfl
      | plain k e => simp [Token.kind?] at this; subst this; rfl
    simp [this]
  have hM : ∀ w ∈ tm.filterMap Token.trivia?, o ≤ w.extent.s ∧ w.extent.s < o + blen text := by
    intro w hw
    rw [← e3] at hw
    obtain ⟨w, hw', rfl⟩ := List.mem_map.mp hw
    have := spelled_trivia hX mg.spelled w hw'
    simp [Extent.moved]; omega
  -- the three parts
  have hord := mf.ordered
  have hno := mf.noWs
  rw [hitems, bareL_append, bareL_append, List.append_assoc] at hord hno
  obtain ⟨⟨Xb, rb⟩, h7⟩ := apportionL_some (bareL before) (tb.filterMap Token.trivia?) (fun k e ws fs hx => hord k e ws fs (by simp [subsL_append, hx]))
  obtain ⟨⟨Xa, ra⟩, h8⟩ := apportionL_some (bareL after) (ta.filterMap Token.trivia?) (fun k e ws fs hx => hord k e ws fs (by simp [subsL_append, hx]))
  have tkb := apportionL_took _ _ _ _ h7 (fun k e ws fs hx => hno k e ws fs (by simp [subsL_append, hx]))
  have tka := apportionL_took _ _ _ _ h8 (fun k e ws fs hx => hno k e ws fs (by simp [subsL_append, hx]))
  have h9 := apportionL_moved o _ _ _ _ mg.whole
  rw [h3, e3] at h9
  have tkm := apportionL_took _ _ _ _ h9 (fun k e ws fs hx => hno k e ws fs (by simp [subsL_append, hx]))
  have hrb : ∀ w ∈ rb, w.extent.s < o := fun w hw => hB w (tkb.sub.subset hw)
  have hra : ∀ w ∈ ra, o + blen text ≤ w.extent.s := fun w hw => hA w (tka.sub.subset hw)
  have hrm : ∀ w ∈ g.whitespace.map (·.moved o), o ≤ w.extent.s ∧ w.extent.s < o + blen text := fun w hw => hM w (tkm.sub.subset hw)
  have h10 := apportionL_frame (a := []) (c := tm.filterMap Token.trivia? ++ ta.filterMap Token.trivia?) _ _ _ _ h7
    (fun _ _ _ _ _ w hw => by cases hw) (hbb.misses fun w hw => .inr (by
      rcases List.mem_append.mp hw with hw | hw
      · exact (hM w hw).1
      · have := hA w hw; omega))
  have h11 := apportionL_frame (a := rb) (c := ta.filterMap Token.trivia?) _ _ _ _ h9 (hbm.misses fun w hw => .inl (hrb w hw))
    (hbm.misses fun w hw => .inr (hA w hw))
  have h12 := apportionL_frame (a := rb ++ g.whitespace.map (·.moved o)) (c := []) _ _ _ _ h8
    (hba.misses fun w hw => .inl (by
      rcases List.mem_append.mp hw with hw | hw
      · have := hrb w hw; omega
      · exact (hrm w hw).2))
    (fun _ _ _ _ _ w hw => by cases hw)
  rw [List.append_nil] at h12
  have h13 := apportionL_seq h11 h12
  have h14 := apportionL_seq h10 (by rw [List.nil_append, ← List.append_assoc]; exact h13)
  have h15 := mf.whole
  rw [hitems, bareL_append, bareL_append, List.append_assoc, h4, List.filterMap_append, List.filterMap_append] at h15
  rw [List.nil_append, h15] at h14
  simp only [Option.some.injEq, Prod.mk.injEq] at h14
  obtain ⟨h14, h16⟩ := h14
  rw [List.append_assoc] at h14
  have l1 : before.length = Xb.length := by
    have := congrArg List.length tkb.bare
    simpa [bareL_length] using this.symm
  have l2 : items.length = (moveds o g.items).length := by
    have := congrArg List.length h3
    rw [Move.moveds_map, List.length_map, bareL_length, bareL_length] at this
    rw [Move.moveds_map, List.length_map, this]
  obtain ⟨-, h14⟩ := List.append_inj h14 l1
  obtain ⟨h14, -⟩ := List.append_inj h14 l2
  refine ⟨h14.symm, ?_⟩
  rw [h16, List.append_nil, List.filter_append, List.filter_append,
    List.filter_eq_nil_iff.mpr (fun w hw => by have := hrb w hw; simp; omega),
    List.filter_eq_self.mpr (fun w hw => by have := hrm w hw; simpa using this),
    List.filter_eq_nil_iff.mpr (fun w hw => by have := hra w hw; simp; omega)]
  simp

/-- All that is known of the text of some items, with the whitespace. -/
theorem excerpt_whitespace (X : Xid) (hX : Sane X) (cl cl' cp cp' : Bool) (code : Text) (ts toks : List Token) (eof : Token) (f : File)
    (h : lex X cl code = .ok ts) (htoks : ts.filter (fun t => !isTrivia t) = toks ++ [eof]) (hb : Matched toks)
    (hok : parseRustFile X cl cp code = .ok f) (before items after : List V) (hitems : f.items = before ++ items ++ after)
    (k₁ k₂ : K) (e₁ e₂ : Extent) (ws₁ ws₂ : List Ws) (vs₁ vs₂ : List V)
    (hfirst : items.head? = some (.node k₁ e₁ ws₁ vs₁)) (hlast : items.getLast? = some (.node k₂ e₂ ws₂ vs₂)) (text : Text) (g : File)
    (htext : sliceText code ⟨e₁.s, e₂.e⟩ = some text) (hg : parseRustFile X cl' cp' text = .ok g) :
    moveds e₁.s g.items = items ∧
    g.whitespace.map (·.moved e₁.s) = f.whitespace.filter (fun w => decide (e₁.s ≤ w.extent.s ∧ w.extent.s < e₂.e)) := by
  obtain ⟨text', ts', toks', eof', g', h1, hl', -, -, h2, h3, -, tb, tm, ta, eof'', x, u, h4, h5, h6, hx, hxs, hu, hue, huk⟩ :=
    excerpt_facts X hX cl cl' cp cp' code ts toks eof f h htoks hb hok before items after hitems k₁ k₂ e₁ e₂ ws₁ ws₂ vs₁ vs₂ hfirst hlast
  rw [htext] at h1; cases h1
  rw [hg] at h2; cases h2
  obtain ⟨ts1, hl, mf⟩ := made_of_ok hX hok
  rw [h] at hl; cases hl
  obtain ⟨ts2, hl, mg⟩ := made_of_ok hX hg
  rw [hl'] at hl; cases hl
  have hlen := sliceText_blen htext
  simp at hlen
  -- where the structs are
  have hapart := items_apart hok
  rw [hitems, List.append_assoc] at hapart
  obtain ⟨-, hap2, hap1⟩ := List.pairwise_append.mp hapart
  obtain ⟨-, -, hap2⟩ := List.pairwise_append.mp hap2
  have hfm : V.node k₁ e₁ ws₁ vs₁ ∈ items := List.mem_of_mem_head? hfirst
  have hlm : V.node k₂ e₂ ws₂ vs₂ ∈ items := List.mem_of_getLast? hlast
  have hnodes := items_are_nodes hok
  have hbb : Between (bareL before) 0 e₁.s := by
    cases hbe : before.getLast? with
    | none =>
      rw [List.getLast?_eq_none_iff.mp hbe]
      intro k e ws fs hx; simp [bareL] at hx
    | some v =>
      cases hbf : before.head? with
      | none => rw [List.head?_eq_none_iff.mp hbf] at hbe; cases hbe
      | some v' =>
        have hv := List.mem_of_getLast? hbe
        obtain ⟨k, e, ws, vs, rfl⟩ := hnodes v (by rw [hitems]; simp [hv])
        have hv' : v' ∈ before := List.mem_of_mem_head? hbf
        obtain ⟨k', e', ws', vs', rfl⟩ := hnodes v' (by rw [hitems]; simp [hv'])
        have := part_between X hX cl cp code ts toks eof f h htoks hb hok [] before (items ++ after) (by rw [hitems]; simp) k' k e' e ws' ws vs' vs hbf hbe
        exact this.mono (Nat.zero_le _) (hap1 _ hv _ (List.mem_append_left after hfm) e e₁ rfl rfl)
  have hba : ∃ hi, Between (bareL after) e₂.e hi := by
    cases hbf : after.head? with
    | none =>
      rw [List.head?_eq_none_iff.mp hbf]
      exact ⟨0, fun k e ws fs hx => by simp [bareL] at hx⟩
    | some v =>
      cases hbe : after.getLast? with
      | none => rw [List.getLast?_eq_none_iff.mp hbe] at hbf; cases hbf
      | some v' =>
        have hv : v ∈ after := List.mem_of_mem_head? hbf
        obtain ⟨k, e, ws, vs, rfl⟩ := hnodes v (by rw [hitems]; simp [hv])
        have hv' := List.mem_of_getLast? hbe
        obtain ⟨k', e', ws', vs', rfl⟩ := hnodes v' (by rw [hitems]; simp [hv'])
        have := part_between X hX cl cp code ts toks eof f h htoks hb hok (before ++ items) after [] (by rw [hitems]; simp) k k' e e' ws ws' vs vs' hbf hbe
        exact ⟨_, this.mono (hap2 _ hlm _ hv e₂ e rfl rfl) (Nat.le_refl _)⟩
  obtain ⟨hi, hba⟩ := hba
  have hta : ta ≠ [] := by
    rintro rfl
    obtain ⟨init, hin⟩ := spelled_eof mf.spelled
    obtain ⟨tm', rfl⟩ := List.getLast?_eq_some_iff.mp hu
    rw [h4, List.append_nil, ← List.append_assoc] at hin
    obtain ⟨-, hin⟩ := List.append_inj' hin rfl
    simp at hin
    exact huk (by rw [hin]; rfl)
  have hlo : ∀ t, (tm ++ ta).head? = some t → t.extent.s = e₁.s := by
    intro t ht
    cases tm with
    | nil => cases hx
    | cons y tm => cases hx; cases ht; exact hxs
  have hhi : ∀ t, ta.head? = some t → t.extent.s = e₁.s + blen text := by
    intro t ht
    obtain ⟨tm', rfl⟩ := List.getLast?_eq_some_iff.mp hu
    cases ta with
    | nil => cases ht
    | cons y ta =>
      cases ht
      have := spelled_next hX (A := tb ++ tm') (t := u) (u := t) (B := ta) (by have := mf.spelled; rw [h4] at this; simpa using this)
      omega
  obtain ⟨r1, r2⟩ := segment_whitespace hX mf mg hitems h4 h5 h6 h3 hlo hhi hta hbb (hlen ▸ hba)
  exact ⟨r1, by rw [r2, hlen]⟩

/-- The text of some items, from the start of the first to the end of the last one, is a program with the same items and the same whitespace
and comments recorded in them.  What it records in no struct is what the whole text records in no struct and that lies there. -/
theorem C65_excerpt (X : Xid) (hX : Sane X) (cl cl' cp cp' : Bool) (code : Text) (ts toks : List Token) (eof : Token) (f : File)
    (h : lex X cl code = .ok ts) (htoks : ts.filter (fun t => !isTrivia t) = toks ++ [eof]) (hb : Matched toks)
    (hok : parseRustFile X cl cp code = .ok f) (before items after : List V) (hitems : f.items = before ++ items ++ after)
    (k₁ k₂ : K) (e₁ e₂ : Extent) (ws₁ ws₂ : List Ws) (vs₁ vs₂ : List V)
    (hfirst : items.head? = some (.node k₁ e₁ ws₁ vs₁)) (hlast : items.getLast? = some (.node k₂ e₂ ws₂ vs₂)) :
    ∃ text g, sliceText code ⟨e₁.s, e₂.e⟩ = some text ∧ parseRustFile X cl' cp' text = .ok g ∧ moveds e₁.s g.items = items ∧
      g.whitespace.map (·.moved e₁.s) = f.whitespace.filter (fun w => decide (e₁.s ≤ w.extent.s ∧ w.extent.s < e₂.e)) := by
  obtain ⟨text, g, h1, h2, -⟩ :=
    C62_excerpt X hX cl cl' cp cp' code ts toks eof f h htoks hb hok before items after hitems k₁ k₂ e₁ e₂ ws₁ ws₂ vs₁ vs₂ hfirst hlast
  exact ⟨text, g, h1, h2, excerpt_whitespace X hX cl cl' cp cp' code ts toks eof f h htoks hb hok before items after hitems k₁ k₂ e₁ e₂ ws₁ ws₂
    vs₁ vs₂ hfirst hlast text g h1 h2⟩

/-- The texts of any items of a program, each on lines of its own, are a program of these items, each at another
place, with the same whitespace and the same comments recorded in them. -/
theorem C65_rearrange (X : Xid) (hX : Sane X) (cl cl' cp cp' : Bool) (code : Text) (ts toks : List Token) (eof : Token) (f : File)
    (h : lex X cl code = .ok ts) (hf : Finished code ts) (htoks : ts.filter (fun t => !isTrivia t) = toks ++ [eof]) (hb : Matched toks)
    (hok : parseRustFile X cl cp code = .ok f) (items : List V) (hitems : ∀ v ∈ items, v ∈ f.items) :
    ∃ text g, OnLines code items text ∧ parseRustFile X cl' cp' text = .ok g ∧ g.items.length = items.length ∧
      ∀ (i : Nat) (v w : V), items[i]? = some v → g.items[i]? = some w → ∃ d d', moved d w = moved d' v := by
  induction items with
  | nil =>
    obtain ⟨text, g, h1, h2, h3, -⟩ := C63_rearrange X hX cl cl' cp cp' code ts toks eof f h hf htoks hb hok [] (by simp)
    exact ⟨text, g, h1, h2, h3, fun i v w hv => by simp at hv⟩
  | cons v items ih =>
    obtain ⟨rest, g, h1, h2, h3, h4⟩ := ih (fun v hv => hitems v (by simp [hv]))
    have hv := hitems v (by simp)
    obtain ⟨k, e, ws, vs, rfl⟩ := items_are_nodes hok v hv
    obtain ⟨before, after, hi⟩ := List.append_of_mem hv
    have hi' : f.items = before ++ [.node k e ws vs] ++ after := by rw [hi]; simp
    obtain ⟨text, ts', toks', eof', g', h5, h6, h7, h8, h9, -, h11, -⟩ :=
      excerpt_facts X hX cl cl' cp cp' code ts toks eof f h htoks hb hok before [.node k e ws vs] after hi' k k e e ws ws vs vs rfl rfl
    have h10 := (excerpt_whitespace X hX cl cl' cp cp' code ts toks eof f h htoks hb hok before [.node k e ws vs] after hi' k k e e ws ws vs vs rfl rfl
      text g' h5 h9).1
    have h12 := C61_join X hX cl' cp' cp' text rest ts' toks' eof' g' h6 (h11 hf) h7 h8 h9
    rw [h2] at h12
    generalize hx : parseRustFile X cl' cp' (text ++ '\n' :: rest) = x at h12
    cases x with
    | ok both =>
      have h12 := (C65_join X hX cl' cp' cp' text rest ts' toks' eof' g' g both h6 (h11 hf) h7 h8 h9 h2 hx).1
      -- the first item
      obtain ⟨w0, h13, h14⟩ : ∃ w0, g'.items = [w0] ∧ moved e.s w0 = V.node k e ws vs := by
        rw [Move.moveds_map] at h10
        obtain ⟨w0, l, h13, h14, h15⟩ := List.map_eq_cons_iff.mp h10
        rw [List.map_eq_nil_iff.mp h15] at h13
        exact ⟨w0, h13, h14⟩
      have h15 : both.items.length = items.length + 1 := by
        rw [h12, h13, Move.moveds_map, List.length_append, List.length_map, h3]
        simp; omega
      refine ⟨text ++ '\n' :: rest, both, .cons h5 h1, hx, by rw [h15]; rfl, ?_⟩
      intro i v w hv hw
      rw [h12, h13] at hw
      cases i with
      | zero =>
        simp at hv hw
        subst hv
        exact ⟨e.s + 1, 1, by rw [← hw, ← moved_moved, h14]⟩
      | succ i =>
        simp [Move.moveds_map] at hv hw
        obtain ⟨w', h17, h18⟩ := hw
        obtain ⟨d, d', h19⟩ := h4 i v w' hv h17
        exact ⟨d, d' + (blen text + 1), by rw [← h18, moved_moved, Nat.add_comm, ← moved_moved, h19, moved_moved]⟩
    | lexErr => exact h12.elim
    | parseErr => exact h12.elim
    | panic => exact h12.elim
    | hang => exact h12.elim

/-- How much whitespace is recorded in the structs, and how much in none. -/
def wsCounts : FileResult → Option (Nat × Nat)
  | .ok f => some ((wsL f.items).length, f.whitespace.length)
  | _ => none

theorem FileResult.of_wsCounts {r : FileResult} {n : Nat × Nat} (h : wsCounts r = some n) :
    ∃ f, r = .ok f ∧ (wsL f.items).length = n.1 ∧ f.whitespace.length = n.2 := by
  cases r with
  | ok f => simp [wsCounts] at h; exact ⟨f, rfl, by simp [← h]⟩
  | _ => cases h

/-- The hypotheses of `C65_indent` are met, with white space in front, comments in the tree and comments outside of it. -/
example : (∀ c ∈ c!"\t\n", c ∈ wsChars) ∧
    ∃ f f', parseRustFile asciiXid true true c!" // a\nuse /* b */ c ; // d" = .ok f ∧
      parseRustFile asciiXid true true (c!"\t\n" ++ c!" // a\nuse /* b */ c ; // d") = .ok f' ∧
      (wsL f.items).length = 4 ∧ f.whitespace.length = 5 := by
  obtain ⟨f, h1, h2, h3⟩ := FileResult.of_wsCounts (n := (4, 5)) (r := parseRustFile asciiXid true true c!" // a\nuse /* b */ c ; // d") (by decide +kernel)
  obtain ⟨f', h4, -⟩ := FileResult.of_wsCounts (n := (4, 5)) (r := parseRustFile asciiXid true true (c!"\t\n" ++ c!" // a\nuse /* b */ c ; // d")) (by decide +kernel)
  exact ⟨by decide, f, f', h1, h4, h2, h3⟩

/-- The hypotheses of `C65_join` are met, with white space at the end of the first text and at the front of the second one. -/
example : ∃ ts₁ toks eof first second both, lex asciiXid true c!"/* a */ fn /* b */ f() {} " = .ok ts₁ ∧
    Finished c!"/* a */ fn /* b */ f() {} " ts₁ ∧ ts₁.filter (fun t => !isTrivia t) = toks ++ [eof] ∧ Matched toks ∧
    parseRustFile asciiXid true true c!"/* a */ fn /* b */ f() {} " = .ok first ∧
    parseRustFile asciiXid true true c!"  use c ; // d" = .ok second ∧
    parseRustFile asciiXid true true (c!"/* a */ fn /* b */ f() {} " ++ '\n' :: c!"  use c ; // d") = .ok both ∧
    ((wsL first.items).length, first.whitespace.length) = (4, 3) ∧ ((wsL second.items).length, second.whitespace.length) = (2, 3) ∧
    ((wsL both.items).length, both.whitespace.length) = (6, 5) := by
  obtain ⟨ts, toks, eof, rest, h1, h2, h⟩ := of_cutAt (n := 6) (r := lex asciiXid true c!"/* a */ fn /* b */ f() {} ")
    (p := fun ts toks _ rest => rest.isEmpty && closes [] toks && finished c!"/* a */ fn /* b */ f() {} " ts) (by decide +kernel)
  simp only [Bool.and_eq_true, List.isEmpty_iff] at h
  obtain ⟨⟨rfl, h5⟩, h7⟩ := h
  obtain ⟨f, h8, h9, h10⟩ := FileResult.of_wsCounts (n := (4, 3)) (r := parseRustFile asciiXid true true c!"/* a */ fn /* b */ f() {} ") (by decide +kernel)
  obtain ⟨g, h11, h12, h13⟩ := FileResult.of_wsCounts (n := (2, 3)) (r := parseRustFile asciiXid true true c!"  use c ; // d") (by decide +kernel)
  obtain ⟨b, h14, h15, h16⟩ := FileResult.of_wsCounts (n := (6, 5)) (r := parseRustFile asciiXid true true (c!"/* a */ fn /* b */ f() {} " ++ '\n' :: c!"  use c ; // d")) (by decide +kernel)
  exact ⟨ts, toks, eof, f, g, b, h1, Finished.of_finished h7, h2, Matched.of_closes h5, h8, h11, h14, by rw [h9, h10], by rw [h12, h13], by rw [h15, h16]⟩

/-- The hypotheses of `C65_excerpt` and `C65_rearrange` are met by a program of three items with whitespace and comments in them and between them. -/
example : ∃ ts toks eof f v₁ v₂ v₃, lex asciiXid true c!"// a\nuse /* b */ c; fn f() { /* d */ } /* e */ struct S ;" = .ok ts ∧
    Finished c!"// a\nuse /* b */ c; fn f() { /* d */ } /* e */ struct S ;" ts ∧
    ts.filter (fun t => !isTrivia t) = toks ++ [eof] ∧ Matched toks ∧
    parseRustFile asciiXid true true c!"// a\nuse /* b */ c; fn f() { /* d */ } /* e */ struct S ;" = .ok f ∧ f.items = [v₁, v₂, v₃] ∧
    (wsL f.items).length = 10 := by
  obtain ⟨ts, toks, eof, rest, h1, h2, h⟩ := of_cutAt (n := 12)
    (r := lex asciiXid true c!"// a\nuse /* b */ c; fn f() { /* d */ } /* e */ struct S ;")
    (p := fun ts toks _ rest => rest.isEmpty && closes [] toks &&
      finished c!"// a\nuse /* b */ c; fn f() { /* d */ } /* e */ struct S ;" ts) (by decide +kernel)
  simp only [Bool.and_eq_true, List.isEmpty_iff] at h
  obtain ⟨⟨rfl, h5⟩, h7⟩ := h
  obtain ⟨f, h8, h9⟩ := FileResult.of_itemCount (n := 3)
    (r := parseRustFile asciiXid true true c!"// a\nuse /* b */ c; fn f() { /* d */ } /* e */ struct S ;") (by decide +kernel)
  obtain ⟨f', h10, h11, -⟩ := FileResult.of_wsCounts (n := (10, 6))
    (r := parseRustFile asciiXid true true c!"// a\nuse /* b */ c; fn f() { /* d */ } /* e */ struct S ;") (by decide +kernel)
  rw [h8] at h10; cases h10
  match hf : f.items, h9 with
  | [v₁, v₂, v₃], _ => exact ⟨ts, toks, eof, f, v₁, v₂, v₃, h1, Finished.of_finished h7, h2, Matched.of_closes h5, h8, hf, hf ▸ h11⟩

end Verif.Props
