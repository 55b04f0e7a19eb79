import Verif.Proofs.Place
import Verif.Proofs.WsMove
import Verif.Proofs.WsPlace
import Verif.Proofs.File
/-!
# A file with one token of another length
-/

namespace Verif.Place
open Verif Verif.Spec

variable {φ : Nat → Nat}

/-! ## Whitespace -/

@[simp] theorem ws_extent (w : Ws) : (w.placed φ).extent = w.extent.placed φ := by cases w <;> rfl

/-- `φ` keeps the start of this whitespace before what it was before. -/
def Sharp (φ : Nat → Nat) (w : Ws) : Prop := ∀ y, w.extent.s < y → φ w.extent.s < φ y

theorem keyIn_placed (hm : ∀ x y, x ≤ y → φ x ≤ φ y) {w : Ws} (hw : Sharp φ w) (e : Extent) :
    Ws.keyIn (e.placed φ) (w.placed φ) = Ws.keyIn e w := by
  have h1 : φ e.s ≤ φ w.extent.s ↔ e.s ≤ w.extent.s := by
    refine ⟨fun h => ?_, hm _ _⟩
    rcases Nat.lt_or_ge w.extent.s e.s with h' | h'
    · have := hw _ h'; omega
    · exact h'
  have h2 : φ w.extent.s < φ e.e ↔ w.extent.s < e.e := by
    refine ⟨fun h => ?_, hw _⟩
    rcases Nat.lt_or_ge w.extent.s e.e with h' | h'
    · exact h'
    · have := hm _ _ h'; omega
  simp [Ws.keyIn, Extent.placed, h1, h2]

theorem divvyUp_placed (hm : ∀ x y, x ≤ y → φ x ≤ φ y) {m taken m' : List Ws} {e : Extent} (hw : ∀ w ∈ m, Sharp φ w)
    (h : Apportioner.divvyUp m e = some (taken, m')) :
    Apportioner.divvyUp (m.map (·.placed φ)) (e.placed φ) = some (taken.map (·.placed φ), m'.map (·.placed φ)) ∧ ∀ w ∈ m', Sharp φ w := by
  unfold Apportioner.divvyUp at h ⊢
  split at h
  · cases h
  · rename_i hlt
    have h0 := hm e.s e.e (by omega)
    rw [if_neg (by simp only [Extent.placed]; omega)]
    cases h
    rw [List.filter_map, List.filter_map]
    refine ⟨?_, fun w h => hw w (List.mem_filter.mp h).1⟩
    congr 2
    · congr 1
      exact List.filter_congr fun w h => keyIn_placed hm (hw w h) e
    · congr 1
      exact List.filter_congr fun w h => congrArg _ (keyIn_placed hm (hw w h) e)

variable (hm : ∀ x y, x ≤ y → φ x ≤ φ y)
include hm

mutual
theorem apportion_placed : ∀ (v : V) (m : Apportioner) (v' : V) (m' : Apportioner), apportion v m = some (v', m') → (∀ w ∈ m, Sharp φ w) →
    apportion (placed φ v) (m.map (·.placed φ)) = some (placed φ v', m'.map (·.placed φ)) ∧ ∀ w ∈ m', Sharp φ w
  | .ext e, m, v', m', h, hw => by simp [apportion] at h ⊢; obtain ⟨rfl, rfl⟩ := h; simpa using hw
  | .bool b, m, v', m', h, hw => by simp [apportion] at h ⊢; obtain ⟨rfl, rfl⟩ := h; simpa using hw
  | .list vs, m, v', m', h, hw => by
    unfold apportion at h
    split at h
    · cases h
    · rename_i vs' m1 h1
      cases h
      have h2 := apportionL_placed vs m _ _ h1 hw
      simp only [placed_list, apportion, h2.1]
      exact ⟨trivial, h2.2⟩
  | .enm t vs, m, v', m', h, hw => by
    unfold apportion at h
    split at h
    · cases h
    · rename_i vs' m1 h1
      cases h
      have h2 := apportionL_placed vs m _ _ h1 hw
      simp only [placed_enm, apportion, h2.1]
      exact ⟨trivial, h2.2⟩
  | .node k e ws vs, m, v', m', h, hw => by
    unfold apportion at h
    split at h
    · cases h
    · rename_i vs' m1 h1
      have h2 := apportionF_placed k.fields vs m _ _ h1 hw
      simp only [placed_node, apportion, h2.1]
      split at h
      · rename_i hk
        rw [if_pos hk]
        split at h
        · cases h
        · rename_i taken m2 h3
          cases h
          have h4 := divvyUp_placed hm h2.2 h3
          rw [h4.1]
          exact ⟨by simp, h4.2⟩
      · rename_i hk
        rw [if_neg hk]
        cases h
        exact ⟨rfl, h2.2⟩
theorem apportionL_placed : ∀ (vs : List V) (m : Apportioner) (vs' : List V) (m' : Apportioner), apportionL vs m = some (vs', m') →
    (∀ w ∈ m, Sharp φ w) →
    apportionL (placeds φ vs) (m.map (·.placed φ)) = some (placeds φ vs', m'.map (·.placed φ)) ∧ ∀ w ∈ m', Sharp φ w
  | [], m, vs', m', h, hw => by simp [apportionL] at h ⊢; obtain ⟨rfl, rfl⟩ := h; simpa using hw
  | v :: vs, m, vs', m', h, hw => by
    unfold apportionL at h
    split at h
    · cases h
    · rename_i v1 m1 h1
      split at h
      · cases h
      · rename_i vs2 m2 h2
        cases h
        have h3 := apportion_placed v m _ _ h1 hw
        have h4 := apportionL_placed vs m1 _ _ h2 h3.2
        simp only [placeds_cons, apportionL, h3.1, h4.1]
        exact ⟨trivial, h4.2⟩
theorem apportionF_placed : ∀ (fs : List Fld) (vs : List V) (m : Apportioner) (vs' : List V) (m' : Apportioner),
    apportionF fs vs m = some (vs', m') → (∀ w ∈ m, Sharp φ w) →
    apportionF fs (placeds φ vs) (m.map (·.placed φ)) = some (placeds φ vs', m'.map (·.placed φ)) ∧ ∀ w ∈ m', Sharp φ w
  | [], vs, m, vs', m', h, hw => by simp [apportionF] at h ⊢; obtain ⟨rfl, rfl⟩ := h; simpa using hw
  | f :: fs, [], m, vs', m', h, hw => by simp [apportionF] at h ⊢; obtain ⟨rfl, rfl⟩ := h; simpa using hw
  | f :: fs, v :: vs, m, vs', m', h, hw => by
    unfold apportionF at h
    split at h
    · cases h
    · rename_i v1 m1 h1
      have h3 : (if f.visited then apportion (placed φ v) (m.map (·.placed φ)) else some (placed φ v, m.map (·.placed φ))) =
          some (placed φ v1, m1.map (·.placed φ)) ∧ ∀ w ∈ m1, Sharp φ w := by
        split at h1
        · rename_i hf
          rw [if_pos hf]
          exact apportion_placed v m _ _ h1 hw
        · rename_i hf
          rw [if_neg hf]
          cases h1
          exact ⟨rfl, hw⟩
      split at h
      · cases h
      · rename_i vs2 m2 h2
        cases h
        have h4 := apportionF_placed fs vs m1 _ _ h2 h3.2
        simp only [placeds_cons, apportionF, h3.1, h4.1]
        exact ⟨trivial, h4.2⟩
end
omit hm

/-! ## Tokens -/

theorem trivia_placed (t : Token) : (t.placed φ).trivia? = t.trivia?.map (·.placed φ) := by
  cases t with
  | number => rfl
  | plain k e => cases k <;> rfl

theorem trivias_placed (ts : List Token) : (ts.map (·.placed φ)).filterMap Token.trivia? = (ts.filterMap Token.trivia?).map (·.placed φ) := by
  induction ts with
  | nil => rfl
  | cons t ts ih =>
    simp only [List.map_cons, List.filterMap_cons, trivia_placed, ih]
    cases t.trivia? <;> rfl

theorem significant_placed (ts : List Token) : significant (ts.map (·.placed φ)) = (significant ts).map (·.placed φ) := by
  unfold significant
  rw [List.filter_map]
  congr 1
  refine List.filter_congr fun t _ => ?_
  simp [trivia_placed]

/-- The tokens of two texts are the same but for their places, and the places are in the same order: so are the results. -/
theorem parseRustFile_placed {X : Xid} {cl cp : Bool} {code code' : Text} {ts : List Token} (h : lex X cl code = .ok ts)
    (h' : lex X cl code' = .ok (ts.map (·.placed φ))) (hm : ∀ x y, x ≤ y → φ x ≤ φ y) (hw : ∀ w ∈ ts.filterMap Token.trivia?, Sharp φ w)
    (hf : Fit φ (significant ts)) : parseRustFile X cl cp code' = (parseRustFile X cl cp code).placed φ := by
  have hp := parseTokens_placed hf cp
  rw [← significant_placed] at hp
  have hx := extract_ok h'
  rcases parseRustFile_cases X cl cp code (Ψ := fun _ _ _ _ _ _ => True) (fun _ _ => true_inductive) with
    ⟨d, h1, -⟩ | ⟨ts1, l, es, h1, h2, h3⟩ | ⟨f, ts1, items, q, h1, h2, h3⟩
  · rw [h] at h1; cases h1
  · rw [h] at h1; cases h1
    rw [h2] at hp
    rw [h3]
    unfold parseRustFile
    rw [hx]; dsimp only; rw [hp]
    rfl
  · have h4 := h3.lexed
    rw [h] at h4; cases h4
    rw [h2] at hp
    have h5 := (apportionL_placed hm _ _ _ _ h3.apportioned hw).1
    rw [h1]
    unfold parseRustFile
    rw [hx]; dsimp only; rw [hp]; dsimp only [ParseResult.placed]
    rw [push_all (m := []) (by simpa using trivia_increasing h')]
    unfold apportionFile
    rw [List.nil_append, trivias_placed, h5]
    simp [FileResult.placed]

/-! ## One token is replaced -/

theorem lex_mono {X : Xid} {cl : Bool} {code : Text} {ts : List Token} (h : lex X cl code = .ok ts) :
    ts.Pairwise (fun t u => t.extent.e ≤ u.extent.s) := by
  obtain ⟨body, texts, hb, hch, -, -, -, -⟩ := run_ok (LexInv.new code) rfl (lex_ok_calls h 1)
  have hch := chain_pairwise hch
  subst hb
  rw [List.pairwise_append]
  refine ⟨List.pairwise_map.mp hch.2.1, by simp, ?_⟩
  intro a ha b hb
  simp at hb; subst hb
  exact (hch.2.2 a.extent (List.mem_map_of_mem ha)).2.2

theorem lex_nonempty {X : Xid} {cl : Bool} {code : Text} {ts : List Token} (h : lex X cl code = .ok ts) :
    ∀ t ∈ ts, t.kind? ≠ some .EndOfFile → t.extent.s < t.extent.e := by
  obtain ⟨body, texts, hb, -, hne, -, -, -⟩ := run_ok (LexInv.new code) rfl (lex_ok_calls h 1)
  subst hb
  intro t ht hk
  rcases List.mem_append.mp ht with h1 | h1
  · exact hne t h1
  · simp at h1; subst h1; exact absurd rfl hk

theorem placed_id {t : Token} (h : ∀ x ∈ allExtents t, φ x.s = x.s ∧ φ x.e = x.e) : t.placed φ = t := by
  have he : ∀ x ∈ allExtents t, x.placed φ = x := fun x hx => by
    simp [Extent.placed, h x hx]
  cases t with
  | plain k e => simp [Token.placed, he e (by simp [allExtents])]
  | number n =>
    simp only [allExtents, List.mem_append, List.mem_cons, List.not_mem_nil, or_false, Option.mem_toList] at he
    have ho : ∀ o : Option Extent, (∀ x, o = some x → x.placed φ = x) → o.map (·.placed φ) = o := by
      intro o ho
      cases o with
      | none => rfl
      | some x => simp [ho x rfl]
    simp only [Token.placed, Number.placed]
    rw [he n.extent (by simp), he n.integral (by simp), ho n.fractional fun x h => he x (by simp [h]),
      ho n.exponent fun x h => he x (by simp [h]), ho n.type_suffix fun x h => he x (by simp [h])]

theorem placed_moved {d d' : Nat} (h : ∀ x, φ (x + d) = x + d') (t : Token) : (t.moved d).placed φ = t.moved d' := by
  have he : ∀ x : Extent, (x.moved d).placed φ = x.moved d' := fun x => by simp [Extent.placed, Extent.moved, h]
  cases t with
  | plain k e => simp [Token.placed, Token.moved, he]
  | number n =>
    simp only [Token.placed, Token.moved, Number.placed, Number.moved, he, Option.map_map]
    congr 2 <;> (congr 1; funext x; exact he x)

theorem split_moved_none {t : Token} {d n : Nat} (h : split t n = none) : split (t.moved d) n = none := by
  cases t with
  | number => rfl
  | plain k e =>
    obtain ⟨a, b⟩ := e
    match n with
    | 0 => cases k <;> first | rfl | cases h
    | 1 => cases k <;> first | rfl | cases h
    | n + 2 => cases k <;> rfl

theorem replace_map {X : Xid} {cl : Bool} {code : Text} {A B : List Token} {k : TK} {m i j j' : Nat}
    (h : lex X cl code = .ok (A ++ .plain k ⟨i, j⟩ :: B.map (·.moved j))) (hij : i + m < j) (hij' : i + m ≤ j') :
    (A ++ .plain k ⟨i, j⟩ :: B.map (·.moved j)).map (·.placed (replacedAt m i j j')) = A ++ .plain k ⟨i, j'⟩ :: B.map (·.moved j') := by
  have hmono := lex_mono h
  have hA : ∀ u ∈ A, u.extent.e ≤ i := by
    intro u hu
    have := (List.pairwise_append.mp hmono).2.2 u hu (.plain k ⟨i, j⟩) (by simp)
    exact this
  have hy := fun u (hu : u ∈ A) => Props.yields_of_lex h (List.mem_append_left _ hu)
  have hφ : ∀ x, replacedAt m i j j' (x + j) = x + j' := by intro x; unfold replacedAt; rw [if_neg (by omega)]; omega
  have hid : ∀ x, x ≤ i + m → replacedAt m i j j' x = x := by intro x hx; unfold replacedAt; rw [if_pos (by omega)]; omega
  rw [List.map_append, List.map_cons, List.map_map]
  congr 1
  · refine List.map_congr_left (fun u hu => ?_) |>.trans (List.map_id _)
    refine placed_id fun x hx => ?_
    have h1 := allExtents_inside (hy u hu) hx
    have h2 := hA u hu
    exact ⟨hid _ (by omega), hid _ (by omega)⟩
  · congr 1
    · have := hφ 0
      simp only [Nat.zero_add] at this
      simp [Token.placed, Extent.placed, hid i (by omega), this]
    · exact List.map_congr_left fun u _ => placed_moved hφ u

/-- One token, which is never cut, is replaced by another of the same kind.  If it is no whitespace, nothing else is asked for.
Otherwise at least one byte of it must stay, and either two bytes stay or what follows is not cut. -/
theorem replace_token {X : Xid} {cl cp : Bool} {code code' : Text} {A B : List Token} {k : TK} {m i j j' : Nat}
    (h : lex X cl code = .ok (A ++ .plain k ⟨i, j⟩ :: B.map (·.moved j)))
    (h' : lex X cl code' = .ok (A ++ .plain k ⟨i, j'⟩ :: B.map (·.moved j'))) (hij : i + m < j) (hij' : i + m ≤ j')
    (ht : (Token.plain k ⟨i, j⟩).trivia? = none ∨ 1 ≤ m ∨ (j = i + 1 ∧ i < j'))
    (hc : (Token.plain k ⟨i, j⟩).trivia? = none ∨ 2 ≤ m ∨ ∀ t ∈ (significant B).head?, ∀ n, split t n = none)
    (hs : ∀ n, split (.plain k ⟨i, j⟩) n = none) :
    parseRustFile X cl cp code' = (parseRustFile X cl cp code).placed (replacedAt m i j j') := by
  have hmono := lex_mono h
  have hA : ∀ u ∈ A, u.extent.e ≤ i := by
    intro u hu
    have := (List.pairwise_append.mp hmono).2.2 u hu (.plain k ⟨i, j⟩) (by simp)
    exact this
  have hy := fun u (hu : u ∈ A) => Props.yields_of_lex h (List.mem_append_left _ hu)
  have hφ : ∀ x, replacedAt m i j j' (x + j) = x + j' := by intro x; unfold replacedAt; rw [if_neg (by omega)]; omega
  have hid : ∀ x, x ≤ i + m → replacedAt m i j j' x = x := by intro x hx; unfold replacedAt; rw [if_pos (by omega)]; omega
  have hup : ∀ x k, j ≤ x → replacedAt m i j j' (x + k) = replacedAt m i j j' x + k := by
    intro x k hx; unfold replacedAt; rw [if_neg (by omega), if_neg (by omega)]; omega
  have hmap := replace_map h hij hij'
  have hB : ∀ u ∈ B.map (·.moved j), j ≤ u.extent.s := by
    intro u hu
    obtain ⟨v, -, rfl⟩ := List.mem_map.mp hu
    cases v <;> simp [Token.moved, Token.extent, Number.moved, Extent.moved]
  refine parseRustFile_placed h (hmap ▸ h') ?_ ?_ ?_
  · intro x y hxy
    unfold replacedAt
    split <;> split <;> omega
  · intro w hw y hy'
    obtain ⟨u, hu, hw⟩ := List.mem_filterMap.mp hw
    have he := Token.trivia_extent hw
    rw [he.1] at hy' ⊢
    have hx : u.extent.s < i ∨ (u.extent.s = i ∧ (1 ≤ m ∨ (j = i + 1 ∧ i < j'))) ∨ j ≤ u.extent.s := by
      rcases List.mem_append.mp hu with hu | hu
      · have h1 := lex_nonempty h u (List.mem_append_left _ hu) he.2
        have h2 := hA u hu
        exact .inl (by omega)
      · rcases List.mem_cons.mp hu with rfl | hu
        · rcases ht with ht | ht
          · rw [ht] at hw; cases hw
          · exact .inr (.inl ⟨rfl, ht⟩)
        · exact .inr (.inr (hB u hu))
    unfold replacedAt
    split <;> split <;> omega
  · have hsrc := Src.of_extract (extract_ok h)
    have hsig : significant (A ++ .plain k ⟨i, j⟩ :: B.map (·.moved j)) =
        significant A ++ (significant [.plain k ⟨i, j⟩] ++ significant (B.map (·.moved j))) := by
      unfold significant
      rw [← List.filter_append, ← List.filter_append]
      rfl
    have hside : ∀ t ∈ significant (A ++ .plain k ⟨i, j⟩ :: B.map (·.moved j)), t.extent.e ≤ i ∨ t = .plain k ⟨i, j⟩ ∨ j ≤ t.extent.s := by
      intro t hn
      rcases List.mem_append.mp (List.mem_filter.mp hn).1 with hu | hu
      · exact .inl (hA t hu)
      · rcases List.mem_cons.mp hu with rfl | hu
        · exact .inr (.inl rfl)
        · exact .inr (.inr (hB t hu))
    have hse : ∀ t ∈ significant (A ++ .plain k ⟨i, j⟩ :: B.map (·.moved j)), t.extent.s ≤ t.extent.e := fun t ht =>
      (hsrc.inside t ht _ (extent_mem_allExtents t)).2.1
    constructor
    · intro x t n hm hn k hk
      have hw := hsrc.width t (List.mem_of_getElem? hm) n hn
      rcases hside t (List.mem_of_getElem? hm) with h1 | rfl | h1
      · rw [hid _ (by omega), hid _ (by omega)]
      · rw [hs] at hn; cases hn
      · exact hup _ _ h1
    · intro x u t n hu hm hn l hl
      have hw := hsrc.width t (List.mem_of_getElem? hm) n hn
      have h1 := split_lt hn
      have h2 := hse u (List.mem_of_getElem? hu)
      have h3 := hse t (List.mem_of_getElem? hm)
      have hord : u.extent.e ≤ t.extent.s := by
        obtain ⟨hl1, hu'⟩ := List.getElem?_eq_some_iff.mp hu
        obtain ⟨hl2, hm'⟩ := List.getElem?_eq_some_iff.mp hm
        have := List.pairwise_iff_getElem.mp hsrc.mono x (x + 1) hl1 hl2 (by omega)
        rw [hu', hm'] at this
        exact this
      rcases hside t (List.mem_of_getElem? hm) with h4 | rfl | h4
      · rw [hid _ (by omega), hid _ (by omega)]
      · rw [hs] at hn; cases hn
      · rcases hside u (List.mem_of_getElem? hu) with h5 | rfl | h5
        · by_cases hm2 : 2 ≤ m
          · rw [hid _ (by omega), hid _ (by omega)]
          · exfalso
            rw [hsig] at hu hm
            -- there is nothing between the two
            have hl1 : x < (significant A).length := by
              apply Classical.byContradiction
              intro hlt
              rw [List.getElem?_append_right (by omega)] at hu
              rcases List.mem_append.mp (List.mem_of_getElem? hu) with h6 | h6
              · have := (List.mem_filter.mp h6).1
                simp at this
                subst this
                simp only [Token.extent] at h5
                omega
              · have := hB u (List.mem_filter.mp h6).1
                omega
            have hl2 : (significant A).length ≤ x + 1 := by
              apply Classical.byContradiction
              intro hlt
              rw [List.getElem?_append_left (by omega)] at hm
              have := hA t (List.mem_filter.mp (List.mem_of_getElem? hm)).1
              omega
            rw [List.getElem?_append_right hl2, show x + 1 - (significant A).length = 0 by omega] at hm
            cases hS : (Token.plain k ⟨i, j⟩).trivia? with
            | none =>
              rw [show significant [Token.plain k ⟨i, j⟩] = [.plain k ⟨i, j⟩] by simp [significant, hS]] at hm
              simp at hm
              subst hm
              rw [hs] at hn; cases hn
            | some y =>
              rw [show significant [Token.plain k ⟨i, j⟩] = [] by simp [significant, hS]] at hm
              rcases hc with hc | hc | hc
              · rw [hS] at hc; cases hc
              · exact hm2 hc
              · rw [List.nil_append] at hm
                have : significant (B.map (·.moved j)) = (significant B).map (·.moved j) := by
                  unfold significant
                  rw [List.filter_map]
                  congr 1
                  exact List.filter_congr fun t _ => by simp [Token.trivia_moved]
                rw [this, List.getElem?_map, Option.map_eq_some_iff] at hm
                obtain ⟨t0, h6, rfl⟩ := hm
                rw [split_moved_none (hc t0 (by rw [List.head?_eq_getElem?]; exact h6) n)] at hn
                cases hn
        · exact hup _ _ (Nat.le_refl _)
        · exact hup _ _ (by omega)

end Verif.Place
