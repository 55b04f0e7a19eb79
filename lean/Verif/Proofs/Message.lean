import Verif.Proofs.Errors
import Verif.Props.Human
/-!
# The message for an error: sets of errors, and reading a message back
-/

namespace Verif

section
variable {α : Type} {key : α → List Nat}

/-- In order, each once. -/
def Ascending (key : α → List Nat) (l : List α) : Prop := l.Pairwise fun x y => compare (key x) (key y) = .lt

theorem mem_btreeInsert {x z : α} : ∀ {l : List α}, z ∈ btreeInsert key x l → z = x ∨ z ∈ l
  | [], h => by simp [btreeInsert] at h; exact .inl h
  | y :: ys, h => by
    unfold btreeInsert at h
    split at h
    · simpa using h
    · exact .inr h
    · simp at h
      rcases h with rfl | h
      · exact .inr (by simp)
      · rcases mem_btreeInsert h with h | h
        · exact .inl h
        · exact .inr (by simp [h])

theorem mem_of_btreeInsert {x z : α} : ∀ {l : List α}, z ∈ l → z ∈ btreeInsert key x l
  | y :: ys, h => by
    unfold btreeInsert
    split
    · exact List.mem_cons_of_mem _ h
    · exact h
    · simp at h ⊢
      rcases h with rfl | h
      · exact .inl rfl
      · exact .inr (mem_of_btreeInsert h)

theorem btreeInsert_self {x : α} : ∀ {l : List α}, ∃ z ∈ btreeInsert key x l, key z = key x
  | [] => ⟨x, by simp [btreeInsert], rfl⟩
  | y :: ys => by
    unfold btreeInsert
    split
    · exact ⟨x, by simp, rfl⟩
    · rename_i h
      exact ⟨y, by simp, (Std.LawfulEqOrd.eq_of_compare h).symm⟩
    · obtain ⟨z, hz, h⟩ := btreeInsert_self (x := x) (l := ys)
      exact ⟨z, by simp [hz], h⟩

theorem btreeInsert_ascending {x : α} : ∀ {l : List α}, Ascending key l → Ascending key (btreeInsert key x l)
  | [], _ => by simp [btreeInsert, Ascending]
  | y :: ys, h => by
    have h' := List.pairwise_cons.mp h
    unfold btreeInsert
    split
    · rename_i hlt
      refine List.pairwise_cons.mpr ⟨?_, h⟩
      intro z hz
      rcases List.mem_cons.mp hz with rfl | hz
      · exact hlt
      · exact Std.TransCmp.lt_trans hlt (h'.1 z hz)
    · exact h
    · rename_i hgt
      refine List.pairwise_cons.mpr ⟨?_, btreeInsert_ascending h'.2⟩
      intro z hz
      rcases mem_btreeInsert hz with rfl | hz
      · exact Std.OrientedCmp.lt_of_gt hgt
      · exact h'.1 z hz

theorem btree_spec (l : List α) : Ascending key (btree key l) ∧ (∀ z ∈ btree key l, z ∈ l) ∧
    ∀ x ∈ l, ∃ z ∈ btree key l, key z = key x := by
  have step : ∀ (l s : List α), Ascending key s → Ascending key (l.foldl (fun s x => btreeInsert key x s) s) ∧
      (∀ z ∈ l.foldl (fun s x => btreeInsert key x s) s, z ∈ s ∨ z ∈ l) ∧
      (∀ x, x ∈ s ∨ x ∈ l → ∃ z ∈ l.foldl (fun s x => btreeInsert key x s) s, key z = key x) := by
    intro l
    induction l with
    | nil => intro s hs; exact ⟨hs, fun z hz => .inl hz, fun x hx => ⟨x, by simpa using hx, rfl⟩⟩
    | cons y l ih =>
      intro s hs
      obtain ⟨h1, h2, h3⟩ := ih (btreeInsert key y s) (btreeInsert_ascending hs)
      refine ⟨h1, ?_, ?_⟩
      · intro z hz
        rcases h2 z hz with h | h
        · rcases mem_btreeInsert h with rfl | h
          · exact .inr (by simp)
          · exact .inl h
        · exact .inr (by simp [h])
      · intro x hx
        rcases hx with hx | hx
        · exact h3 x (.inl (mem_of_btreeInsert hx))
        · rcases List.mem_cons.mp hx with rfl | hx
          · obtain ⟨z, hz, he⟩ := btreeInsert_self (key := key) (x := x) (l := s)
            obtain ⟨w, hw, he'⟩ := h3 z (.inl hz)
            exact ⟨w, hw, he'.trans he⟩
          · exact h3 x (.inr hx)
  obtain ⟨h1, h2, h3⟩ := step l [] .nil
  exact ⟨h1, fun z hz => by simpa using h2 z hz, fun x hx => h3 x (.inr hx)⟩

theorem mem_btree {l : List α} (hk : ∀ x ∈ l, ∀ y ∈ l, key x = key y → x = y) {x : α} : x ∈ btree key l ↔ x ∈ l := by
  obtain ⟨-, h2, h3⟩ := btree_spec (key := key) l
  refine ⟨h2 x, fun hx => ?_⟩
  obtain ⟨z, hz, he⟩ := h3 x hx
  rw [← hk z (h2 z hz) x hx he]
  exact hz

theorem Ascending.irrefl {x : α} : compare (key x) (key x) ≠ .lt := by simp

/-- A set has one ascending list. -/
theorem Ascending.unique : ∀ {l l' : List α}, Ascending key l → Ascending key l' → (∀ x, x ∈ l ↔ x ∈ l') → l = l'
  | [], [], _, _, _ => rfl
  | [], y :: _, _, _, h => by simpa using (h y).mpr (by simp)
  | x :: _, [], _, _, h => by simpa using (h x).mp (by simp)
  | x :: l, y :: l', h1, h2, h => by
    have h1' := List.pairwise_cons.mp h1
    have h2' := List.pairwise_cons.mp h2
    have hxy : x = y := by
      rcases List.mem_cons.mp ((h x).mp (by simp)) with e | hx
      · exact e
      · rcases List.mem_cons.mp ((h y).mpr (by simp)) with e | hy
        · exact e.symm
        · exact absurd (Std.TransCmp.lt_trans (h2'.1 x hx) (h1'.1 y hy)) irrefl
    subst hxy
    congr 1
    refine Ascending.unique h1'.2 h2'.2 fun z => ?_
    constructor
    · intro hz
      rcases List.mem_cons.mp ((h z).mp (by simp [hz])) with rfl | hz'
      · exact absurd (h1'.1 z hz) irrefl
      · exact hz'
    · intro hz
      rcases List.mem_cons.mp ((h z).mpr (by simp [hz])) with rfl | hz'
      · exact absurd (h2'.1 z hz) irrefl
      · exact hz'

end

/-! ## Errors of the parser -/

theorem PErr.variants_nodup : (PErr.variants.map (·.1)).Nodup := by decide +kernel
theorem PErr.names_nodup : (PErr.variants.map (·.2)).Nodup := by decide +kernel

theorem PErr.declared_iff {e : PErr} : e.declared = true ↔ e ∈ PErr.variants.map (·.1) := by
  simp [PErr.declared]

/-- What the table says about each of its rows. -/
def PErr.rowOK (i : Nat) (v : PErr × Text) : Bool := v.1.key == [i] && v.1.debug == v.2 && !v.2.contains '\n'

theorem PErr.rows : ∀ x ∈ PErr.variants.zipIdx, PErr.rowOK x.2 x.1 = true := by decide +kernel

theorem PErr.row {i : Nat} {v : PErr × Text} (h : PErr.variants[i]? = some v) : v.1.key = [i] ∧ v.1.debug = v.2 ∧ '\n' ∉ v.2 := by
  have := PErr.rows (v, i) (by rw [List.mem_zipIdx_iff_getElem?]; exact h)
  simpa [PErr.rowOK, and_assoc] using this

theorem PErr.exists_row {e : PErr} (h : e.declared = true) : ∃ (i : Nat) (v : PErr × Text), PErr.variants[i]? = some v ∧ v.1 = e := by
  rw [PErr.declared_iff] at h
  obtain ⟨v, hv, rfl⟩ := List.mem_map.mp h
  obtain ⟨i, hi⟩ := List.mem_iff_getElem?.mp hv
  exact ⟨i, v, hi, rfl⟩

theorem PErr.key_inj {e e' : PErr} (h : e.declared = true) (h' : e'.declared = true) (hk : e.key = e'.key) : e = e' := by
  obtain ⟨i, v, hi, rfl⟩ := exists_row h
  obtain ⟨j, w, hj, rfl⟩ := exists_row h'
  rw [(row hi).1, (row hj).1] at hk
  cases hk
  rw [hi] at hj
  cases hj
  rfl

theorem PErr.debug_inj {e e' : PErr} (h : e.declared = true) (h' : e'.declared = true) (hk : e.debug = e'.debug) : e = e' := by
  obtain ⟨i, v, hi, rfl⟩ := exists_row h
  obtain ⟨j, w, hj, rfl⟩ := exists_row h'
  rw [(row hi).2.1, (row hj).2.1] at hk
  have h1 : (PErr.variants.map (·.2))[i]? = some v.2 := by simp [hi]
  have h2 : (PErr.variants.map (·.2))[j]? = some v.2 := by simp [hj, hk]
  have hlt : i < (PErr.variants.map (·.2)).length := (List.getElem?_eq_some_iff.mp h1).1
  have := (List.getElem?_inj hlt PErr.names_nodup).mp (h1.trans h2.symm)
  subst this
  rw [hi] at hj
  cases hj
  rfl

theorem compare_singleton {i j : Nat} : compare [i] [j] = .lt ↔ i < j := by
  rw [List.compare_eq_compareLex, List.compareLex_cons_cons]
  rcases h : compare i j with _ | _ | _ <;> simp [Ordering.then]
  · exact Nat.compare_eq_lt.mp h
  · have := Nat.compare_eq_eq.mp h; simp [this, List.compareLex_nil_nil]
  · have := Nat.compare_eq_gt.mp h; omega

theorem PErr.variants_ascending : Ascending PErr.key (PErr.variants.map (·.1)) := by
  refine List.pairwise_iff_getElem.mpr ?_
  intro i j hi hj hij
  simp at hi hj
  have h1 := (PErr.row (List.getElem?_eq_getElem hi)).1
  have h2 := (PErr.row (List.getElem?_eq_getElem hj)).1
  simp only [List.getElem_map]
  rw [h1, h2]
  exact compare_singleton.mpr hij

/-- The errors shown are those of the declaration that are in the list. -/
theorem PErr.shown {errs : List PErr} (h : ∀ e ∈ errs, e.declared = true) :
    (btree PErr.key errs).map PErr.debug = (PErr.variants.filter fun v : PErr × Text => decide (v.1 ∈ errs)).map (·.2) := by
  have h1 : btree PErr.key errs = (PErr.variants.filter fun v => decide (v.1 ∈ errs)).map (·.1) := by
    refine Ascending.unique (btree_spec _).1 ?_ ?_
    · refine variants_ascending.sublist ?_
      exact List.Sublist.map _ List.filter_sublist
    · intro x
      rw [mem_btree fun x hx y hy => PErr.key_inj (h x hx) (h y hy)]
      constructor
      · intro hx
        obtain ⟨v, hv, rfl⟩ := List.mem_map.mp (PErr.declared_iff.mp (h x hx))
        exact List.mem_map.mpr ⟨v, List.mem_filter.mpr ⟨hv, by simpa using hx⟩, rfl⟩
      · intro hx
        obtain ⟨v, hv, rfl⟩ := List.mem_map.mp hx
        simpa using (List.mem_filter.mp hv).2
  rw [h1, List.map_map]
  refine List.map_congr_left fun v hv => ?_
  obtain ⟨i, hi⟩ := List.mem_iff_getElem?.mp (List.mem_filter.mp hv).1
  exact (PErr.row hi).2.1

/-! ## Errors of the tokenizer -/

theorem LErr.key_inj {e e' : LErr} (h : e.key = e'.key) : e = e' := by
  cases e <;> cases e' <;> simp [LErr.key] at h ⊢
  exact (List.map_inj_right fun a b => by simp [Char.toNat_inj]).mp h

/-- Reading the characters of a string in `{:?}` back. -/
def unescape : Text → Text
  | '\\' :: 'n' :: cs => '\n' :: unescape cs
  | '\\' :: 'r' :: cs => '\r' :: unescape cs
  | '\\' :: 't' :: cs => '\t' :: unescape cs
  | '\\' :: '0' :: cs => '\x00' :: unescape cs
  | '\\' :: c :: cs => c :: unescape cs
  | c :: cs => c :: unescape cs
  | [] => []

theorem unescape_other {c : Char} (h : c ≠ '\\') (cs : Text) : unescape (c :: cs) = c :: unescape cs := by
  rw [unescape.eq_def]
  split <;> simp_all

theorem unescape_escape : ∀ s : Text, unescape (s.flatMap escapeDebug) = s
  | [] => rfl
  | c :: s => by
    rw [List.flatMap_cons]
    have ih := unescape_escape s
    generalize s.flatMap escapeDebug = t at ih
    subst ih
    unfold escapeDebug
    split
    all_goals first
      | rfl
      | skip
    exact unescape_other (by assumption) _

theorem escapeDebug_newline {c : Char} : '\n' ∉ escapeDebug c := by
  unfold escapeDebug
  split <;> simp_all [eq_comm]

theorem LErr.debug_newline (e : LErr) : '\n' ∉ e.debug := by
  cases e
  case Literal s =>
    simp [LErr.debug]
    intro x _
    exact escapeDebug_newline
  all_goals decide

theorem LErr.debug_inj {e e' : LErr} (h : e.debug = e'.debug) : e = e' := by
  cases e <;> cases e' <;> simp [LErr.debug] at h ⊢
  have := congrArg unescape h
  rwa [unescape_escape, unescape_escape] at this

/-! ## Reading a message back -/

theorem split_unique {c : Char} {a a' b b' : Text} (h : a ++ c :: b = a' ++ c :: b') (ha : c ∉ a) (ha' : c ∉ a') : a = a' ∧ b = b' := by
  induction a generalizing a' with
  | nil =>
    cases a' with
    | nil => simp at h; exact ⟨rfl, h⟩
    | cons x a' => simp at h ha'; exact absurd h.1 ha'.1
  | cons y a ih =>
    cases a' with
    | nil => simp at h ha; exact absurd h.1.symm ha.1
    | cons x a' =>
      simp at h ha ha'
      obtain ⟨rfl, h⟩ := h
      obtain ⟨rfl, rfl⟩ := ih h ha.2 ha'.2
      exact ⟨rfl, rfl⟩

theorem decimal_inj {n m : Nat} (h : decimal n = decimal m) : n = m := by
  have := congrArg (fun d => Nat.ofDigitChars 10 d 0) h
  simpa [decimal, Nat.ofDigitChars_toDigits] using this

theorem decimal_digit {n : Nat} {c : Char} (h : c.isDigit = false) : c ∉ decimal n := by
  intro hc
  have := Nat.isDigit_of_mem_toDigits (b := 10) (by omega) (by omega) hc
  rw [h] at this
  cases this

theorem lines_inj : ∀ {es es' : List Text}, (∀ e ∈ es, '\n' ∉ e) → (∀ e ∈ es', '\n' ∉ e) →
    es.flatMap (fun e => c!"  " ++ e ++ c!"\n") = es'.flatMap (fun e => c!"  " ++ e ++ c!"\n") → es = es'
  | [], [], _, _, _ => rfl
  | [], e :: es, _, _, h => by simp at h
  | e :: es, [], _, _, h => by simp at h
  | e :: es, e' :: es', h1, h2, h => by
    simp at h
    simp at h1 h2
    obtain ⟨rfl, h⟩ := split_unique h h1.1 h2.1
    rw [lines_inj h1.2 h2.2 (by simpa using h)]

/-- The line shown has no new line but possibly at its start: if it is not the first line. -/
def Human.plain (h : Human) : Prop :=
  '\n' ∉ h.caret ∧ ((h.line = 1 ∧ '\n' ∉ h.shown) ∨ (h.line ≠ 1 ∧ ∃ l, h.shown = '\n' :: l ∧ '\n' ∉ l))

theorem Human.plain_of_line {text : Text} {loc : Nat} {hu : Human} {pre cur rest post : Text} (ho : Props.OnLine text loc pre cur rest post)
    (h : Human.new text loc = some hu) : hu.plain := by
  obtain ⟨hu', h', h1, h2, h3, h4⟩ := Props.C40_line_and_column_partial _ _ _ _ _ _ ho
  rw [h] at h'
  cases h'
  have hn := ho.same
  refine ⟨by simp [Human.caret, List.mem_replicate], ?_⟩
  by_cases hp : pre = []
  · refine .inl ⟨by simp [h1, hp], ?_⟩
    rw [Human.shown, (h3 hp).1, h2]
    exact hn
  · refine .inr ⟨?_, cur ++ rest, ?_, hn⟩
    · obtain rfl | ⟨p, rfl⟩ := ho.before
      · exact absurd rfl hp
      · rw [h1, List.count_append]
        simp
    · rw [Human.shown, (h4 hp).1, h2]
      rfl

/-- From a message one gets the line, the column and the errors, and which part of the program it is from. -/
theorem Human.message_inj {h h' : Human} {w w' : Text} {es es' : List Text} (hh : h.plain) (hh' : h'.plain)
    (hw : ' ' ∉ w) (hw' : ' ' ∉ w') (hes : ∀ e ∈ es, '\n' ∉ e) (hes' : ∀ e ∈ es', '\n' ∉ e)
    (hm : h.message w es = h'.message w' es') : w = w' ∧ h.line = h'.line ∧ h.column = h'.column ∧ h.shown = h'.shown ∧ es = es' := by
  unfold Human.message at hm
  simp only [List.append_assoc, List.cons_append, List.nil_append, List.cons.injEq, true_and] at hm
  obtain ⟨rfl, hm1⟩ := split_unique hm hw hw'
  simp only [List.cons.injEq, true_and] at hm1
  obtain ⟨h1, hm2⟩ := split_unique hm1 (decimal_digit (by decide)) (decimal_digit (by decide))
  simp only [List.cons.injEq, true_and] at hm2
  obtain ⟨h2, hm3⟩ := split_unique hm2 (decimal_digit (by decide)) (decimal_digit (by decide))
  simp only [List.cons.injEq, true_and] at hm3
  have h1 := decimal_inj h1
  have h2 := decimal_inj h2
  have key : h.shown = h'.shown ∧ h.caret ++ '\n' :: (c!"Expected:" ++ '\n' :: es.flatMap (fun e => c!"  " ++ e ++ c!"\n")) =
      h'.caret ++ '\n' :: (c!"Expected:" ++ '\n' :: es'.flatMap (fun e => c!"  " ++ e ++ c!"\n")) := by
    rcases hh.2 with ⟨h3, h4⟩ | ⟨h3, l, h4, h5⟩ <;> rcases hh'.2 with ⟨h3', h4'⟩ | ⟨h3', l', h4', h5'⟩
    · exact split_unique hm3 h4 h4'
    · omega
    · omega
    · rw [h4, h4'] at hm3 ⊢
      simp only [List.cons_append, List.cons.injEq, true_and] at hm3
      obtain ⟨rfl, h6⟩ := split_unique hm3 h5 h5'
      exact ⟨rfl, h6⟩
  obtain ⟨-, h7⟩ := split_unique key.2 hh.1 hh'.1
  simp only [List.cons_append, List.nil_append, List.cons.injEq, true_and] at h7
  exact ⟨rfl, h1, h2, key.1, lines_inj hes hes' h7⟩

end Verif
