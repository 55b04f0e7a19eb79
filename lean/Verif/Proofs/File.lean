import Verif.ParseFile
import Verif.Proofs.Apportion
/-!
# What `parse_rust_file` returns
-/

namespace Verif
open Verif.Props Verif.Spec

/-- What is known of all values: they lie between their points, and where their structs come from; `Ψ` is whatever else is
known. -/
def Full (toks : List Token) (Ψ : NT → Rel) (nt : NT) (am : Amb) (p q : Pt) (vs : List V) : Prop :=
  Within toks p q vs ∧ Ψ nt am p q vs ∧ AllOrig toks (Known Ψ) vs

/-- `Ψ` is kept up by the rules. -/
def Inductive (toks : List Token) (Ψ : NT → Rel) : Prop :=
  ∀ nt am p q vs, Btw toks p q → denRule toks (Known Ψ) (rules nt) am p q vs → Ψ nt am p q vs

theorem Known.mono {Ψ Ψ' : NT → Rel} (h : ∀ nt am p q vs, Ψ nt am p q vs → Ψ' nt am p q vs) :
    ∀ nt am p q vs, Known Ψ nt am p q vs → Known Ψ' nt am p q vs :=
  fun _ _ _ _ _ h' => ⟨h'.1, h'.2.1, h _ _ _ _ _ h'.2.2⟩

section
variable {code : Text} {toks : List Token} {Ψ : NT → Rel}

theorem full_known : ∀ nt am p q vs, Known (Full toks Ψ) nt am p q vs → Known Ψ nt am p q vs :=
  Known.mono (fun _ _ _ _ _ h => h.2.1)

theorem full_inductive (hs : Src code toks) (hΨ : Inductive toks Ψ) : Inductive toks (Full toks Ψ) := by
  intro nt am p q vs hb h
  exact ⟨denRule_within hs (fun _ _ _ _ _ h => h.2.2.1) nt am p q vs h,
    hΨ nt am p q vs hb (denRule_mono full_known _ h),
    denRule_orig full_known (fun _ _ _ _ _ h => h.2.2.2.2) nt am p q vs h⟩

theorem true_inductive : Inductive toks (fun _ _ _ _ _ => True) := fun _ _ _ _ _ _ _ => trivial

/-- An item of the file. -/
theorem item_full (hs : Src code toks) {a p q vs} (h : den toks (Known (Full toks Ψ)) itemG a p q vs) :
    Within toks p q vs ∧ AllOrig toks (Known Ψ) vs :=
  ⟨den_within hs (fun _ _ _ _ _ h => h.2.2.1) itemG (by decide +kernel) _ _ _ _ h,
   den_orig full_known (fun _ _ _ _ _ h => h.2.2.2.2) itemG (mem_allParts (by simp [allG])) _ _ _ _ h⟩

theorem items_full (hs : Src code toks) {a p q vs} (h : ItemsR toks (Full toks Ψ) a p q vs) :
    AllOrig toks (Known Ψ) vs ∧ ∀ e ∈ extsL vs, e.s ≤ e.e ∧ e.e ≤ blen code := by
  induction h with
  | nil => exact ⟨.nil, by simp⟩
  | snoc _ _ _ h ih =>
    have h' := item_full hs h
    refine ⟨ih.1.append h'.2, ?_⟩
    intro e he
    simp at he
    rcases he with he | he
    · exact ih.2 e he
    · have h2 := h'.1 e he
      have hv := (den_btw _ _ _ _ _ h).2.1
      obtain ⟨t, ht, -⟩ := id hv
      have h3 := (hs.pos_le hv ht).2
      have h4 := (hs.inside t (List.mem_of_getElem? ht) _ (extent_mem_allExtents t)).2.2.2.2.le
      exact ⟨h2.2.1, by omega⟩

end

section
variable {X : Xid} {cl cp : Bool} {code : Text}

theorem body_starts {a b : Nat} {ts : List Token} (h : Chain a (ts.map Token.extent) b)
    (hne : ∀ t ∈ ts, t.extent.s < t.extent.e) : ts.Pairwise (fun t u => t.extent.s < u.extent.s) := by
  have h1 := (chain_pairwise h).2.1
  rw [List.pairwise_map] at h1
  exact List.Pairwise.imp_of_mem (fun ha _ hab => Nat.lt_of_lt_of_le (hne _ ha) hab) h1

/-- The trivia of a text are in order. -/
theorem trivia_increasing {ts : List Token} (h : lex X cl code = .ok ts) : Increasing (ts.filterMap Token.trivia?) := by
  obtain ⟨body, texts, hb, hch, hne, heof, -, -⟩ := run_ok (LexInv.new code) rfl (lex_ok_calls h 1)
  have h1 := body_starts hch (fun t ht => hne t ht)
  unfold Increasing
  rw [hb, List.filterMap_append]
  simp only [List.filterMap_cons, Token.trivia?, List.filterMap_nil, List.append_nil]
  rw [List.pairwise_filterMap]
  refine h1.imp ?_
  intro t u h w hw w' hw'
  have key : ∀ t w, Token.trivia? t = some w → w.extent = t.extent := by
    intro t w h
    unfold Token.trivia? at h
    split at h <;> cases h <;> rfl
  rw [key _ _ hw, key _ _ hw']
  exact h

/-- The tokens the parser sees. -/
abbrev significant (ts : List Token) : List Token := ts.filter (fun t => t.trivia?.isNone)

theorem extract_ok {ts : List Token} (h : lex X cl code = .ok ts) :
    extractWhitespace X cl code = .ok (ts.filterMap Token.trivia?) (significant ts) := by
  unfold extractWhitespace; rw [h]
  simp [partitionTokens_fst, partitionTokens_snd]

/-- How a file that was parsed comes about. -/
structure Parsed (X : Xid) (cl : Bool) (code : Text) (Ψ : List Token → NT → Rel) (f : File) (ts : List Token)
    (items : List V) (q : Pt) : Prop where
  lexed : lex X cl code = .ok ts
  src : Src code (significant ts)
  run : ItemsR (significant ts) (Full (significant ts) (Ψ (significant ts))) .Unambiguous .zero q items
  whole : q.sub = none
  all : q.off + 1 = (significant ts).length
  orig : AllOrig (significant ts) (Known (Ψ (significant ts))) items
  exts : ∀ e ∈ extsL items, e.s ≤ e.e ∧ e.e ≤ blen code
  took : Took items (ts.filterMap Token.trivia?) f.items (reachedL f.items) f.whitespace
  apportioned : apportionL items (ts.filterMap Token.trivia?) = some (f.items, f.whitespace)

theorem AllOrig.noWs {toks Φ vs} (h : AllOrig toks Φ vs) : NoWs vs := fun k e ws fs hx => (h k e ws fs hx).1

/-- What `parse_rust_file` leads to: never a panic, and it always ends. -/
theorem parseRustFile_cases (X : Xid) (cl cp : Bool) (code : Text) {Ψ : List Token → NT → Rel}
    (hΨ : ∀ toks, Src code toks → Inductive toks (Ψ toks)) :
    (∃ d, lex X cl code = .err d ∧ parseRustFile X cl cp code = .lexErr d) ∨
    (∃ ts loc errs, lex X cl code = .ok ts ∧ parseTokens (significant ts) cp = .err loc errs ∧
      parseRustFile X cl cp code = .parseErr loc errs) ∨
    (∃ f ts items q, parseRustFile X cl cp code = .ok f ∧ parseTokens (significant ts) cp = .ok items ∧
      Parsed X cl code Ψ f ts items q) := by
  rcases C02_terminates X cl code with ⟨ts, h⟩ | ⟨d, h⟩
  · have hx := extract_ok h
    have hs := Src.of_extract hx
    have h1 := parseTokens_ok (Φ := Full (significant ts) (Ψ (significant ts))) hs.eof
      (full_inductive hs (hΨ _ hs)) cp
    cases hp : parseTokens (significant ts) cp with
    | panic => rw [hp] at h1; exact h1.elim
    | hang => rw [hp] at h1; exact h1.elim
    | err loc errs =>
      refine .inr (.inl ⟨ts, loc, errs, h, hp, ?_⟩)
      unfold parseRustFile
      rw [hx]; dsimp only; rw [hp]
    | ok items =>
      rw [hp] at h1
      obtain ⟨q, hi, hq, hl⟩ := h1
      obtain ⟨ho, he⟩ := items_full hs hi
      have hord : Ordered items := fun k e ws fs hx =>
        (he e (List.mem_filterMap.mpr ⟨_, hx, rfl⟩)).1
      obtain ⟨⟨items', m⟩, ha⟩ := apportionL_some items (ts.filterMap Token.trivia?) hord
      have htook := apportionL_took _ _ _ _ ha ho.noWs
      refine .inr (.inr ⟨⟨items', m⟩, ts, items, q, ?_, hp, h, hs, hi, hq, hl, ho, he, htook, ha⟩)
      unfold parseRustFile
      rw [hx]; dsimp only; rw [hp]; dsimp only
      rw [push_all (m := []) (by simpa using trivia_increasing h)]
      unfold apportionFile
      rw [List.nil_append, ha]
      simp
  · refine .inl ⟨d, h, ?_⟩
    unfold parseRustFile extractWhitespace; rw [h]

theorem parseRustFile_ok {f : File} (h : parseRustFile X cl cp code = .ok f) {Ψ : List Token → NT → Rel}
    (hΨ : ∀ toks, Src code toks → Inductive toks (Ψ toks)) : ∃ ts items q, Parsed X cl code Ψ f ts items q := by
  rcases parseRustFile_cases X cl cp code hΨ with ⟨d, -, h'⟩ | ⟨ts, loc, errs, -, -, h'⟩ | ⟨f', ts, items, q, h', -, hp⟩
  · rw [h] at h'; cases h'
  · rw [h] at h'; cases h'
  · rw [h] at h'; cases h'; exact ⟨ts, items, q, hp⟩

end
end Verif
