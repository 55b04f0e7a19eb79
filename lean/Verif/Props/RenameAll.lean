import Verif.Props.Raw
import Verif.Spec.Renamed
/-!
# Property theorem: names can be renamed everywhere at once (C75)
-/

namespace Verif.Props
open Verif Verif.Spec

/-! ## Changing the places twice -/

section
variable (φ ψ : Nat → Nat)

theorem Ws.placed_twice (w : Ws) : (w.placed φ).placed ψ = w.placed (ψ ∘ φ) := by cases w <;> rfl

theorem Token.placed_twice (t : Token) : (t.placed φ).placed ψ = t.placed (ψ ∘ φ) := by
  cases t with
  | plain => rfl
  | number n => simp [Token.placed, Number.placed, Extent.placed, Option.map_map, Function.comp_def]

mutual
theorem placed_twice : ∀ v : V, placed ψ (placed φ v) = placed (ψ ∘ φ) v
  | .ext e => rfl
  | .bool _ => rfl
  | .list vs => by simp [placed, placeds_twice vs]
  | .enm _ vs => by simp [placed, placeds_twice vs]
  | .node k e ws vs => by
    simp [placed, placeds_twice vs, Ws.placed_twice]
    rfl
theorem placeds_twice : ∀ vs : List V, placeds ψ (placeds φ vs) = placeds (ψ ∘ φ) vs
  | [] => rfl
  | v :: vs => by simp [placeds, placed_twice v, placeds_twice vs]
end

theorem FileResult.placed_twice (r : FileResult) : (r.placed φ).placed ψ = r.placed (ψ ∘ φ) := by
  cases r <;> simp [FileResult.placed, placeds_twice, Ws.placed_twice]

end

theorem Ws.placed_same (w : Ws) : w.placed id = w := by cases w <;> rfl

theorem Token.placed_same (t : Token) : t.placed id = t := by
  cases t with
  | plain => rfl
  | number n =>
    have : (fun e : Extent => e.placed id) = id := rfl
    simp [Token.placed, Number.placed, this]

mutual
theorem placed_same : ∀ v : V, placed id v = v
  | .ext e => rfl
  | .bool _ => rfl
  | .list vs => by simp [placed, placeds_same vs]
  | .enm _ vs => by simp [placed, placeds_same vs]
  | .node k e ws vs => by
    have : (fun w : Ws => w.placed id) = id := funext Ws.placed_same
    simp [placed, placeds_same vs, this]
    rfl
theorem placeds_same : ∀ vs : List V, placeds id vs = vs
  | [] => rfl
  | v :: vs => by simp [placeds, placed_same v, placeds_same vs]
end

theorem FileResult.placed_same (r : FileResult) : r.placed id = r := by
  have : (fun w : Ws => w.placed id) = id := funext Ws.placed_same
  cases r <;> simp [FileResult.placed, placeds_same, this]

/-! ## One name after the other -/

/-- The text is a name in front of any text that does not continue it. -/
theorem NameText.spelling {X : Xid} (hX : Sane X) {o : Nat} {y b : Text} (h : NameText X y) (hb : NoCont X b) :
    Spelling X o (.plain .Ident ⟨o, o + blen y⟩) y b := by
  rcases h with ⟨hw, hk, h1, h2, h3⟩ | ⟨v, hv, rfl⟩
  · obtain ⟨c, cs, rfl, hc, hcs⟩ := id hw
    have no : ∀ d ∈ c!"#'\"", X.cont d = false := by
      have key : ∀ d ∈ c!"#'\"", d.toNat < 128 ∧ (d.isAlphanum || decide (d = '_')) = false := by decide
      intro d hd
      rw [hX.cont d (key d hd).1, (key d hd).2]
    have stop : ∀ {d : Char} {t : Text}, cs ++ b = d :: t → d ∈ c!"#'\"" → cs = [] := by
      intro d t e hd
      cases cs with
      | nil => rfl
      | cons x cs =>
        simp only [List.cons_append, List.cons.injEq] at e
        have := hcs x (by simp)
        rw [e.1, no d hd] at this
        cases this
    refine .ident hw hk hb (fun h => ?_) fun ⟨t, ht⟩ => ?_
    · rcases literalAt_cases h with ⟨d, t, e, hd⟩ | ⟨d, t, e, hd⟩ | ⟨d, t, e, hd⟩
      · simp only [List.cons_append, List.cons.injEq] at e
        have := stop e.2 (by rcases hd with rfl | rfl <;> decide)
        exact h2 (by rw [this, e.1])
      · simp only [List.cons_append, List.cons.injEq] at e
        have := stop e.2 (by rcases hd with rfl | rfl <;> decide)
        exact h1 (by rw [this, e.1])
      · simp only [List.cons_append, List.cons.injEq] at e
        cases cs with
        | nil => exact h1 (by rw [e.1])
        | cons x cs =>
          simp only [List.cons_append, List.cons.injEq] at e
          cases cs with
          | nil => exact h3 (by rw [e.1, e.2.1])
          | cons z cs =>
            simp only [List.cons_append, List.cons.injEq] at e
            have := hcs z (by simp)
            rw [e.2.2.1, no d (by rcases hd with rfl | rfl <;> decide)] at this
            cases this
    · simp only [List.cons_append, List.nil_append, List.cons.injEq] at ht
      have := stop ht.2.symm (by decide)
      exact h2 (by rw [this, ← ht.1])
  · exact .rawIdent hv hb

theorem NameText.letter {X : Xid} (hX : Sane X) (hS : ∀ c, X.start c = true → X.cont c = true) {y : Text} (h : NameText X y) :
    ∃ c cs, y = c :: cs ∧ Letter X c ∧ '"' ∉ y := by
  rcases h with ⟨hw, -⟩ | ⟨v, hv, rfl⟩
  · exact word_letter hX hS hw
  · obtain ⟨_, _, -, -, hq⟩ := word_letter hX hS hv
    exact ⟨'r', _, rfl, letter_ascii hX _ (by decide), by simpa using hq⟩

/-- The extents of the tokens, one after the other, have the lengths of these texts; the last token is not counted. -/
def Written : Nat → List Token → List Text → Prop
  | _, ts, [] => ts.length = 1
  | o, ts, x :: xs => ∃ t us, ts = t :: us ∧ t.extent = ⟨o, o + blen x⟩ ∧ Written (o + blen x) us xs

theorem written_slice : ∀ {xs : List Text} {ts : List Token} {p : Text}, Written (blen p) ts xs →
    ∀ (i : Nat) (t : Token) (x : Text), ts[i]? = some t → xs[i]? = some x → sliceText (p ++ xs.flatten) t.extent = some x
  | [], _, _, _ => by intro i t x _ h; simp at h
  | y :: xs, ts, p, h => by
    intro i t x ht hx
    obtain ⟨u, us, rfl, h1, h2⟩ := h
    cases i with
    | zero =>
      simp at ht hx
      subst ht hx
      rw [h1]
      have := sliceText_append p y xs.flatten
      simpa [blen_append] using this
    | succ i =>
      have := written_slice (p := p ++ y) (by rw [blen_append]; exact h2) i t x (by simpa using ht) (by simpa using hx)
      simpa using this

theorem rename_all {X : Xid} (hX : Sane X) (hS : ∀ c, X.start c = true → X.cont c = true) {cl : Bool} {code : Text} {ρ : Text → Text} :
    ∀ {xs : List Text} {U : List Token} {p0 p s : Text} {A : List Token}, code = p0 ++ s → Renamed code ρ (U.map (·.moved (blen p0))) xs →
      Spelled X 0 U s → (∀ e w, .plain .Ident e ∈ U.map (·.moved (blen p0)) → sliceText code e = some w → ρ w = w ∨ NameText X (ρ w)) →
      Spelled X 0 (A ++ U.map (·.moved (blen p))) (p ++ s) →
      ∃ (φ : Nat → Nat) (T : List Token), (A ++ U.map (·.moved (blen p))).map (·.placed φ) = A ++ T ∧ Spelled X 0 (A ++ T) (p ++ xs.flatten) ∧
        Written (blen p) T xs ∧ ∀ cp, parseRustFile X cl cp (p ++ xs.flatten) = (parseRustFile X cl cp (p ++ s)).placed φ := by
  intro xs
  induction xs with
  | nil =>
    intro U p0 p s A _ hr hU _ h
    match U, hU with
    | _, .token hu hU' =>
      exfalso
      have := (spelling_ext hX hu).2.2
      generalize hc : List.map _ _ = L at hr
      cases hr
      simp only [List.map_cons, List.cons.injEq] at hc
      rw [← Token.moved_kind (blen p0), hc.1] at this
      exact this rfl
    | _, .done =>
      refine ⟨id, [.plain .EndOfFile ⟨blen p, blen p⟩], ?_, ?_, rfl, fun cp => by rw [FileResult.placed_same]; rfl⟩
      · rw [show (fun t : Token => t.placed id) = id from funext Token.placed_same]
        simp [Token.moved, Extent.moved]
      · simpa [Token.moved, Extent.moved] using h
  | cons x xs ih =>
    intro U p0 p s A hcode hr hU hρ h
    match U, hU with
    | _, .done => exact absurd hr (by intro hr; cases hr with | other _ h1 => exact h1 rfl)
    | _, .token (t := u) (body := body) (post := s1) hu hU' =>
      rw [Nat.zero_add] at hU'
      obtain ⟨U1, hU1, rfl⟩ := spelled_base hX hU'
      have hmm : ∀ d, (U1.map (·.moved (blen body))).map (·.moved d) = U1.map (·.moved (d + blen body)) := by
        intro d
        rw [List.map_map]
        exact List.map_congr_left fun t _ => by simp [Token.moved_add, Nat.add_comm]
      have hext := (spelling_ext hX hu).2.1
      rw [Nat.zero_add] at hext
      have hslice : sliceText code (u.moved (blen p0)).extent = some body := by
        have : (u.moved (blen p0)).extent = ⟨blen p0, blen p0 + blen body⟩ := by
          rw [show (u.moved (blen p0)).extent = u.extent.moved (blen p0) by cases u <;> rfl, hext]
          simp [Extent.moved, Nat.add_comm]
        rw [this, hcode, ← List.append_assoc]
        have := sliceText_append p0 body s1
        simpa [blen_append] using this
      have hp : (u.moved (blen p)).extent = ⟨blen p, blen p + blen body⟩ := by
        rw [show (u.moved (blen p)).extent = u.extent.moved (blen p) by cases u <;> rfl, hext]
        simp [Extent.moved, Nat.add_comm]
      simp only [List.map_cons] at hr h hρ
      rw [hmm, ← blen_append] at hr h hρ
      have hcode1 : code = (p0 ++ body) ++ s1 := by rw [hcode]; simp
      -- nothing changes here
      have same : ∀ hr : Renamed code ρ (U1.map (·.moved (blen (p0 ++ body)))) xs,
          ∃ (φ : Nat → Nat) (T : List Token), (A ++ (u :: U1.map (·.moved (blen body))).map (·.moved (blen p))).map (·.placed φ) = A ++ T ∧
            Spelled X 0 (A ++ T) (p ++ (body :: xs).flatten) ∧ Written (blen p) T (body :: xs) ∧
            ∀ cp, parseRustFile X cl cp (p ++ (body :: xs).flatten) = (parseRustFile X cl cp (p ++ (body ++ s1))).placed φ := by
        intro hr
        obtain ⟨φ, T, h1, h2, h3, h4⟩ := ih (p := p ++ body) (A := A ++ [u.moved (blen p)]) hcode1 hr hU1
          (fun e w he => hρ e w (List.mem_cons_of_mem _ he)) (by simpa using h)
        refine ⟨φ, u.moved (blen p) :: T, ?_, by simpa using h2, ⟨_, _, rfl, hp, by rw [← blen_append]; exact h3⟩, by simpa using h4⟩
        simp only [List.map_cons]
        rw [hmm, ← blen_append]
        simpa using h1
      generalize hm : u.moved (blen p0) = u0 at hr hρ hslice
      generalize hL : U1.map (·.moved (blen (p0 ++ body))) = L at hr hρ same
      cases hr with
      | other h1 h2 h3 h4 =>
        rw [hslice] at h3
        cases h3
        exact same h4
      | name h3 h4 =>
        rename_i e w
        replace hslice : sliceText code e = some body := hslice
        rw [hslice] at h3
        cases h3
        rcases hρ e body (by simp) hslice with h5 | h5
        · rw [h5]; exact same h4
        generalize ρ body = y at h5
        obtain ⟨e0, rfl⟩ : ∃ e0, u = .plain .Ident e0 := by
          cases u with
          | number n => cases hm
          | plain k e0 => cases hm; exact ⟨e0, rfl⟩
        replace hp : (Token.plain .Ident e0).moved (blen p) = .plain .Ident ⟨blen p, blen (p ++ body)⟩ := by
          rw [blen_append]
          exact congrArg (Token.plain .Ident) hp
        rw [hp] at h
        have hnc := (spelling_ident hX hu rfl).2
        obtain ⟨c, cs, hc, hl, hq⟩ := NameText.letter hX hS h5
        obtain ⟨⟨d, ds, hd, hld⟩, -⟩ := spelling_isWord hX hS hu (.inl rfl)
        have h' : Spelled X 0 (A ++ .plain .Ident ⟨blen p, blen (p ++ y)⟩ :: U1.map (·.moved (blen (p ++ y)))) (p ++ y ++ s1) := by
          obtain ⟨P, v, b, he, g1, g2, -, g4⟩ := spelled_word hX (by simp [Token.kind?]) A h
          have hext := (spelling_ext hX g1).2.1
          simp only [Token.extent, Extent.mk.injEq] at hext
          obtain ⟨rfl, he2⟩ := front_unique he (by omega)
          have hlen : blen body = blen v := by have := hext.2; rw [blen_append] at this; omega
          obtain ⟨rfl, rfl⟩ := front_unique he2 hlen
          have h6 := spelled_moved hU1 (blen (p ++ y))
          have := g4 (w' := y) ⟨d, c, _, _, by rw [hd]; rfl, by rw [hc]; rfl, .inr ⟨hld, hl⟩⟩ (closes_plain hq) ?_
            (NameText.spelling hX h5 hnc) (by simpa using h6)
          · simpa using this
          · rintro ⟨d', t, e, hd'⟩
            rw [hd] at e
            cases e
            have key : ∀ d ∈ digitHeads, d ∈ symHeads ++ c!"'\"0123456789" := by decide
            exact (not_start hX _ (key _ hd') hld.1).elim
        obtain ⟨φ, T, k1, k2, k3, k4⟩ := ih (p := p ++ y) (A := A ++ [.plain .Ident ⟨blen p, blen (p ++ y)⟩]) hcode1 (by rw [hL]; exact h4) hU1
          (by rw [hL]; exact fun e w he => hρ e w (List.mem_cons_of_mem _ he)) (by simpa using h')
        have hlex : lex X cl (p ++ (body ++ s1)) = .ok _ := (lex_spelled hX _ _ _).mpr h
        have hlex' : lex X cl (p ++ y ++ s1) = .ok _ := (lex_spelled hX _ _ _).mpr h'
        have hbody : 0 < blen body := by rw [hd]; have := d.utf8Size_pos; simp; omega
        have hmap := Place.replace_map hlex (m := 0) (j' := blen (p ++ y)) (by simp; omega) (by simp)
        refine ⟨φ ∘ replacedAt 0 (blen p) (blen (p ++ body)) (blen (p ++ y)), .plain .Ident ⟨blen p, blen (p ++ y)⟩ :: T, ?_, by simpa using k2,
          ⟨_, _, rfl, by simp [Token.extent], by rw [← blen_append]; exact k3⟩, fun cp => ?_⟩
        · simp only [List.map_cons]
          rw [hmm, ← blen_append, hp]
          have : ∀ L : List Token, L.map (·.placed (φ ∘ replacedAt 0 (blen p) (blen (p ++ body)) (blen (p ++ y)))) =
              (L.map (·.placed (replacedAt 0 (blen p) (blen (p ++ body)) (blen (p ++ y))))).map (·.placed φ) := by
            intro L
            rw [List.map_map]
            exact List.map_congr_left fun t _ => (Token.placed_twice _ _ t).symm
          rw [this, hmap]
          simpa using k1
        · have := k4 cp
          rw [Place.replace_token hlex hlex' (m := 0) (by simp; omega) (by simp) (.inl rfl) (.inl rfl) fun _ => rfl,
            FileResult.placed_twice] at this
          simpa using this

/-- In every text, the names can be replaced. -/
theorem C75_renamed_exists (X : Xid) (hX : Sane X) (cl : Bool) (code : Text) (ts : List Token) (ρ : Text → Text)
    (h : lex X cl code = .ok ts) : ∃ xs, Renamed code ρ ts xs := by
  rw [lex_spelled hX] at h
  have key : ∀ {ts : List Token} {p s : Text}, code = p ++ s → Spelled X (blen p) ts s → ∃ xs, Renamed code ρ ts xs := by
    intro ts
    induction ts with
    | nil => intro p s _ h; cases h
    | cons t ts ih =>
      intro p s hc h
      cases h with
      | done => exact ⟨_, .done⟩
      | @token _ _ body post _ h1 h2 =>
        obtain ⟨xs, hx⟩ := ih (p := p ++ body) (s := post) (by rw [hc]; simp) (by rw [blen_append]; exact h2)
        obtain ⟨-, he, hk⟩ := spelling_ext hX h1
        have hs : sliceText code t.extent = some body := by
          rw [he, hc]
          exact sliceText_append p body post
        by_cases hi : t.kind? = some .Ident
        · cases t with
          | number n => cases hi
          | plain k e => cases hi; exact ⟨_, .name hs hx⟩
        · exact ⟨_, .other hi hk hs hx⟩
  exact key (p := []) rfl h

/-- All names are replaced as `ρ` says.  Then every token is still there, of the same kind and with the text it should have, at a new place;
and the result is the same at the new places: the same tree, or the same errors. -/
theorem C75_rename_all (X : Xid) (hX : Sane X) (hS : ∀ c, X.start c = true → X.cont c = true) (cl : Bool) (code : Text) (ts : List Token)
    (ρ : Text → Text) (xs : List Text) (h : lex X cl code = .ok ts) (hr : Renamed code ρ ts xs)
    (hρ : ∀ e w, .plain .Ident e ∈ ts → sliceText code e = some w → ρ w = w ∨ NameText X (ρ w)) :
    ∃ φ : Nat → Nat, lex X cl xs.flatten = .ok (ts.map (·.placed φ)) ∧
      (∀ (i : Nat) (t : Token) (x : Text), ts[i]? = some t → xs[i]? = some x → sliceText xs.flatten (t.placed φ).extent = some x) ∧
      ∀ cp, parseRustFile X cl cp xs.flatten = (parseRustFile X cl cp code).placed φ := by
  rw [lex_spelled hX] at h
  have h0 : ts.map (·.moved (blen [])) = ts := by
    refine (List.map_congr_left fun t _ => ?_).trans (List.map_id _)
    have he : ∀ x : Extent, x.moved 0 = x := fun x => rfl
    cases t with
    | plain k e => rfl
    | number n =>
      simp [Token.moved, Number.moved, blen, he]
  obtain ⟨φ, T, h1, h2, h3, h4⟩ := rename_all (cl := cl) hX hS (p0 := []) (p := []) (A := []) rfl (by rw [h0]; exact hr) h
    (by rw [h0]; exact hρ) (by rw [h0]; exact h)
  rw [h0] at h1
  simp only [List.nil_append] at h1 h2 h4
  refine ⟨φ, by rw [lex_spelled hX, h1]; exact h2, fun i t x ht hx => ?_, h4⟩
  have := written_slice (p := []) h3 i (t.placed φ) x (by rw [← h1]; simp [ht]) hx
  simpa using this

/-- The hypotheses are met: a constant is renamed where it is declared and where it is used, but not in the string. -/
example : let ρ : Text → Text := fun w => if w = c!"A" then c!"r#match" else w
    let code := c!"const A:T=A+\"A\";"
    ∃ ts, lex asciiXid true code = .ok ts ∧
      Renamed code ρ ts [c!"const", c!" ", c!"r#match", c!":", c!"T", c!"=", c!"r#match", c!"+", c!"\"A\"", c!";"] ∧
      (∀ e w, .plain .Ident e ∈ ts → sliceText code e = some w → ρ w = w ∨ NameText asciiXid (ρ w)) ∧
      ∃ f, parseRustFile asciiXid true true code = .ok f := by
  refine ⟨[.plain .Const ⟨0, 5⟩, .plain .Whitespace ⟨5, 6⟩, .plain .Ident ⟨6, 7⟩, .plain .Colon ⟨7, 8⟩, .plain .Ident ⟨8, 9⟩, .plain .Equals ⟨9, 10⟩,
    .plain .Ident ⟨10, 11⟩, .plain .Plus ⟨11, 12⟩, .plain .String ⟨12, 15⟩, .plain .Semicolon ⟨15, 16⟩, .plain .EndOfFile ⟨16, 16⟩], ?_, ?_, ?_, ?_⟩
  · decide +kernel
  · have oth : ∀ {t : Token} {w : Text} {ts xs}, t.kind? ≠ some .Ident ∧ t.kind? ≠ some .EndOfFile ∧ sliceText c!"const A:T=A+\"A\";" t.extent = some w →
        Renamed c!"const A:T=A+\"A\";" (fun w => if w = c!"A" then c!"r#match" else w) ts xs →
        Renamed c!"const A:T=A+\"A\";" (fun w => if w = c!"A" then c!"r#match" else w) (t :: ts) (w :: xs) :=
      fun h h' => .other h.1 h.2.1 h.2.2 h'
    refine oth (by decide) (oth (by decide) (.name (w := c!"A") (by decide) (oth (by decide) (.name (w := c!"T") (by decide) (oth (by decide)
      (.name (w := c!"A") (by decide) (oth (by decide) (oth (by decide) (oth (by decide) .done)))))))))
  · intro e w _ _
    dsimp only
    split
    · exact .inr (.inr ⟨c!"match", ⟨'m', c!"atch", rfl, by decide, by decide⟩, rfl⟩)
    · exact .inl rfl
  · have : (match parseRustFile asciiXid true true c!"const A:T=A+\"A\";" with | .ok _ => true | _ => false) = true := by decide +kernel
    split at this
    · rename_i f h; exact ⟨f, h⟩
    · cases this

end Verif.Props
