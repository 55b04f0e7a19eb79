import Verif.Proofs.InvertLog
/-!
# How far the parser of an item looks

In tokens whose brackets match, the failures recovered from while an item is parsed are all before the end of the item.
-/

namespace Verif
open Spec

/-- No token can be split into tokens of this kind, and tokens of this kind cannot be split. -/
def TK.solid : TK → Bool
  | .LeftAngle | .RightAngle | .Pipe | .Ampersand | .DoubleLeftAngle | .DoubleRightAngle | .ShiftRightEquals | .GreaterThanOrEquals
  | .DoublePipe | .DoubleAmpersand | .Equals => false
  | _ => true

section
variable {toks : List Token} {N : Nat}

theorem split_solid {t : Token} {n : Nat} {u : Token × Token} (h : split t n = some u) :
    ∀ c, c = t ∨ c = u.1 ∨ c = u.2 → ∀ k, c.kind? = some k → k.solid = false := by
  unfold split at h
  split at h <;> first
    | (cases h; done)
    | (cases h; rintro c (rfl | rfl | rfl) k hk <;> cases hk <;> rfl)

/-- How a token that cannot come from splitting is read. -/
theorem solid_cases {k : TK} (hk : k.solid = true) (err : PErr) (a : Amb) (pt : Pt) :
    (∃ e, token toks (convTK k) err a pt = ⟨.fail pt e, a, []⟩) ∨ (token toks (convTK k) err a pt = ⟨.panic, a, []⟩) ∨
    (∃ v t, token toks (convTK k) err a pt = ⟨.ok ⟨pt.off + 1, none⟩ v, a, []⟩ ∧ toks[pt.off]? = some t ∧ t.kind? = some k) := by
  have no : ∀ {t : Token} {n u c v}, split t n = some u → c = t ∨ c = u.1 ∨ c = u.2 → convTK k c = some v → False := by
    intro t n u c v h1 h2 h3
    have := split_solid h1 c h2 k (convTK_kind h3)
    rw [hk] at this; cases this
  rcases token_cases (toks := toks) (convTK k) err a pt with h | h | ⟨q, v, t, c, h, ht, hv, h1⟩
  · exact .inl h
  · exact .inr (.inl h)
  · rcases h1 with ⟨rfl, rfl | ⟨n, u, h1, rfl⟩⟩ | ⟨-, n, u, h1, rfl⟩
    · exact .inr (.inr ⟨v, c, h, ht, convTK_kind hv⟩)
    · exact (no h1 (.inr (.inr rfl)) hv).elim
    · exact (no h1 (.inr (.inl rfl)) hv).elim

variable {rec : NT → P (List V)} {a a2 : Amb} {pt q : Pt} {l : Log} {e : PErr} {w : List V}

theorem tok_ok {k : TK} (hk : k.solid = true) (h : evalG toks rec (.tok k) a pt = ⟨.ok q w, a2, l⟩) :
    q = ⟨pt.off + 1, none⟩ ∧ l = [] ∧ a2 = a ∧ ∃ t, toks[pt.off]? = some t ∧ t.kind? = some k := by
  obtain ⟨v, h1, -⟩ := Inv.map_ok h
  rcases solid_cases (toks := toks) hk (.Expected k) a pt with ⟨e, h2⟩ | h2 | ⟨v, t, h2, ht, hkt⟩ <;> rw [h2] at h1 <;> cases h1
  exact ⟨rfl, rfl, rfl, t, ht, hkt⟩

theorem tok_fail {k : TK} (hk : k.solid = true) (h : evalG toks rec (.tok k) a pt = ⟨.fail q e, a2, l⟩) :
    q = pt ∧ l = [] ∧ a2 = a := by
  have h1 := Inv.map_fail h
  rcases solid_cases (toks := toks) hk (.Expected k) a pt with ⟨e, h2⟩ | h2 | ⟨v, t, h2, ht, hkt⟩ <;> rw [h2] at h1 <;> cases h1
  exact ⟨rfl, rfl, rfl⟩

theorem d_ok {k : TK} (hk : k.solid = true) (h : evalG toks rec (.d k) a pt = ⟨.ok q w, a2, l⟩) :
    q = ⟨pt.off + 1, none⟩ ∧ l = [] ∧ a2 = a ∧ ∃ t, toks[pt.off]? = some t ∧ t.kind? = some k := by
  obtain ⟨v, h1, -⟩ := Inv.map_ok h
  exact tok_ok hk h1

theorem d_fail {k : TK} (hk : k.solid = true) (h : evalG toks rec (.d k) a pt = ⟨.fail q e, a2, l⟩) :
    q = pt ∧ l = [] ∧ a2 = a := tok_fail hk (Inv.map_fail h)

theorem ValidPt.none_of_solid {t : Token} {k : TK} (h : ValidPt toks pt) (ht : toks[pt.off]? = some t) (hk : t.kind? = some k)
    (hs : k.solid = true) : pt = ⟨pt.off, none⟩ := by
  obtain ⟨off, sub⟩ := pt
  cases sub with
  | none => rfl
  | some n =>
    obtain ⟨t', h1, h2⟩ := h
    rw [ht] at h1; cases h1
    have h3 := h2 n rfl
    cases hsp : split t n with
    | none => simp [hsp] at h3
    | some u => have := split_solid hsp t (.inl rfl) k hk; rw [hs] at this; cases this

/-! ## The symbols from a token on -/

/-- The symbol of a token. -/
def Token.sym : Token → Lexeme
  | .plain k _ => .t k
  | .number n => .num n

theorem Written.all : ∀ ts : List Token, Written (ts.map Token.sym) ts
  | [] => .nil
  | .plain _ _ :: ts => .t (Written.all ts)
  | .number _ :: ts => .num ⟨rfl, rfl, rfl, rfl, Iff.rfl⟩ (Written.all ts)

theorem at_all (ht : EofLast toks) (hN : toks.length = N + 1) {x : Nat} (hx : x ≤ N) :
    At toks ⟨x, none⟩ (((toks.take N).drop x).map Token.sym) := by
  obtain ⟨init, t, rfl, h1, -⟩ := ht
  have hl : init.length = N := by simpa using hN
  subst hl
  have : t = .plain .EndOfFile t.extent := by
    cases t with
    | plain k e => cases k <;> first | rfl | (simp [Token.isEOF] at h1)
    | number => simp [Token.isEOF] at h1
  rw [this]
  have h2 := written_at (Written.all (init.drop x)) (e := t.extent) (init.take x)
  rw [List.take_append_drop] at h2
  simpa [Nat.min_eq_left hx] using h2

theorem at_cons (ht : EofLast toks) (hN : toks.length = N + 1) {x : Nat} {t : Token} {k : TK} (h : toks[x]? = some t) (hx : x < N)
    (hk : t.kind? = some k) : ∃ o, At toks ⟨x, none⟩ (.t k :: o) ∧ At toks ⟨x + 1, none⟩ o := by
  refine ⟨_, ?_, at_all ht hN (x := x + 1) hx⟩
  have h1 := at_all ht hN (Nat.le_of_lt hx)
  have h2 : (toks.take N).drop x = t :: (toks.take N).drop (x + 1) := by
    obtain ⟨h3, rfl⟩ := List.getElem?_eq_some_iff.mp h
    rw [List.drop_eq_getElem_cons (by simp; omega)]
    simp
  rw [h2] at h1
  have : t.sym = .t k := by
    cases t with
    | plain k' e => simp [Token.kind?] at hk; subst hk; rfl
    | number => simp [Token.kind?] at hk
  simpa [this] using h1

/-- A computation shows that the parser fails. -/
theorem rejects_of {g : G} {am : Amb} {ks : List TK} {o : List Lexeme}
    (h : (explore [] [] am steps am g (ks.map fun k => .s (.t k))).isRej = true) : Rejects toks g am (ks.map Lexeme.t ++ o) := by
  have hd : Denotes toks (ks.map fun k => Piece.s (.t k)) (ks.map Lexeme.t) := by
    clear h
    induction ks with
    | nil => exact .nil
    | cons k ks ih => exact .s ih
  have h1 := explore_sound (toks := toks) (b := []) (nd := []) (am0 := am) (rest := o) (by cases o <;> simp [ahead]) (by simp) steps am g _ _ hd
  generalize explore [] [] am steps am g (ks.map fun k => Piece.s (.t k)) = f at h h1
  cases f with
  | rej => exact h1
  | ok => cases h
  | unk => cases h

theorem Rejects.no {g : G} {am : Amb} {i : List Lexeme} {p : Pt} (h : Rejects toks g am i) (hp : At toks p i) {n : Nat} {q : Pt} {w : List V}
    {a2 : Amb} {l : Log} (h1 : evalG toks (eval toks n) g am p = ⟨.ok q w, a2, l⟩) : False := by
  have h2 := h p hp n
  rw [h1] at h2
  rcases h2 with h2 | ⟨-, p', e, h2, -⟩ <;> cases h2

/-! ## One item excludes the others -/

theorem eval_rule {nt : NT} {g : G} (hr : rules nt = .g g) (n : Nat) : eval toks (n + 1) nt = evalG toks (eval toks n) g := by
  show evalRule toks (eval toks n) (rules nt) = _
  rw [hr]; rfl

variable {n : Nat} {nt : NT} {mk : Mk} {rest : G}

theorem vis_ok (hr : rules nt = .g (.build mk (.seq (.opt (.r .visibility)) rest))) (h : eval toks (n + 1) nt a pt = ⟨.ok q w, a2, l⟩) :
    ∃ q1 v v' a1 l1 l2, evalG toks (eval toks n) (.opt (.r .visibility)) a pt = ⟨.ok q1 v, a1, l1⟩ ∧
      evalG toks (eval toks n) rest a1 q1 = ⟨.ok q v', a2, l2⟩ ∧ l = l1 ++ l2 := by
  rw [eval_rule hr] at h
  obtain ⟨v, h⟩ := build_ok h
  exact seq_ok h

theorem vis_fail (hr : rules nt = .g (.build mk (.seq (.opt (.r .visibility)) rest))) (h : eval toks (n + 1) nt a pt = ⟨.fail q e, a2, l⟩) :
    ∃ q1 v a1 l1 l2, evalG toks (eval toks n) (.opt (.r .visibility)) a pt = ⟨.ok q1 v, a1, l1⟩ ∧
      evalG toks (eval toks n) rest a1 q1 = ⟨.fail q e, a2, l2⟩ ∧ l = l1 ++ l2 := by
  rw [eval_rule hr] at h
  rcases seq_fail (build_fail h) with h1 | h1
  · exact (opt_fail h1).elim
  · exact h1

/-- What is known where the visibility ends. -/
theorem vis_run (hc : Ctx toks N) (ht : EofLast toks) {i s : Nat} (hz : Zone toks N 2 i s) {am a1 : Amb} {q1 : Pt} {v : List V} {l1 : Log}
    (hp : ValidPt toks ⟨i, none⟩)
    (h : evalG toks (eval toks n) (.opt (.r .visibility)) am ⟨i, none⟩ = ⟨.ok q1 v, a1, l1⟩) :
    a1 = am ∧ ValidPt toks q1 ∧ In i s q1 ∧ ∀ x ∈ l1, x.1.off ≤ s := by
  have h1 := evalG_stay hc.closed (eval_stay hc.closed n) (.opt (.r .visibility)) 2 i s false false hz (by decide +kernel) am ⟨i, none⟩
    ⟨Nat.le_refl _, hz.le⟩
  have h2 := evalG_run ht (eval_consumes ht n) (.opt (.r .visibility)) (by decide +kernel) am ⟨i, none⟩ hp
  rw [h] at h1 h2
  exact ⟨h2.1, h2.2.2.1, h1.ok _ _ rfl, h1.log⟩

/-- With another keyword there it is another item. -/
theorem vis_no (hc : Ctx toks N) (ht : EofLast toks) (hN : toks.length = N + 1)
    (hr : rules nt = .g (.build mk (.seq (.opt (.r .visibility)) rest))) {K : TK} (hK : K.solid = true) (hKe : K ≠ .EndOfFile)
    (hx : (explore [] [] .Unambiguous steps .Unambiguous rest [.s (.t K)]).isRej = true) {q1 : Pt} {v : List V} {l1 : Log} {t : Token}
    (hv : evalG toks (eval toks n) (.opt (.r .visibility)) .Unambiguous pt = ⟨.ok q1 v, .Unambiguous, l1⟩)
    (hq1 : ValidPt toks q1) (h1 : toks[q1.off]? = some t) (h2 : t.kind? = some K)
    (h : eval toks (n + 1) nt .Unambiguous pt = ⟨.ok q w, a2, l⟩) : False := by
  obtain ⟨q1', v', v'', a1, l1', l2, h3, h4, -⟩ := vis_ok hr h
  rw [hv] at h3
  cases h3
  have h5 := hq1.none_of_solid h1 h2 hK
  have hlt : q1.off < N := by
    have := hq1.off_lt
    rcases Nat.lt_or_ge q1.off N with h6 | h6
    · exact h6
    · have : q1.off = N := by omega
      obtain ⟨u, h7, h8⟩ := hc.eof
      rw [← this, h1] at h7; cases h7; rw [h2] at h8; cases h8; exact absurd rfl hKe
  obtain ⟨o, h6, -⟩ := at_cons ht hN h1 hlt h2
  rw [← h5] at h6
  exact Rejects.no (rejects_of (ks := [K]) hx) h6 h4

/-- An item that failed before another succeeded, because of its keyword. -/
theorem excl_key (hc : Ctx toks N) (ht : EofLast toks) (hN : toks.length = N + 1) {i s : Nat} (hz : Zone toks N 2 i s)
    (hp : ValidPt toks ⟨i, none⟩) {nt' : NT} {mk' : Mk} {rest' : G} {K : TK}
    (hr' : rules nt' = .g (.build mk' (.seq (.opt (.r .visibility)) (.seq (.d K) rest'))))
    (hr : rules nt = .g (.build mk (.seq (.opt (.r .visibility)) rest))) (hK : K.solid = true) (hKe : K ≠ .EndOfFile)
    (hx : (explore [] [] .Unambiguous steps .Unambiguous rest [.s (.t K)]).isRej = true) {p : Pt} {a' : Amb} {l' : Log}
    (h' : eval toks (n + 1) nt' .Unambiguous ⟨i, none⟩ = ⟨.fail p e, a', l'⟩)
    (h : eval toks (n + 1) nt .Unambiguous ⟨i, none⟩ = ⟨.ok q w, a2, l⟩) : ∀ x ∈ (p, e) :: l', x.1.off ≤ s := by
  obtain ⟨q1, v, a1, l1, l2, h1, h2, rfl⟩ := vis_fail hr' h'
  obtain ⟨rfl, h4, h5, h6⟩ := vis_run hc ht hz hp h1
  rcases seq_fail h2 with h3 | ⟨m, v', a1', l3, l4, h3, -⟩
  · obtain ⟨rfl, rfl, -⟩ := d_fail hK h3
    intro x hx'
    simp at hx'
    rcases hx' with rfl | hx'
    · exact h5.2
    · exact h6 x hx'
  · obtain ⟨-, -, -, t, h7, h8⟩ := d_ok hK h3
    exact (vis_no hc ht hN hr hK hKe hx h1 h4 h7 h8 h).elim

theorem kinds_headsOf (k : TK) : ∀ x ∈ headsOf k, x ∈ [some TK.LeftAngle, some .RightAngle, some .Pipe, some .Ampersand] := by
  cases k <;> simp [headsOf]

/-- A parser that succeeds, and cannot succeed without reading anything, can begin with the token there. -/
theorem first_of_ok {x : Nat} {t : Token} (h1 : toks[x]? = some t) {g : G} (hn : g.null = false)
    (hs : ∀ k ∈ g.first NT.first, k ∉ [some TK.LeftAngle, some .RightAngle, some .Pipe, some .Ampersand]) 
    (h : evalG toks (eval toks n) g a ⟨x, none⟩ = ⟨.ok q w, a2, l⟩) : t.kind? ∈ g.first NT.first := by
  have hv : ValidPt toks ⟨x, none⟩ := ⟨t, h1, by simp⟩
  apply Classical.byContradiction
  intro hne
  have := idle_evalG hv (idle_eval firstTable_ok hv n) g a (fun k hk hk' => by
    rw [peeks_none h1] at hk'
    rcases List.mem_cons.mp hk' with rfl | hk'
    · exact hne hk
    · cases t with
      | plain k' e => rw [split0_kinds] at hk'; exact hs k hk (kinds_headsOf k' k hk')
      | number => simp [split] at hk')
  rw [h, hn] at this
  rcases this with h | ⟨-, ⟨e, h⟩ | ⟨h, -⟩⟩ <;> cases h

theorem opt_ok {g : G} {v : List V} (h : evalG toks rec (.opt g) a pt = ⟨.ok q v, a2, l⟩) :
    (∃ w, evalG toks rec g a pt = ⟨.ok q w, a2, l⟩) ∨ q = pt := by
  obtain ⟨o, h, -⟩ := Inv.map_ok h
  unfold P.optional at h
  rcases hr : evalG toks rec g a pt with ⟨⟨m, v⟩ | ⟨m, e⟩ | _ | _, a1, l1⟩ <;> rw [hr] at h <;> cases h
  · exact .inl ⟨v, rfl⟩
  · exact .inr rfl

/-- The items with a visibility that do not begin with `const`. -/
def constFree : NT → Bool
  | .extern_crate | .«module» | .p_enum | .p_struct | .p_trait | .p_union | .type_alias => true
  | _ => false

theorem constFree_rule {nt : NT} (h : constFree nt = true) : ∃ mk rest, rules nt = .g (.build mk (.seq (.opt (.r .visibility)) rest)) ∧
    (explore [] [] .Unambiguous steps .Unambiguous rest [.s (.t .Const)]).isRej = true := by
  cases nt <;> simp [constFree] at h <;> exact ⟨_, _, rfl, by decide +kernel⟩

/-- An item that is not a constant, when a constant begins. -/
theorem const_no (hc : Ctx toks N) (ht : EofLast toks) (hN : toks.length = N + 1) {i : Nat} (hp : ValidPt toks ⟨i, none⟩)
    (hnt : constFree nt = true ∨ nt = .extern_block ∨ nt = .p_impl ∨ nt = .item_macro_call ∨ nt = .function)
    {q1 : Pt} {v : List V} {l1 : Log} {t t' : Token} {kid : TK}
    (hv : evalG toks (eval toks n) (.opt (.r .visibility)) .Unambiguous ⟨i, none⟩ = ⟨.ok q1 v, .Unambiguous, l1⟩)
    (hiq : i ≤ q1.off) (hq1 : ValidPt toks q1) (h1 : toks[q1.off]? = some t) (h2 : t.kind? = some .Const) (hlt : q1.off + 1 < N)
    (h3 : toks[q1.off + 1]? = some t') (h4 : t'.kind? = some kid) (h5 : some kid ∈ NT.first .ident)
    (h : eval toks (n + 1) nt .Unambiguous ⟨i, none⟩ = ⟨.ok q w, a2, l⟩) : False := by
  have hq := hq1.none_of_solid h1 h2 rfl
  -- the first token
  obtain ⟨ti, hti, -⟩ := id hp
  have hti' : toks[i]? = some ti := hti
  have hki : ti.kind? = some .Const ∧ q1 = ⟨i, none⟩ ∨ ti.kind? = some .Pub ∨ ti.kind? = some .Crate := by
    rcases opt_ok hv with ⟨w, h6⟩ | h6
    · have := first_of_ok (g := .r .visibility) hti' (by decide +kernel) (by decide +kernel) h6
      simp [G.first, NT.first] at this
      rcases this with h7 | h7
      · exact .inr (.inl h7)
      · exact .inr (.inr h7)
    · rw [h6] at h1
      have h1 : toks[i]? = some t := h1
      rw [hti'] at h1; cases h1
      exact .inl ⟨h2, h6⟩
  have one : ∀ {g : G} {k : TK}, rules nt = .g g → ti.kind? = some k →
      (explore [] [] .Unambiguous steps .Unambiguous g [.s (.t k)]).isRej = true → False := by
    intro g k hr hk hx
    obtain ⟨o, h6, -⟩ := at_cons ht hN hti' (by omega) hk
    rw [eval_rule hr] at h
    exact Rejects.no (rejects_of (ks := [k]) hx) h6 h
  rcases hnt with hnt | rfl | rfl | rfl | rfl
  · obtain ⟨mk, rest, hr, hx⟩ := constFree_rule hnt
    exact vis_no hc ht hN hr rfl (by decide) hx hv hq1 h1 h2 h
  · rcases hki with ⟨hki, -⟩ | hki | hki <;> exact one rfl hki (by decide +kernel)
  · rcases hki with ⟨hki, -⟩ | hki | hki <;> exact one rfl hki (by decide +kernel)
  · rcases hki with ⟨hki, -⟩ | hki | hki
    · exact one rfl hki (by decide +kernel)
    · exact one rfl hki (by decide +kernel)
    · have hq1' : q1 = ⟨i + 1, none⟩ := by
        rcases opt_ok hv with ⟨w, h6⟩ | h6
        · cases n with
          | zero => cases h6
          | succ n =>
            have h6 : eval toks (n + 1) .visibility _ _ = _ := h6
            rw [eval_rule rfl] at h6
            rcases Inv.orElse_ok h6 with h7 | ⟨m, e', a1, l1, l2, -, h7, -⟩
            · obtain ⟨v', h7, -⟩ := Inv.map_ok h7
              obtain ⟨o, h8, -⟩ := at_cons ht hN hti' (by omega) hki
              exact (Rejects.no (g := .r .visibility_public) (rejects_of (ks := [.Crate]) (by decide +kernel)) h8 h7).elim
            · obtain ⟨v', h7, -⟩ := Inv.map_ok h7
              exact (tok_ok (k := .Crate) rfl h7).1
        · rw [h6] at h1
          have h1 : toks[i]? = some t := h1
          rw [hti'] at h1; cases h1; rw [h2] at hki; cases hki
      subst hq1'
      obtain ⟨o, h6, h7⟩ := at_cons ht hN hti' (by omega) hki
      obtain ⟨o', h8, -⟩ := at_cons ht hN h1 (by show i + 1 < N; exact Nat.lt_of_succ_lt hlt) h2
      have h9 : At toks ⟨i, none⟩ (.t .Crate :: .t .Const :: o') := by
        obtain ⟨q, b1, b2, b3, -⟩ := h6
        refine ⟨_, ⟨b1.left, h8.valid, ?_⟩, b2, ?_, h8⟩
        · simp [Pt.key, Pt.subw]; omega
        · cases ti with
          | plain k' e' => simp [Token.kind?] at hki; subst hki; exact .whole rfl (by rw [current_none, hti'])
          | number => simp [Token.kind?] at hki
      rw [eval_rule rfl] at h
      exact Rejects.no (rejects_of (ks := [.Crate, .Const]) (by decide +kernel)) h9 h
  · rw [eval_rule rfl] at h
    obtain ⟨v', h⟩ := build_ok h
    obtain ⟨m, v1, v2, a1, l3, l4, h6, -⟩ := seq_ok h
    have h6 : eval toks n .function_header _ _ = _ := h6
    cases n with
    | zero => cases h6
    | succ n =>
      obtain ⟨q1', v3, v4, a3, l5, l6, h7, h8, -⟩ := vis_ok rfl h6
      have h9 := evalG_local ht (n := max (evalG toks (eval toks n) (.opt (.r .visibility)) .Unambiguous ⟨i, none⟩).reach 0) (toks' := toks) (fun _ _ => rfl) (eval_consumes ht n) (eval_tracked ht n)
        (fun nt => eval_local ht (fun _ _ => rfl) n (n + 1) nt) (.opt (.r .visibility)) (by decide +kernel) (by decide +kernel)
        .Unambiguous ⟨i, none⟩ hp (by rw [h7]; simp) (by rw [hv]; simp) (Nat.le_max_left _ _)
      rw [hv, h7] at h9
      cases h9
      obtain ⟨o, b1, -⟩ := at_cons ht hN h1 (by omega) h2
      obtain ⟨o', b2, -⟩ := at_cons ht hN h3 (by omega) h4
      have b3 : At toks q1 (.t .Const :: .t kid :: o') := by
        rw [hq]
        obtain ⟨q, c1, c2, c3, -⟩ := b1
        refine ⟨_, ⟨c1.left, b2.valid, ?_⟩, c2, ?_, b2⟩
        · simp [Pt.key, Pt.subw]; omega
        · cases t with
          | plain k' e' => simp [Token.kind?] at h2; subst h2; exact .whole rfl (by rw [current_none, h1])
          | number => simp [Token.kind?] at h2
      simp [NT.first] at h5
      rcases h5 with rfl | rfl | rfl | rfl | rfl <;>
        exact Rejects.no (rejects_of (ks := [.Const, _]) (by decide +kernel)) b3 h8

/-- A constant that failed before another item succeeded. -/
theorem excl_const (hc : Ctx toks N) (ht : EofLast toks) (hN : toks.length = N + 1) {i s : Nat} (hz : Zone toks N 2 i s)
    (hp : ValidPt toks ⟨i, none⟩) {u : Token} (hu : toks[s]? = some u) (hku : u.kind? = some .LeftCurly)
    (hnt : constFree nt = true ∨ nt = .extern_block ∨ nt = .p_impl ∨ nt = .item_macro_call ∨ nt = .function) {p : Pt} {a' : Amb} {l' : Log}
    (h' : eval toks (n + 1) .p_const .Unambiguous ⟨i, none⟩ = ⟨.fail p e, a', l'⟩)
    (h : eval toks (n + 1) nt .Unambiguous ⟨i, none⟩ = ⟨.ok q w, a2, l⟩) : ∀ x ∈ (p, e) :: l', x.1.off ≤ s := by
  obtain ⟨q1, v, a1, l1, l2, h1, h2, rfl⟩ := vis_fail rfl h'
  obtain ⟨rfl, h4, h5, h6⟩ := vis_run hc ht hz hp h1
  rcases seq_fail h2 with h3 | ⟨m, v', a1', l3, l4, h3, h9, rfl⟩
  · obtain ⟨rfl, rfl, -⟩ := d_fail rfl h3
    intro x hx'
    simp at hx'
    rcases hx' with rfl | hx'
    · exact h5.2
    · exact h6 x hx'
  · obtain ⟨rfl, rfl, rfl, t, h7, h8⟩ := d_ok rfl h3
    have hlt : q1.off < s := by
      rcases Nat.lt_or_eq_of_le h5.2 with h10 | h10
      · exact h10
      · rw [h10, hu] at h7; cases h7; rw [hku] at h8; cases h8
    have hsN : s < N := by
      rcases Nat.lt_or_eq_of_le hz.leN with h10 | h10
      · exact h10
      · obtain ⟨u', h11, h12⟩ := hc.eof
        rw [← h10, hu] at h11; cases h11; rw [hku] at h12; cases h12
    rcases seq_fail h9 with h10 | ⟨m, v'', a1'', l5, l6, h10, -⟩
    · have h11 := eval_stay hc.closed n .ident i s hz .Unambiguous ⟨q1.off + 1, none⟩ ⟨by have := h5.1; simp only; omega, hlt⟩
      have h10 : eval toks n .ident _ _ = _ := h10
      rw [h10] at h11
      intro x hx'
      simp at hx'
      rcases hx' with rfl | hx' | hx'
      · exact (h11.fail _ _ rfl).2
      · exact h6 x hx'
      · exact h11.log x hx'
    · obtain ⟨t', h11, -⟩ := hc.tok (q1.off + 1) (by omega)
      have h12 := first_of_ok (g := .r .ident) h11 (by decide +kernel) (by decide +kernel) h10
      cases h13 : t'.kind? with
      | none => rw [h13] at h12; simp [G.first, NT.first] at h12
      | some kid =>
        rw [h13] at h12
        exact (const_no hc ht hN hp hnt h1 h5.1 h4 h7 h8 (by omega) h11 h13 h12 h).elim

/-- The alternatives of `item`, the last one first. -/
def itemAlts : List (Tag × NT) :=
  [(.Item_TypeAlias, .type_alias), (.Item_Use, .p_use), (.Item_Union, .p_union), (.Item_Trait, .p_trait), (.Item_Struct, .p_struct),
   (.Item_Static, .p_static), (.Item_Impl, .p_impl), (.Item_Enum, .p_enum), (.Item_Module, .«module»), (.Item_MacroCall, .item_macro_call),
   (.Item_Function, .function), (.Item_ExternBlock, .extern_block), (.Item_ExternCrate, .extern_crate), (.Item_Const, .p_const),
   (.Item_AttributeContaining, .attribute_containing)]

/-- What may come before an alternative. -/
def itemPair (nt nt' : NT) : Bool :=
  nt' = .attribute_containing || nt'.fenced 2 ||
  (nt' = .p_const && (constFree nt || nt = .extern_block || nt = .p_impl || nt = .item_macro_call || nt = .function)) ||
  (nt' = .p_static && (nt = .p_struct || nt = .p_trait || nt = .p_union || nt = .type_alias)) ||
  (nt' = .p_use && nt = .type_alias)

theorem itemAlts_ok {post pre : List (Tag × NT)} {x : Tag × NT} (h : itemAlts = post ++ x :: pre) :
    (x.2 = .attribute_containing ∧ pre = []) ∨
    (x.2.fenced 1 = true ∧ ∀ y ∈ pre, y.2 = .attribute_containing ∨ y.2.fenced 1 = true ∨ y.2.fenced 2 = true) ∨
    (x.2.fenced 2 = true ∧ ∀ y ∈ pre, itemPair x.2 y.2 = true) := by
  have key : ∀ k : Fin 15, ∀ x ∈ itemAlts[k.1]?, (x.2 = .attribute_containing ∧ itemAlts.drop (k.1 + 1) = []) ∨
        (x.2.fenced 1 = true ∧ ∀ y ∈ itemAlts.drop (k.1 + 1), y.2 = .attribute_containing ∨ y.2.fenced 1 = true ∨ y.2.fenced 2 = true) ∨
        (x.2.fenced 2 = true ∧ ∀ y ∈ itemAlts.drop (k.1 + 1), itemPair x.2 y.2 = true) := by decide +kernel
  have hl : post.length < 15 := by
    have := congrArg List.length h
    simp [itemAlts] at this
    omega
  have := key ⟨post.length, hl⟩ x (by simp [h])
  have hd : itemAlts.drop (post.length + 1) = pre := by simp [h]
  rwa [hd] at this

/-- How far the parser of an item looks. -/
theorem item_log (hc : Ctx toks N) (ht : EofLast toks) (hN : toks.length = N + 1) {i : Nat} (hi : i ≤ N) (h0 : depth toks i = 0)
    (h : eval toks (n + 2) .item .Unambiguous ⟨i, none⟩ = ⟨.ok q w, a2, l⟩) (hq : depth toks q.off = 0) :
    (∃ w' lg, eval toks (n + 1) .attribute_containing .Unambiguous ⟨i, none⟩ = ⟨.ok q w', a2, lg⟩ ∧ ∀ y ∈ l, y ∈ lg) ∨
    ((∀ x ∈ l, x.1.off < q.off) ∧ ∃ s E, Fence toks N 2 i s E ∧ s < q.off) := by
  have hp : ValidPt toks ⟨i, none⟩ := ValidPt.of_none (by omega)
  have hqN : q.off ≤ N := by
    have h1 := evalG_run ht (eval_consumes ht (n + 2)) (.r .item) (by decide +kernel) .Unambiguous ⟨i, none⟩ hp
    have h1 : Run toks (eval toks (n + 2) .item .Unambiguous ⟨i, none⟩) _ _ _ := h1
    rw [h] at h1
    have := h1.2.2.1.off_lt
    omega
  rw [eval_rule (g := altsR (.wrap .Item_AttributeContaining (.r .attribute_containing))
    ((itemAlts.take 14).map fun x => .wrap x.1 (.r x.2))) rfl] at h
  obtain ⟨post, g, pre, lg, h1, h2, h3⟩ := altsR_ok (fun g hg p e a l h => by
    have h1 : g.wf = true := by
      simp [itemAlts] at hg
      rcases hg with rfl | rfl | rfl | rfl | rfl | rfl | rfl | rfl | rfl | rfl | rfl | rfl | rfl | rfl | rfl <;> decide +kernel
    have h2 := evalG_run ht (eval_consumes ht (n + 1)) g h1 .Unambiguous ⟨i, none⟩ hp
    rw [h] at h2
    exact h2.1) h
  have h4 : itemAlts.map (fun x => G.wrap x.1 (.r x.2)) = post ++ g :: pre := by
    rw [← h1]; rfl
  obtain ⟨post', rem, h5, rfl, h6⟩ := List.map_eq_append_iff.mp h4
  obtain ⟨x, pre', rfl, rfl, rfl⟩ := List.map_eq_cons_iff.mp h6
  obtain ⟨v, h7, -⟩ := Inv.map_ok h2
  have h7 : eval toks (n + 1) x.2 _ _ = _ := h7
  obtain ⟨s, E, hf⟩ := hc.fence hi h0 (.inr rfl)
  obtain ⟨S, F, hF⟩ := hc.fence hi h0 (.inl rfl)
  obtain ⟨hEF, hFS, hEF'⟩ := hf.le hF
  have hlt := hf.lt
  have in2 : In i s ⟨i, none⟩ := ⟨Nat.le_refl _, hf.zone.le⟩
  have in1 : In i S ⟨i, none⟩ := ⟨Nat.le_refl _, hF.zone.le⟩
  have lift : ∀ {b : Nat}, (∀ x ∈ lg, x.1.off < b) → (∀ y ∈ pre', ∀ p e a l,
      eval toks (n + 1) y.2 .Unambiguous ⟨i, none⟩ = ⟨.fail p e, a, l⟩ → ∀ x ∈ (p, e) :: l, x.1.off < b) → ∀ x ∈ l, x.1.off < b := by
    intro b hb1 hb2 x hx
    rcases h3 x hx with h8 | ⟨g', hg', p, e', l', h8, h9⟩
    · exact hb1 x h8
    · obtain ⟨y, hy, rfl⟩ := List.mem_map.mp hg'
      exact hb2 y hy p e' _ l' (Inv.map_fail h8) x (by simpa using h9)
  have at0 : ∀ p e a l, eval toks (n + 1) .attribute_containing .Unambiguous ⟨i, none⟩ = ⟨.fail p e, a, l⟩ →
      ∀ x ∈ (p, e) :: l, x.1.off ≤ s := by
    intro p e a l h8 x hx
    have h9 := eval_stay hc.closed (n + 1) .attribute_containing i s hf.zone .Unambiguous ⟨i, none⟩ in2
    rw [h8] at h9
    rcases List.mem_cons.mp hx with rfl | hx
    · exact (h9.fail _ _ rfl).2
    · exact h9.log x hx
  have at2 : ∀ nt : NT, nt.fenced 2 = true → ∀ p e a l, eval toks (n + 1) nt .Unambiguous ⟨i, none⟩ = ⟨.fail p e, a, l⟩ →
      ∀ x ∈ (p, e) :: l, x.1.off < E := by
    intro nt hn p e a l h8 x hx
    have h9 := eval_fence hc.closed (.inr rfl) hf (n + 1) nt hn .Unambiguous ⟨i, none⟩ in2
    rw [h8] at h9
    rcases List.mem_cons.mp hx with rfl | hx
    · have := (h9.fail _ _ rfl).2; simp only; omega
    · have := h9.log x hx; omega
  have at1 : ∀ nt : NT, nt.fenced 1 = true → ∀ p e a l, eval toks (n + 1) nt .Unambiguous ⟨i, none⟩ = ⟨.fail p e, a, l⟩ →
      ∀ x ∈ (p, e) :: l, x.1.off < F := by
    intro nt hn p e a l h8 x hx
    have h9 := eval_fence hc.closed (.inl rfl) hF (n + 1) nt hn .Unambiguous ⟨i, none⟩ in1
    rw [h8] at h9
    have := hF.lt
    rcases List.mem_cons.mp hx with rfl | hx
    · have := (h9.fail _ _ rfl).2; simp only; omega
    · have := h9.log x hx; omega
  rcases itemAlts_ok h5 with ⟨hx, rfl⟩ | ⟨hx, hpre⟩ | ⟨hx, hpre⟩
  · have hnil : ∀ y ∈ l, y ∈ lg := fun y hy => by simpa using h3 y hy
    rw [hx] at h7
    exact .inl ⟨_, _, h7, hnil⟩
  · have h8 := eval_fence hc.closed (.inl rfl) hF (n + 1) x.2 hx .Unambiguous ⟨i, none⟩ in1
    rw [h7] at h8
    have hqF := hc.fence_end hF h0 (h8.ok _ _ rfl) hqN hq (.inl rfl)
    have := hF.lt
    rw [hqF]
    refine .inr ⟨lift (fun y hy => by have := h8.log y hy; omega) (fun y hy p e a l h9 z hz => ?_), s, E, hf, by omega⟩
    rcases hpre y hy with h10 | h10 | h10
    · rw [h10] at h9; have := at0 p e a l h9 z hz; omega
    · exact at1 _ h10 p e a l h9 z hz
    · have := at2 _ h10 p e a l h9 z hz; omega
  · have h8 := eval_fence hc.closed (.inr rfl) hf (n + 1) x.2 hx .Unambiguous ⟨i, none⟩ in2
    rw [h7] at h8
    have hqE := hc.fence_end hf h0 (h8.ok _ _ rfl) hqN hq (.inr rfl)
    rw [hqE]
    refine .inr ⟨lift (fun y hy => by have := h8.log y hy; omega) (fun y hy p e a l h9 z hz => ?_), s, E, hf, by omega⟩
    have h10 := hpre y hy
    by_cases hcur : ∃ t, toks[s]? = some t ∧ t.kind? ≠ some .LeftCurly
    · have := hEF' hcur
      simp only [itemPair, Bool.or_eq_true, Bool.and_eq_true, decide_eq_true_eq] at h10
      rcases h10 with (((h10 | h10) | ⟨h10, -⟩) | ⟨h10, -⟩) | ⟨h10, -⟩
      · rw [h10] at h9; have := at0 p e a l h9 z hz; omega
      · have := at2 _ h10 p e a l h9 z hz; omega
      all_goals
        have := at1 _ (by rw [h10]; rfl) p e a l h9 z hz
        omega
    · obtain ⟨u, k, hu, hku, -⟩ := hf.zone.wall
      have hku : u.kind? = some .LeftCurly := Classical.byContradiction fun hne => hcur ⟨u, hu, hne⟩
      simp only [itemPair, Bool.or_eq_true, Bool.and_eq_true, decide_eq_true_eq] at h10
      rcases h10 with (((h10 | h10) | ⟨h10, h11⟩) | ⟨h10, h11⟩) | ⟨h10, h11⟩
      · rw [h10] at h9; have := at0 p e a l h9 z hz; omega
      · exact at2 _ h10 p e a l h9 z hz
      · rw [h10] at h9
        have := excl_const hc ht hN hf.zone hp hu hku (by
          rcases h11 with (((h | h) | h) | h) | h
          · exact .inl h
          · exact .inr (.inl h)
          · exact .inr (.inr (.inl h))
          · exact .inr (.inr (.inr (.inl h)))
          · exact .inr (.inr (.inr (.inr h)))) h9 h7 z hz
        omega
      · rw [h10] at h9
        have : z.1.off ≤ s := by
          rcases h11 with ((h | h) | h) | h <;> rw [h] at h7
          · exact excl_key hc ht hN hf.zone hp rfl rfl rfl (by decide) (by decide +kernel) h9 h7 z hz
          · exact excl_key hc ht hN hf.zone hp rfl rfl rfl (by decide) (by decide +kernel) h9 h7 z hz
          · exact excl_key hc ht hN hf.zone hp rfl rfl rfl (by decide) (by decide +kernel) h9 h7 z hz
          · exact excl_key hc ht hN hf.zone hp rfl rfl rfl (by decide) (by decide +kernel) h9 h7 z hz
        omega
      · rw [h10] at h9
        rw [h11] at h7
        have := excl_key hc ht hN hf.zone hp rfl rfl rfl (by decide) (by decide +kernel) h9 h7 z hz
        omega

end

end Verif
