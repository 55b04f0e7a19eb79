import Verif.Proofs.LexReach
/-!
# How far the tokenizer looks while it reads a number, and the text as a whole
-/

namespace Verif
open Spec

attribute [local irreducible] singleToken

variable {X : Xid} {o L : Nat}

/-! ### numbers -/

/-- Not beyond the point, or one byte beyond it where a period or a word is. -/
def Near (X : Xid) (q : LPoint) (x : Nat) : Prop := x ≤ q.offset ∨ (x = q.offset + 1 ∧ StartsIn (fun c => c = '.' ∨ WordStart X c) q.s)

theorem Near.adv {p q : LPoint} {x : Nat} (h : Near X p x) (ha : Adv p q) : Near X q x := by
  obtain ⟨a, h1, h2⟩ := ha
  cases a with
  | nil =>
    obtain ⟨s, k⟩ := p
    obtain ⟨s', k'⟩ := q
    simp at h1 h2
    subst h1 h2
    exact h
  | cons c a =>
    have := blen_cons_pos c a
    rcases h with h | ⟨h, -⟩
    · exact .inl (by omega)
    · exact .inl (by omega)

/-- Everything tried is near: near the end, or near the beginning where nothing is read. -/
def Nr {α} (X : Xid) (p : LP α) (pt : LPoint) : Prop := ∀ r l, p pt = (r, l) →
  (∀ q v, r = .ok q v → Adv pt q ∧ ∀ x ∈ offs l, Near X q x.1) ∧
  (∀ q e, r = .fail q e → (∀ x ∈ offs l, Near X pt x.1) ∧ Near X pt q.offset)

theorem Nr.optional {α} {p : LP α} {pt : LPoint} (h : Nr X p pt) : Nr X (LP.optional p) pt := by
  intro r l e
  rcases hp : p pt with ⟨r1, l1⟩
  obtain ⟨h1, h2⟩ := h _ _ hp
  unfold LP.optional at e
  rw [hp] at e
  cases r1 with
  | ok q v =>
    cases e
    refine ⟨?_, by rintro _ _ ⟨⟩⟩
    rintro _ _ ⟨⟩
    exact h1 _ _ rfl
  | fail q e1 =>
    obtain ⟨h3, h4⟩ := h2 _ _ rfl
    dsimp only at e
    split at e
    · cases e
      refine ⟨?_, by rintro _ _ ⟨⟩⟩
      rintro _ _ ⟨⟩
      refine ⟨.refl _, fun x hx => ?_⟩
      simp only [offs_append, offs_cons, offs_nil, List.mem_append, List.mem_cons, List.not_mem_nil, or_false] at hx
      rcases hx with hx | rfl
      · exact h3 x hx
      · exact h4
    · cases e
      refine ⟨by rintro _ _ ⟨⟩, ?_⟩
      rintro _ _ ⟨⟩
      exact ⟨h3, h4⟩
  | panic => cases e; exact ⟨by rintro _ _ ⟨⟩, by rintro _ _ ⟨⟩⟩
  | hang => cases e; exact ⟨by rintro _ _ ⟨⟩, by rintro _ _ ⟨⟩⟩

theorem Nr.orElse {α} {p q : LP α} {pt : LPoint} (h : Nr X p pt) (h' : Nr X q pt) : Nr X (LP.orElse p q) pt := by
  intro r l e
  rcases hp : p pt with ⟨r1, l1⟩
  obtain ⟨h1, h2⟩ := h _ _ hp
  unfold LP.orElse at e
  rw [hp] at e
  cases r1 with
  | fail q1 e1 =>
    obtain ⟨h3, h4⟩ := h2 _ _ rfl
    dsimp only at e
    split at e
    · rcases hq : q pt with ⟨r2, l2⟩
      obtain ⟨h5, h6⟩ := h' _ _ hq
      rw [hq] at e
      cases e
      constructor
      · rintro q' v rfl
        obtain ⟨h7, h8⟩ := h5 _ _ rfl
        refine ⟨h7, fun x hx => ?_⟩
        simp only [offs_append, offs_cons, offs_nil, List.mem_append, List.mem_cons, List.not_mem_nil, or_false] at hx
        rcases hx with (hx | hx) | rfl
        · exact (h3 x hx).adv h7
        · exact h8 x hx
        · exact h4.adv h7
      · rintro q' e' rfl
        obtain ⟨h7, h8⟩ := h6 _ _ rfl
        refine ⟨fun x hx => ?_, h8⟩
        simp only [offs_append, offs_cons, offs_nil, List.mem_append, List.mem_cons, List.not_mem_nil, or_false] at hx
        rcases hx with (hx | hx) | rfl
        · exact h3 x hx
        · exact h7 x hx
        · exact h4
    · cases e
      exact ⟨h1, h2⟩
  | ok _ _ => cases e; exact ⟨h1, h2⟩
  | panic => cases e; exact ⟨h1, h2⟩
  | hang => cases e; exact ⟨h1, h2⟩

/-- One byte is looked at, and read if there is a success. -/
theorem Nr.short {α} {p : LP α} {pt : LPoint} {Q : LPoint → α → Prop} (hb : Bd (pt.offset + 1) p pt) (hs : StartsIn (fun c => c = '.' ∨ WordStart X c) pt.s)
    (hp : SpecAt p pt Q) (hq : ∀ q v, Adv pt q → Q q v → pt.offset + 1 ≤ q.offset) : Nr X p pt := by
  intro r l e
  obtain ⟨h1, h2⟩ := hb r l e
  constructor
  · rintro q v rfl
    obtain ⟨h3, h4, -⟩ := hp.of_ok e
    exact ⟨h3, fun x hx => .inl (Nat.le_trans (h1 x hx) (hq q v h3 h4))⟩
  · rintro q e' rfl
    have near : ∀ x, x ≤ pt.offset + 1 → Near X pt x := by
      intro x hx
      by_cases hx' : x ≤ pt.offset
      · exact .inl hx'
      · exact .inr ⟨by omega, hs⟩
    exact ⟨fun x hx => near _ (h1 x hx), near _ (h2 _ _ rfl)⟩

/-- Nothing is looked at beyond the beginning. -/
theorem Nr.here {α} {p : LP α} {pt : LPoint} {Q : LPoint → α → Prop} (hb : Bd pt.offset p pt) (hp : SpecAt p pt Q) : Nr X p pt := by
  intro r l e
  obtain ⟨h1, h2⟩ := hb r l e
  constructor
  · rintro q v rfl
    obtain ⟨h3, -⟩ := hp.of_ok e
    exact ⟨h3, fun x hx => .inl (Nat.le_trans (h1 x hx) h3.le)⟩
  · rintro q e' rfl
    exact ⟨fun x hx => .inl (h1 x hx), .inl (h2 _ _ rfl)⟩

theorem Bd.optional {α} {N : Nat} {p : LP α} {pt : LPoint} (h : Bd N p pt) : Bd N (LP.optional p) pt := by
  intro r l e
  rcases hp : p pt with ⟨r1, l1⟩
  obtain ⟨h1, h2⟩ := h _ _ hp
  unfold LP.optional at e
  rw [hp] at e
  cases r1 with
  | fail q e1 =>
    dsimp only at e
    split at e
    · cases e
      refine ⟨fun x hx => ?_, by rintro _ _ ⟨⟩⟩
      simp only [offs_append, offs_cons, offs_nil, List.mem_append, List.mem_cons, List.not_mem_nil, or_false] at hx
      rcases hx with hx | rfl
      · exact h1 x hx
      · exact h2 _ _ rfl
    · cases e
      refine ⟨h1, ?_⟩
      rintro _ _ ⟨⟩
      exact h2 _ _ rfl
  | ok q v => cases e; exact ⟨h1, by rintro _ _ ⟨⟩⟩
  | panic => cases e; exact ⟨h1, by rintro _ _ ⟨⟩⟩
  | hang => cases e; exact ⟨h1, by rintro _ _ ⟨⟩⟩

theorem bd_notPeek {α} {p : LP α} {pt : LPoint} {e : LErr} (h : Bd pt.offset p pt) : Bd pt.offset (LP.not (LP.peek p) e) pt := by
  intro r l e'
  rcases hp : p pt with ⟨r1, l1⟩
  obtain ⟨h1, h2⟩ := h _ _ hp
  unfold LP.not LP.peek at e'
  rw [hp] at e'
  cases r1 <;> cases e' <;> refine ⟨h1, ?_⟩ <;> rintro _ _ ⟨⟩
  exact Nat.le_refl _

theorem notPeek_ok {α} {p : LP α} {pt q : LPoint} {e : LErr} {v : Unit} {l : LLog} (h : LP.not (LP.peek p) e pt = (.ok q v, l)) : q = pt := by
  unfold LP.not LP.peek at h
  rcases hp : p pt with ⟨r1, l1⟩
  rw [hp] at h
  cases r1 <;> cases h
  rfl

theorem nr_fraction (b : NumBase) (pt : LPoint) : Nr X (numberFractional X (radixOf b)) pt := by
  by_cases h : StartsIn (· = '.') pt.s
  · obtain ⟨_, t, hs, rfl⟩ := h
    refine Nr.short ?_ ⟨_, t, hs, .inl rfl⟩ (numberFractional_spec X b pt) ?_
    · obtain ⟨s, k⟩ := pt
      dsimp only at hs
      subst hs
      refine OW.bdPoint (OW.bdBind (ow_literal c!"." t k) (by simp) ?_)
      refine (bd_notPeek (bd_literal _ _)).bind fun q _ _ e => ?_
      obtain rfl := notPeek_ok e
      refine (bd_notPeek (bd_ident _ _)).bind fun q _ _ e => ?_
      obtain rfl := notPeek_ok e
      exact (bd_digits _ _).optional.bind fun _ _ _ _ => bd_exHere
    · rintro q v - ⟨ds, -, h, -⟩
      have := h.2
      have h1 : '.'.utf8Size = 1 := rfl
      simp [h1] at this
      omega
  · refine Nr.here ?_ (numberFractional_spec X b pt)
    exact (FW.pointBind (FW.bind (fw_literal (o := pt.offset) (single_prefix h)))).bd (by simp)

theorem nr_exponentWith {c : Char} (hc : WordStart X c) (h1 : c.utf8Size = 1) (pt : LPoint) : Nr X (numberExponentWith [c]) pt := by
  by_cases h : StartsIn (· = c) pt.s
  · obtain ⟨_, t, hs, rfl⟩ := h
    refine Nr.short ?_ ⟨_, t, hs, .inr hc⟩ (numberExponentWith_spec _ pt) ?_
    · obtain ⟨s, k⟩ := pt
      dsimp only at hs
      subst hs
      refine OW.bdBind (ow_literal [_] t k) (by simp) (Bd.bind ?_ fun _ _ _ _ => .quiet rfl (by rintro _ _ ⟨⟩))
      have := bd_digits 10 ⟨t, k + 1⟩
      simpa [h1] using this
    · rintro q v - ⟨ds, -, -, h, -⟩
      have := h.2
      simp [h1] at this
      omega
  · refine Nr.here ?_ (numberExponentWith_spec _ pt)
    refine (FW.bind (fw_literal (o := pt.offset) ?_)).bd (by simp)
    rintro ⟨t, ht⟩
    exact h ⟨c, t, ht.symm, rfl⟩

theorem nr_exponent (hX : Sane X) (pt : LPoint) : Nr X numberExponent pt :=
  (nr_exponentWith (.inl (by rw [hX.start _ (by decide)]; decide)) rfl pt).orElse (nr_exponentWith (.inl (by rw [hX.start _ (by decide)]; decide)) rfl pt)

/-- Not beyond the point, or just after the mark of a base. -/
def Far (pt : LPoint) (x : Nat) : Prop := x ≤ pt.offset ∨ (x = pt.offset + 2 ∧ ∃ w t, pt.s = '0' :: w :: t ∧ w ∈ c!"bxo")

theorem Far.near (hX : Sane X) {p q : LPoint} {x : Nat} (h : Far p x) (ha : Adv p q) (hlt : p.offset < q.offset) : Near X q x := by
  rcases h with h | ⟨rfl, w, t, hs, hw⟩
  · exact .inl (by omega)
  obtain ⟨a, h1, h2⟩ := ha
  match a with
  | [] => simp at h2; omega
  | [c] =>
    rw [hs] at h1
    simp only [List.cons_append, List.nil_append, List.cons.injEq] at h1
    obtain ⟨rfl, h1⟩ := h1
    have h3 : '0'.utf8Size = 1 := rfl
    simp [h3] at h2
    have key : ∀ c ∈ c!"bxo", c.toNat < 128 ∧ c.isAlpha = true := by decide
    refine .inr ⟨by omega, w, t, h1.symm, .inr (.inl ?_)⟩
    rw [hX.start _ (key w hw).1, (key w hw).2]
  | c :: d :: a =>
    have := Char.utf8Size_pos c
    have := Char.utf8Size_pos d
    simp at h2
    exact .inl (by omega)

/-- What is tried while the value of a number is read. -/
def Val {α} (X : Xid) (p : LP α) (pt : LPoint) : Prop := ∀ r l, p pt = (r, l) →
  (∀ q v, r = .ok q v → Adv pt q ∧ pt.offset < q.offset ∧ ∀ x ∈ offs l, Near X q x.1) ∧
  (∀ q e, r = .fail q e → (∀ x ∈ offs l, Far pt x.1) ∧ Far pt q.offset)

theorem Val.orElse (hX : Sane X) {α} {p q : LP α} {pt : LPoint} (h : Val X p pt) (h' : Val X q pt) : Val X (LP.orElse p q) pt := by
  intro r l e
  rcases hp : p pt with ⟨r1, l1⟩
  obtain ⟨h1, h2⟩ := h _ _ hp
  unfold LP.orElse at e
  rw [hp] at e
  cases r1 with
  | fail q1 e1 =>
    obtain ⟨h3, h4⟩ := h2 _ _ rfl
    dsimp only at e
    split at e
    · rcases hq : q pt with ⟨r2, l2⟩
      obtain ⟨h5, h6⟩ := h' _ _ hq
      rw [hq] at e
      cases e
      constructor
      · rintro q' v rfl
        obtain ⟨h7, h9, h8⟩ := h5 _ _ rfl
        refine ⟨h7, h9, fun x hx => ?_⟩
        simp only [offs_append, offs_cons, offs_nil, List.mem_append, List.mem_cons, List.not_mem_nil, or_false] at hx
        rcases hx with (hx | hx) | rfl
        · exact (h3 x hx).near hX h7 h9
        · exact h8 x hx
        · exact h4.near hX h7 h9
      · rintro q' e' rfl
        obtain ⟨h7, h8⟩ := h6 _ _ rfl
        refine ⟨fun x hx => ?_, h8⟩
        simp only [offs_append, offs_cons, offs_nil, List.mem_append, List.mem_cons, List.not_mem_nil, or_false] at hx
        rcases hx with (hx | hx) | rfl
        · exact h3 x hx
        · exact h7 x hx
        · exact h4
    · cases e
      exact ⟨h1, h2⟩
  | ok _ _ => cases e; exact ⟨h1, h2⟩
  | panic => cases e; exact ⟨h1, h2⟩
  | hang => cases e; exact ⟨h1, h2⟩

theorem literal_quiet (w : Text) (pt : LPoint) : (literal w pt).2 = [] := by
  by_cases h : w <+: pt.s
  · obtain ⟨s, h⟩ := h
    rw [literal_ok h.symm]
  · unfold literal
    rw [if_neg (by rw [startsWith_iff]; exact fun ⟨b, hb⟩ => h ⟨b, hb.symm⟩)]

theorem quiet_map {α β} {p : LP α} {f : α → β} {pt : LPoint} (h : (p pt).2 = [] ∧ ∀ q e, (p pt).1 = .fail q e → q = pt) :
    (LP.map p f pt).2 = [] ∧ ∀ q e, (LP.map p f pt).1 = .fail q e → q = pt := by
  unfold LP.map LP.bind
  rcases hp : p pt with ⟨r, l⟩
  rw [hp] at h
  cases r <;> simp_all [LP.pure]

theorem digits_quiet (n : Nat) (pt : LPoint) : (numberDigits n pt).2 = [] ∧ ∀ q e, (numberDigits n pt).1 = .fail q e → q = pt := by
  refine quiet_map ⟨?_, ?_⟩
  · unfold splitPointAtNonZeroOffset; split
    · rfl
    · split <;> rfl
  · intro q e'; unfold splitPointAtNonZeroOffset; split
    · intro h; cases h; rfl
    · split <;> simp

theorem Rec.numberFractional (X : Xid) (n : Nat) : Rec (numberFractional X n) :=
  .bind .point fun _ => .bind (.literal _) fun _ => .bind (.not rfl) fun _ => .bind (.not rfl) fun _ => .bind (.optional (.numberDigits _)) fun _ => .exHere _

theorem val_base (b : NumBase) (pt : LPoint) : Val X (numberBase X b (basePrefix b) (radixOf b)) pt := by
  intro r l e
  have hsp := numberBase_spec X b pt
  have e0 := e
  unfold numberBase at e
  simp only [Bind.bind, LP.bind] at e
  rcases h1 : literal (basePrefix b) pt with ⟨r1, l1⟩
  have hl1 := literal_quiet (basePrefix b) pt
  rw [h1] at hl1 e
  dsimp only at hl1
  subst hl1
  cases r1 with
  | panic => cases e; exact ⟨by rintro _ _ ⟨⟩, by rintro _ _ ⟨⟩⟩
  | hang => cases e; exact ⟨by rintro _ _ ⟨⟩, by rintro _ _ ⟨⟩⟩
  | fail q1 e1 =>
    cases e
    refine ⟨by rintro _ _ ⟨⟩, ?_⟩
    rintro _ _ ⟨⟩
    have := (bd_literal _ _ _ _ h1).2 _ _ rfl
    exact ⟨by simp, .inl this⟩
  | ok q1 v1 =>
    obtain ⟨h1a, h1b, -⟩ := (literal_spec (basePrefix b) pt).of_ok h1
    dsimp only at e
    rcases h2 : numberDigits (radixOf b) q1 with ⟨r2, l2⟩
    have hl2 := digits_quiet (radixOf b) q1
    rw [h2] at hl2 e
    dsimp only at hl2
    obtain ⟨rfl, hl2⟩ := hl2
    cases r2 with
    | panic => cases e; exact ⟨by rintro _ _ ⟨⟩, by rintro _ _ ⟨⟩⟩
    | hang => cases e; exact ⟨by rintro _ _ ⟨⟩, by rintro _ _ ⟨⟩⟩
    | fail q2 e2 =>
      cases e
      refine ⟨by rintro _ _ ⟨⟩, ?_⟩
      rintro _ _ ⟨⟩
      obtain rfl := hl2 _ _ rfl
      refine ⟨by simp, ?_⟩
      obtain ⟨he, ho⟩ := h1b.1
      cases b with
      | Decimal => exact .inl (by simp [basePrefix] at ho; omega)
      | Binary => exact .inr ⟨ho, 'b', _, he, by decide⟩
      | Hexadecimal => exact .inr ⟨ho, 'x', _, he, by decide⟩
      | Octal => exact .inr ⟨ho, 'o', _, he, by decide⟩
    | ok q2 v2 =>
      dsimp only at e
      rcases h3 : LP.optional (numberFractional X (radixOf b)) q2 with ⟨r3, l3⟩
      have hn := (nr_fraction (X := X) b q2).optional _ _ h3
      rw [h3] at e
      cases r3 with
      | panic => cases e; exact ⟨by rintro _ _ ⟨⟩, by rintro _ _ ⟨⟩⟩
      | hang => cases e; exact ⟨by rintro _ _ ⟨⟩, by rintro _ _ ⟨⟩⟩
      | fail q3 e3 =>
        exfalso
        unfold LP.optional at h3
        rcases h4 : numberFractional X (radixOf b) q2 with ⟨r4, l4⟩
        rw [h4] at h3
        cases r4 with
        | fail q5 e5 =>
          dsimp only at h3
          rw [if_pos (Rec.numberFractional X _ _ _ _ _ h4)] at h3
          cases h3
        | ok _ _ => cases h3
        | panic => cases h3
        | hang => cases h3
      | ok q3 v3 =>
        cases e
        refine ⟨?_, by rintro _ _ ⟨⟩⟩
        rintro _ _ ⟨⟩
        obtain ⟨h5, ⟨ints, frac, h6, h7, -⟩, -⟩ := hsp.of_ok e0
        refine ⟨h5, ?_, ?_⟩
        · have := h6.2
          have h8 := blen_pos h7
          simp at this
          omega
        · simpa [LP.pure] using (hn.1 _ _ rfl).2

theorem val_value (hX : Sane X) (pt : LPoint) : Val X (numberValue X) pt :=
  (((val_base .Binary pt).orElse hX (val_base .Hexadecimal pt)).orElse hX (val_base .Octal pt)).orElse hX (val_base .Decimal pt)

/-- While a number is read, nothing is looked at beyond its end, but for a period. -/
theorem number_near (hX : Sane X) {pt q : LPoint} {v : Number} {l : LLog} (h : number X pt = (.ok q v, l)) :
    ∀ x ∈ offs l, x.1 ≤ q.offset ∨ (x.1 = q.offset + 1 ∧ StartsIn (· = '.') q.s) := by
  unfold number at h
  simp only [Bind.bind, LP.bind, LP.point] at h
  rcases h1 : numberValue X pt with ⟨r1, l1⟩
  have n1 := (val_value hX pt) _ _ h1
  rw [h1] at h
  cases r1 with
  | fail _ _ => cases h
  | panic => cases h
  | hang => cases h
  | ok q1 v1 =>
  obtain ⟨-, -, n1⟩ := n1.1 _ _ rfl
  dsimp only at h
  rcases h2 : LP.optional numberExponent q1 with ⟨r2, l2⟩
  have n2 := (nr_exponent hX q1).optional _ _ h2
  rw [h2] at h
  cases r2 with
  | fail _ _ => cases h
  | panic => cases h
  | hang => cases h
  | ok q2 v2 =>
  obtain ⟨a2, n2⟩ := n2.1 _ _ rfl
  dsimp only at h
  rcases h3 : LP.optional (simpleIdent X) q2 with ⟨r3, l3⟩
  rw [h3] at h
  cases r3 with
  | fail _ _ => cases h
  | panic => cases h
  | hang => cases h
  | ok q3 v3 =>
  dsimp only at h
  have e3 : q = q3 ∧ offs l = offs l1 ++ (offs l2 ++ offs l3) := by
    unfold exHere at h
    cases he : lexEx pt q3 with
    | none => rw [he] at h; cases h
    | some e =>
      rw [he] at h
      cases h
      exact ⟨rfl, by simp [LP.pure]⟩
  obtain ⟨rfl, e4⟩ := e3
  have before : ∀ x, x ∈ offs l1 ++ offs l2 → Near X q2 x.1 := by
    intro x hx
    rcases List.mem_append.mp hx with hx | hx
    · exact (n1 x hx).adv a2
    · exact n2 x hx
  intro x hx
  rw [e4, ← List.append_assoc, List.mem_append] at hx
  unfold LP.optional at h3
  rcases h4 : simpleIdent X q2 with ⟨r4, l4⟩
  have hb := bd_ident X q2 _ _ h4
  rw [h4] at h3
  cases r4 with
  | panic => cases h3
  | hang => cases h3
  | ok q5 v5 =>
    cases h3
    have hlt : q2.offset < q.offset := by
      obtain ⟨-, ⟨w, hwd, -, hw, -⟩, -⟩ := (simpleIdent_spec X q2).of_ok h4
      obtain ⟨c, cs, rfl, -⟩ := hwd
      have := hw.2
      have := blen_cons_pos c cs
      omega
    rcases hx with hx | hx
    · rcases before x hx with h | ⟨h, -⟩ <;> exact .inl (by omega)
    · have := hb.1 x hx
      exact .inl (by omega)
  | fail q5 e5 =>
    dsimp only at h3
    split at h3
    · cases h3
      have hno : ¬ StartsIn (WordStart X) q.s := by
        intro hw
        obtain ⟨w, post, e, hw, hp⟩ := word_split hw
        obtain ⟨l', hg⟩ := gives_simpleIdent (o := q.offset) hw hp
        rw [← e] at hg
        rw [h4] at hg
        cases hg
      rcases hx with hx | hx
      · rcases before x hx with h | ⟨h, c, t, hs, hc⟩
        · exact .inl h
        · exact .inr ⟨h, c, t, hs, hc.elim id fun hw => absurd ⟨c, t, hs, hw⟩ hno⟩
      · simp only [offs_append, offs_cons, offs_nil, List.mem_append, List.mem_cons, List.not_mem_nil, or_false] at hx
        rcases hx with hx | rfl
        · exact .inl (hb.1 x hx)
        · exact .inl (hb.2 _ _ rfl)
    · cases h3

/-! ### the next token -/

theorem Bd.orElseIf {α} {N : Nat} {p q : LP α} {pt : LPoint} (h : Bd N p pt) (h' : FailsAt p pt → Bd N q pt) : Bd N (LP.orElse p q) pt := by
  by_cases hf : FailsAt p pt
  · exact h.orElse (h' hf)
  · have e : LP.orElse p q pt = p pt := by
      unfold LP.orElse
      rcases hp : p pt with ⟨r, l⟩
      cases r with
      | fail q1 e1 =>
        dsimp only
        rw [if_neg fun he => hf ⟨q1, e1, l, hp, he⟩]
      | ok _ _ => rfl
      | panic => rfl
      | hang => rfl
    intro r l e'
    exact h r l (e ▸ e')

theorem FailsAt.snd {α} {p q : LP α} {pt : LPoint} (h : FailsAt (LP.orElse p q) pt) : FailsAt q pt := by
  obtain ⟨pe, e, l, h, he⟩ := h
  unfold LP.orElse at h
  rcases hp : p pt with ⟨r, l1⟩
  rw [hp] at h
  cases r with
  | fail q1 e1 =>
    dsimp only at h
    split at h
    · rcases hq : q pt with ⟨r2, l2⟩
      rw [hq] at h
      cases h
      exact ⟨pe, e, l2, hq, he⟩
    · cases h
      contradiction
  | ok _ _ => cases h
  | panic => cases h
  | hang => cases h

theorem keyword_not_fails {t : Text} : ¬ FailsAt (keywordOrIdent X) ⟨'_' :: t, o⟩ := by
  rintro ⟨q, e, l, h, -⟩
  unfold keywordOrIdent at h
  rw [if_neg (by rw [startsWith_head_ne (by decide)]; decide)] at h
  have hi : ¬ identLen X ('_' :: t) = 0 := by
    have := Char.utf8Size_pos '_'
    simp [identLen]
    omega
  unfold LP.map LP.bind splitPointAtNonZeroOffset at h
  simp only [hi, if_false] at h
  cases hs : splitAtByte (identLen X ('_' :: t)) ('_' :: t) with
  | none => rw [hs] at h; cases h
  | some r => rw [hs] at h; cases h

theorem Ends.squote (hX : Sane X) {u : Text} (h : Ends X o L ('\'' :: u)) : o + 1 ≤ L := by
  rcases h.cases with ⟨n, E, hn, rfl⟩ | ⟨t, body, post, e, hs, h'⟩
  · generalize e : '\'' :: u = v at hn
    cases hn
    case stray => cases e; exact absurd rfl (by assumption)
    all_goals first
      | omega
      | (have := Char.utf8Size_pos; cases e; omega)
  · have := spelling_pos hX hs
    have := h'.le
    omega

theorem number_reach (hX : Sane X) {d : Char} {t : Text} (h : Ends X o L (d :: t)) (hd : d ∈ digitChars .Decimal) : Bd L (number X) ⟨d :: t, o⟩ := by
  have hw : ¬ WordStart X d := not_start hX d (by revert hd; exact List.mem_append_right symHeads ∘ (by decide : ∀ x ∈ digitChars .Decimal, x ∈ c!"'\"0123456789") d)
  have num : ∀ b, HasBase b (d :: t) → (b = .Decimal → ∀ b' ≠ .Decimal, ¬ HasBase b' (d :: t)) → Bd L (number X) ⟨d :: t, o⟩ := by
    intro b hb hd
    obtain ⟨p, post, -, e, hn⟩ := number_split X b hb hd
    have hu : ¬ StartsIn (· = '_') p.text := by
      rintro ⟨c, r, hr, rfl⟩
      rw [hr] at e
      cases e
      exact hw (.inr rfl)
    obtain ⟨l, hg⟩ := gives_number (o := o) hn
    rw [e] at h ⊢
    have h1 := h.step hX (.number hn hu)
    have h2 := h1.le
    intro r l' e'
    have h3 := number_near hX hg
    rw [hg] at e'
    cases e'
    refine ⟨fun x hx => ?_, by rintro _ _ ⟨⟩⟩
    rcases h3 x hx with h4 | ⟨h4, c, s, hs, rfl⟩
    · exact Nat.le_trans h4 h2
    · dsimp only at hs h4
      rw [hs] at h1
      have := h1.symbol hX (by decide)
      omega
  by_cases h8 : ∃ b, b ≠ .Decimal ∧ HasBase b (d :: t)
  · obtain ⟨b, hb, h8⟩ := h8
    exact num b h8 fun e => absurd e hb
  · exact num .Decimal ⟨d :: t, rfl, d, t, rfl, .inl hd⟩ fun _ b' hb' h => h8 ⟨b', hb', h⟩

/-- While a token is read, nothing is looked at beyond the place where the tokenizer will stop. -/
theorem reach (hX : Sane X) {s : Text} (hs : s ≠ []) (h : Ends X o L s) : Bd L (singleToken X) ⟨s, o⟩ := by
  match s, hs with
  | d :: t, _ =>
  have hle := h.le
  have here : ∀ {α} {p : LP α}, Bd o p ⟨d :: t, o⟩ → Bd L p ⟨d :: t, o⟩ := fun h => h.mono hle
  unfold singleToken
  rw [alts_before (L1 := []) (L2 := []) (L3 := []) (L4 := []) (L5 := []) (L6 := []) (L7 := []) X o, alts_append]
  have hA : Bd L (LP.alts commentOrDocComment ((before X o [] [] [] [] [] [] []).map Prod.fst)) ⟨d :: t, o⟩ := by
    refine Bd.alts (here (bd_comment _)) fun q hq => ?_
    simp only [before, List.map_append, List.map_cons, List.map_nil, List.map_map, List.mem_append, List.mem_cons, List.not_mem_nil, or_false, List.mem_map,
      Function.comp_apply] at hq
    rcases hq with (rfl | rfl | rfl | rfl | rfl | rfl | rfl) | ⟨r, -, rfl⟩
    · by_cases hd : d = '\''
      · subst hd; exact (char_reach hX h).mapTok
      · exact here ((fw_character hd).bd (by simp)).mapTok
    · by_cases hd : d = '"'
      · subst hd; exact (string_reach hX h).mapTok
      · exact here ((fw_string hd).bd (by simp)).mapTok
    · by_cases hd : d = 'r'
      · subst hd; exact (raw_reach hX h).mapTok
      · exact here ((fw_stringRaw hd).bd (by simp)).mapTok
    · by_cases hd : d = 'b'
      · subst hd; exact (byte_reach hX h).mapTok
      · exact here ((fw_byte hd).bd (by simp)).mapTok
    · by_cases hd : d = 'b'
      · subst hd; exact (byteString_reach hX h).mapTok
      · exact here ((fw_byteString hd).bd (by simp)).mapTok
    · by_cases hd : d = 'b'
      · subst hd; exact (byteStringRaw_reach hX h).mapTok
      · exact here ((fw_byteStringRaw hd).bd (by simp)).mapTok
    · by_cases hd : d = '\''
      · subst hd
        have h1 := h.squote hX
        refine Bd.mapTok (OW.bdPoint (OW.bdBind (ow_literal c!"'" t o) (by simp) (Bd.bind ?_ fun _ _ _ _ => bd_exHere)))
        exact (bd_ident X ⟨t, o + 1⟩).mono h1
      · exact here ((fw_lifetime hd).bd (by simp)).mapTok
    · exact here (bd_literal _ _).mapTok
  generalize LP.alts commentOrDocComment ((before X o [] [] [] [] [] [] []).map Prod.fst) = p at hA ⊢
  simp only [LP.alts]
  refine Bd.orElse (Bd.orElseIf (hA.orElse (here (bd_keyword X _))) fun hf => Bd.map ?_) (here (bd_ws _)).mapTok
  by_cases hd : d ∈ digitChars .Decimal
  · exact number_reach hX h hd
  · by_cases hu : d = '_'
    · subst hu
      exact absurd hf.snd keyword_not_fails
    · exact here ((fw_number hd hu).bd (by simp))

/-- Reading the tokens at the beginning, and then the error, whose place does not depend on the failures before. -/
theorem drain_place (hX : Sane X) {ts : List Token} {code rest : Text} {n : Nat} {E : LErr → Prop} (h : Begins X o ts code rest)
    (hn : NoToken X rest n E) : ∀ (m : Nat) (f : Failures LErr) (cl : Bool) (acc : List Token), code.length < m → L + blen rest = o + blen code + n →
    f.point ≤ L → ∃ d, Tokens.drain X cl m ⟨f, ⟨code, o⟩, false⟩ acc = .err d ∧ d.location = L ∧ ∀ e, E e → e ∈ d.errors := by
  induction h with
  | @none o s =>
    intro m f cl acc hm hL hf
    obtain ⟨m, rfl⟩ : ∃ k, m = k + 1 := ⟨m - 1, by omega⟩
    obtain ⟨d, h1, -, h3⟩ := stuck_next (o := o) hX hn f cl
    obtain ⟨h4, h5⟩ := h3 (by omega)
    refine ⟨d, ?_, by omega, fun e he => (h5 e).mpr (.inl he)⟩
    unfold Tokens.drain
    cases hr : Tokens.next X cl ⟨f, ⟨s, o⟩, false⟩ with
    | mk a b =>
      rw [hr] at h1
      dsimp only at h1
      subst h1
      rfl
  | @token o t body post ts rest hs hb ih =>
    intro m f cl acc hm hL hf
    obtain ⟨m, rfl⟩ : ∃ k, m = k + 1 := ⟨m - 1, by omega⟩
    obtain ⟨l, hg⟩ := spelling_read hX hs
    have hpos := spelling_pos hX hs
    have hne : body ≠ [] := by rintro rfl; simp at hpos
    have hlen : 0 < body.length := List.length_pos_iff.mpr hne
    have h0 : (body ++ post).isEmpty = false := by simp [hne]
    have h1 : ¬ o = o + blen body := by omega
    have hr := (reach hX (s := body ++ post) (by simp [hne]) ⟨t :: ts, rest, n, E, .token hs hb, hn, hL⟩ _ _ hg).1
    simp only [Tokens.drain, Tokens.next, h0, Bool.false_eq_true, if_false, hg, h1]
    refine ih hn m _ cl (t :: acc) (by simp at hm; omega) (by simp at hL; omega) ?_
    cases cl with
    | true => simp [Failures.new]
    | false => exact (Failures.addAll_max _ f hr hf).1

end Verif
