import Verif.Proofs.Pieces
/-!
# The values of the parser are written as their forms say
-/

namespace Verif
open Verif.Spec

section
variable {toks : List Token}

/-! ## Weaker forms -/

theorem TK.le_mem {ks ks' : List TK} (h : TK.le ks ks' = true) {k : TK} (hk : k ∈ ks) : k ∈ ks' := by
  have := List.all_eq_true.mp h k hk
  simpa using this

theorem forms_path (k : K) : k = .Ident ∨ Spec.forms .plain k = Spec.forms .path k := by
  have h : K.all.all (fun k => k == .Ident || Spec.forms .plain k == Spec.forms .path k) = true := by decide +kernel
  have := List.all_eq_true.mp h k (K.mem_all k)
  simpa using this

theorem variant_path (t : Tag) : variantSyntax .plain t = variantSyntax .path t := by
  unfold variantSyntax
  split <;> rfl

theorem Mode.le_spells {m n : Mode} {v : V} {ts : List Token} (h : Mode.le m n = true) (hs : Spells toks (.one m v) ts) :
    Spells toks (.one n v) ts := by
  unfold Mode.le at h
  rw [Bool.or_eq_true] at h
  rcases h with h | h
  · rw [← eq_of_beq h]; exact hs
  · split at h
    · cases hs with
      | tok hk => exact .tok (TK.le_mem h hk)
    · cases hs with
      | @node _ k e ws vs form _ hf hs hx =>
        rcases forms_path k with rfl | hk
        · have hx' : form = [.self [.Default, .SelfIdent, .Dyn, .Union, .Ident]] := by
            have h1 : Spec.forms .plain .Ident = [[.self [.Default, .SelfIdent, .Dyn, .Union, .Ident]]] := by decide +kernel
            rw [h1] at hf
            simpa using hf
          subst hx'
          have h2 : Spec.forms .path .Ident = [[.self [.Default, .SelfIdent, .Dyn, .Union, .Ident, .Crate]]] := by decide +kernel
          refine .node (form := [.self [.Default, .SelfIdent, .Dyn, .Union, .Ident, .Crate]]) (by rw [h2]; simp) ?_ hx
          cases hs with
          | self hk hs =>
            refine .self ?_ hs
            simp at hk ⊢
            grind
        · exact .node (hk ▸ hf) hs hx
      | @enm _ t e vs form _ hf hs => exact .enm (variant_path t ▸ hf) hs
      | number => exact .number
    · cases hs; exact .absent
    · cases hs; exact .many .repNil
    · next s t s' =>
      cases hs with
      | variant hs =>
        cases hs with
        | enm hf hs =>
          have := List.all_eq_true.mp h _ hf
          simp at this
          exact .enm this hs
    · cases h

/-- An identifier is one token, with the same extent. -/
theorem _root_.Verif.Spec.Spells.ident {e : Extent} {ws : List Ws} {ts : List Token}
    (h : Spells toks (.one (.val .plain) (.node .Ident e ws [])) ts) : ∃ k, ts = [.plain k e] := by
  cases h with
  | @node _ _ _ _ _ form _ hf hs =>
    obtain rfl : form = [Item.self [.Default, .SelfIdent, .Dyn, .Union, .Ident]] := by
      have : forms .plain .Ident = [[Item.self [.Default, .SelfIdent, .Dyn, .Union, .Ident]]] := by decide +kernel
      rw [this] at hf; simpa using hf
    cases hs with
    | self _ hs => cases hs; exact ⟨_, rfl⟩

theorem Form.le_spells {x y : Frm} {e : Extent} {vs : List V} {ts : List Token} (h : Form.le x y = true)
    (hs : Spells toks (.form e x vs) ts) : Spells toks (.form e y vs) ts := by
  induction x generalizing y ts with
  | nil =>
    cases y with
    | nil => exact hs
    | cons => simp [Form.le] at h
  | cons i x ih =>
    cases y with
    | nil => simp [Form.le] at h
    | cons j y =>
      simp only [Form.le, Bool.and_eq_true] at h
      obtain ⟨hi, hx⟩ := h
      unfold Item.le at hi
      rw [Bool.or_eq_true] at hi
      rcases hi with hi | hi
      · rw [← eq_of_beq hi]
        cases hs with
        | t h => exact .t (ih hx h)
        | without h => exact .without (ih hx h)
        | «with» h => exact .with (ih hx h)
        | self hk h => exact .self hk (ih hx h)
        | f hv h1 h => exact .f hv h1 (ih hx h)
        | body h1 h2 h3 h4 h => exact .body h1 h2 h3 h4 (ih hx h)
        | shorthand h1 h2 h3 h4 h => exact .shorthand h1 h2 h3 h4 (ih hx h)
      · split at hi
        · simp only [Bool.and_eq_true, beq_iff_eq] at hi
          obtain ⟨rfl, hm⟩ := hi
          cases hs with
          | f hv h1 h => exact .f hv (Mode.le_spells hm h1) (ih hx h)
        · cases hs with
          | self hk h => exact .self (TK.le_mem hi hk) (ih hx h)
        · cases hi

/-! ## Forms of several parts -/

theorem _root_.Verif.Spec.Spells.form_append {x y : Frm} {e : Extent} {vs : List V} {a b : List Token} (h : Spells toks (.form e x vs) a)
    (h' : Spells toks (.form e y vs) b) : Spells toks (.form e (x ++ y) vs) (a ++ b) := by
  induction x generalizing a with
  | nil => cases h; exact h'
  | cons i x ih =>
    cases h with
    | t h => exact .t (ih h)
    | without h => exact .without (ih h)
    | «with» h => exact .with (ih h)
    | self hk h => exact .self hk (ih h)
    | f hv h1 h => rw [List.append_assoc]; exact .f hv h1 (ih h)
    | body h1 h2 h3 h4 h => rw [List.append_assoc]; exact .body h1 h2 h3 h4 (ih h)
    | shorthand h1 h2 h3 h4 h => rw [List.append_assoc]; exact .shorthand h1 h2 h3 h4 (ih h)

/-- The same form, with its fields found elsewhere. -/
theorem _root_.Verif.Spec.Spells.form_map {x : Frm} {e : Extent} {vs ws : List V} {g : Nat → Nat} {a : List Token} (h : Spells toks (.form e x vs) a)
    (hg : ∀ (i : Nat) v, vs[i]? = some v → ws[g i]? = some v) : Spells toks (.form e (x.map (Item.map g)) ws) a := by
  induction x generalizing a with
  | nil => cases h; exact .done
  | cons i x ih =>
    cases h with
    | t h => exact .t (ih h)
    | without h => exact .without (ih h)
    | «with» h => exact .with (ih h)
    | self hk h => exact .self hk (ih h)
    | f hv h1 h => exact .f (hg _ _ hv) h1 (ih h)
    | body h1 h2 h3 h4 h => exact .body (hg _ _ h1) (hg _ _ h2) h3 h4 (ih h)
    | shorthand h1 h2 h3 h4 h => exact .shorthand (hg _ _ h1) (hg _ _ h2) h3 h4 (ih h)

theorem Item.map_id (i : Item Nat) : i.map id = i := by cases i <;> rfl

theorem _root_.Verif.Spec.Spells.form_left {x : Frm} {e : Extent} {vs ws : List V} {a : List Token} (h : Spells toks (.form e x vs) a) :
    Spells toks (.form e x (vs ++ ws)) a := by
  have := h.form_map (g := id) (ws := vs ++ ws) fun i v hv => by
    have hl := (List.getElem?_eq_some_iff.mp hv).1
    simp only [id]
    rw [List.getElem?_append_left hl]
    exact hv
  simpa [funext Item.map_id] using this

theorem _root_.Verif.Spec.Spells.form_right {x : Frm} {e : Extent} {vs ws : List V} {n : Nat} {a : List Token} (h : Spells toks (.form e x ws) a)
    (hn : vs.length = n) : Spells toks (.form e (x.map (shiftItem n)) (vs ++ ws)) a := by
  refine h.form_map fun i v hv => ?_
  rw [List.getElem?_append_right (by omega), hn, Nat.add_sub_cancel]
  exact hv

theorem _root_.Verif.Spec.Spells.form_one {e : Extent} {m : Mode} {i : Nat} {vs : List V} {v : V} {a : List Token} (hv : vs[i]? = some v)
    (h : Spells toks (.one m v) a) : Spells toks (.form e [.f i m] vs) a := by
  have := Spells.f (e := e) hv h .done
  simpa using this

theorem _root_.Verif.Spec.Spells.form_one_inv {e : Extent} {m : Mode} {i : Nat} {vs : List V} {a : List Token} (h : Spells toks (.form e [.f i m] vs) a) :
    ∃ v, vs[i]? = some v ∧ Spells toks (.one m v) a := by
  cases h with
  | f hv h h' =>
    cases h'
    exact ⟨_, hv, by simpa using h⟩

theorem Token.of_kind {t : Token} {k : TK} (h : t.kind? = some k) : ∃ e, t = .plain k e := by
  cases t with
  | plain k' e => simp [Token.kind?] at h; exact ⟨e, by rw [h]⟩
  | number => simp [Token.kind?] at h

theorem _root_.Verif.Spec.Kinds.cons {k : TK} {ks : List TK} {ts : List Token} (h : Kinds (k :: ks) ts) :
    ∃ e us, ts = .plain k e :: us ∧ Kinds ks us := by
  cases ts with
  | nil => simp [Kinds] at h
  | cons t us =>
    simp only [Kinds, List.map_cons, List.cons.injEq] at h
    obtain ⟨e, rfl⟩ := Token.of_kind h.1
    exact ⟨e, us, rfl, h.2⟩

theorem Form.toks_eq {x : Frm} {ks : List TK} (h : Form.toks x = some ks) : x = ks.map .t := by
  induction x generalizing ks with
  | nil => simp [Form.toks] at h; subst h; rfl
  | cons i x ih =>
    cases i <;> simp [Form.toks] at h
    obtain ⟨a, h, rfl⟩ := h
    rw [ih h]; rfl

theorem Form.around_eq {x : Frm} {a b : List TK} {m : Mode} (h : Form.around x = some (a, m, b)) :
    x = a.map .t ++ .f 0 m :: b.map .t := by
  induction x generalizing a with
  | nil => simp [Form.around] at h
  | cons i x ih =>
    unfold Form.around at h
    split at h
    · next k y hx =>
      cases hx
      simp only [Option.map_eq_some_iff] at h
      obtain ⟨⟨a', m', b'⟩, h, he⟩ := h
      cases he
      rw [ih h]; rfl
    · next m' y hx =>
      cases hx
      simp only [Option.map_eq_some_iff] at h
      obtain ⟨b', h, he⟩ := h
      cases he
      rw [Form.toks_eq h]; rfl
    · cases h

theorem _root_.Verif.Spec.Spells.kinds {ks : List TK} {e : Extent} {vs : List V} {ts : List Token} (h : Spells toks (.form e (ks.map .t) vs) ts) :
    Kinds ks ts := by
  induction ks generalizing ts with
  | nil => cases h; rfl
  | cons k ks ih =>
    cases h with
    | t h => have := ih h; simp only [Kinds, List.map_cons] at *; rw [this]; rfl

theorem _root_.Verif.Spec.Kinds.spells {ks : List TK} {ts : List Token} (h : Kinds ks ts) (e : Extent) (vs : List V) :
    Spells toks (.form e (ks.map .t) vs) ts := by
  induction ks generalizing ts with
  | nil =>
    have : ts = [] := by simpa [Kinds] using h
    subst this; exact .done
  | cons k ks ih =>
    obtain ⟨e', us, rfl, h'⟩ := h.cons
    exact .t (ih h')

/-- What is written around a value. -/
theorem _root_.Verif.Spec.Spells.around {a b : List TK} {m : Mode} {e : Extent} {vs : List V} {ts : List Token}
    (h : Spells toks (.form e (a.map .t ++ .f 0 m :: b.map .t) vs) ts) :
    ∃ v x y z, vs[0]? = some v ∧ ts = x ++ y ++ z ∧ Kinds a x ∧ Spells toks (.one m v) y ∧ Kinds b z := by
  induction a generalizing ts with
  | nil =>
    cases h with
    | f hv h1 h => exact ⟨_, [], _, _, hv, by simp, rfl, h1, h.kinds⟩
  | cons k a ih =>
    cases h with
    | t h =>
      obtain ⟨v, x, y, z, hv, rfl, h1, h2, h3⟩ := ih h
      refine ⟨v, _ :: x, y, z, hv, rfl, ?_, h2, h3⟩
      simp only [Kinds, List.map_cons] at *; rw [h1]; rfl

theorem _root_.Verif.Spec.Spells.of_around {a b : List TK} {m : Mode} {vs : List V} {v : V} {x y z : List Token} (hv : vs[0]? = some v)
    (h1 : Kinds a x) (h2 : Spells toks (.one m v) y) (h3 : Kinds b z) (e : Extent) :
    Spells toks (.form e (a.map .t ++ .f 0 m :: b.map .t) vs) (x ++ y ++ z) := by
  rw [List.append_assoc]
  exact (h1.spells e vs).form_append (.f hv h2 (h3.spells e vs))

/-! ## Written between two points -/

/-- Values are written, in one of these forms, between two points. -/
def Written (toks : List Token) (fs : List Frm) (p q : Pt) (vs : List V) : Prop :=
  ∃ x ∈ fs, ∃ ts, Path toks p q ts ∧ ∀ e, Spells toks (.form e x vs) ts

theorem Written.le {fs gs : List Frm} {p q : Pt} {vs : List V} (h : Written toks fs p q vs) (hl : Form.allLe fs gs = true) :
    Written toks gs p q vs := by
  obtain ⟨x, hx, ts, hp, hs⟩ := h
  have := List.all_eq_true.mp hl x hx
  obtain ⟨y, hy, hxy⟩ := List.any_eq_true.mp this
  exact ⟨y, hy, ts, hp, fun e => Form.le_spells hxy (hs e)⟩

theorem Written.single {x : Frm} {p q : Pt} {vs : List V} (h : Written toks [x] p q vs) :
    ∃ ts, Path toks p q ts ∧ ∀ e, Spells toks (.form e x vs) ts := by
  obtain ⟨y, hy, ts, hp, hs⟩ := h
  simp at hy; subst hy
  exact ⟨ts, hp, hs⟩

theorem Written.of_single {x : Frm} {p q : Pt} {vs : List V} {ts : List Token} (hp : Path toks p q ts)
    (hs : ∀ e, Spells toks (.form e x vs) ts) : Written toks [x] p q vs := ⟨x, by simp, ts, hp, hs⟩

theorem Written.mode {m : Mode} {p q : Pt} {v : V} (h : Written toks [[.f 0 m]] p q [v]) :
    ∃ ts, Path toks p q ts ∧ Spells toks (.one m v) ts := by
  obtain ⟨ts, hp, hs⟩ := h.single
  obtain ⟨w, hw, hs⟩ := (hs ⟨0, 0⟩).form_one_inv
  simp at hw; subst hw
  exact ⟨ts, hp, hs⟩

theorem Written.of_mode {m : Mode} {p q : Pt} {v : V} {ts : List Token} (hp : Path toks p q ts) (hs : Spells toks (.one m v) ts) :
    Written toks [[.f 0 m]] p q [v] :=
  .of_single hp fun _ => .form_one (by simp) hs

theorem Written.around {a b : List TK} {m : Mode} {fs : List Frm} {p q : Pt} {v : V} (h : Written toks fs p q [v])
    (ha : around1 fs = some (a, m, b)) :
    ∃ x y z, Path toks p q (x ++ y ++ z) ∧ Kinds a x ∧ Spells toks (.one m v) y ∧ Kinds b z := by
  unfold around1 at ha
  split at ha
  · rw [Form.around_eq ha] at h
    obtain ⟨ts, hp, hs⟩ := h.single
    obtain ⟨w, x, y, z, hw, rfl, h1, h2, h3⟩ := (hs ⟨0, 0⟩).around
    simp at hw; subst hw
    exact ⟨x, y, z, hp, h1, h2, h3⟩
  · cases ha

theorem fitStyle_le {styles : List Style} {table : Style → List Frm} {xs : List Frm} {s : Style}
    (h : fitStyle styles table xs = some s) : Form.allLe xs (table s) = true := by
  have := List.find?_some h
  exact this

/-- Values written as a struct. -/
theorem Written.node {s : Style} {k : K} {e : Extent} {vs : List V} {p q : Pt} (h : Written toks (Spec.forms s k) p q vs)
    (he : ex toks p q = some e) (hk : emptyExtent k = false) : Written toks (one s) p q [.node k e [] vs] := by
  obtain ⟨x, hx, ts, hp, hs⟩ := h
  exact .of_mode hp (.node hx (hs e) ((hp.spans he).extends hk))

/-- Values written as a struct with an empty extent. -/
theorem Written.nodeEmpty {s : Style} {k : K} {e : Extent} {vs : List V} {p q : Pt} (h : Written toks (Spec.forms s k) p q vs)
    (he : ex toks p p = some e) (hk : emptyExtent k = true) : Written toks (one s) p q [.node k e [] vs] := by
  obtain ⟨x, hx, ts, hp, hs⟩ := h
  exact .of_mode hp (.node hx (hs e) (.of_empty hk (hp.empty he)))

theorem Written.enm {s : Style} {t : Tag} {vs : List V} {p q : Pt}
    (h : Written toks (variantSyntax s t) p q vs) : Written toks (one s) p q [.enm t vs] := by
  obtain ⟨x, hx, ts, hp, hs⟩ := h
  exact .of_mode hp (.enm hx (hs ⟨0, 0⟩))

theorem Written.variant {s : Style} {t : Tag} {vs : List V} {p q : Pt}
    (h : Written toks (variantSyntax s t) p q vs) : Written toks [[.f 0 (.variant s t)]] p q [.enm t vs] := by
  obtain ⟨x, hx, ts, hp, hs⟩ := h
  exact .of_mode hp (.variant (.enm hx (hs ⟨0, 0⟩)))

/-! ## Lists -/

theorem Gap.path {early loose : Bool} {p q : Pt} (h : Gap toks early p q) (hl : loose = !early) :
    ∃ ts, Path toks p q ts ∧ (loose = false → ts = []) := by
  cases early with
  | true => rw [h.2 rfl]; exact ⟨[], .nil, fun _ => rfl⟩
  | false => obtain ⟨ts, hp⟩ := h.1.path; exact ⟨ts, hp, fun h => by rw [hl] at h; cases h⟩

theorem Gap.same {p q : Pt} (h : Gap toks true p q) : q = p := h.2 rfl

theorem Star.spells {R : Pt → Pt → List V → Prop} {pre post : List TK} {m : Mode}
    (hR : ∀ p q v, R p q v → ∃ x a b c, v = [x] ∧ Path toks p q (a ++ b ++ c) ∧ Kinds pre a ∧ Spells toks (.one m x) b ∧ Kinds post c)
    {p q : Pt} {vss : List (List V)} (h : Star toks R p q vss) :
    ∃ ts, Path toks p q ts ∧ Spells toks (.rep pre m post vss.flatten) ts := by
  induction h with
  | nil => exact ⟨[], .nil, .repNil⟩
  | cons hr _ ih =>
    obtain ⟨x, a, b, c, rfl, hp, h1, h2, h3⟩ := hR _ _ _ hr
    obtain ⟨ts, hp', hs⟩ := ih
    exact ⟨_, hp.append hp', .repCons h1 h2 h3 hs⟩

section
variable {R : Pt → Pt → List V → Prop} {S : Pt → Pt → Prop} {k : TK} {m : Mode}
  (hR : ∀ p q v, R p q v → ∃ x ts, v = [x] ∧ Path toks p q ts ∧ Spells toks (.one m x) ts)
  (hS : ∀ p q, S p q → ∃ e, Path toks p q [.plain k e])
include hR hS

theorem TailR.spells {er loose : Bool} (hl : loose = !er) {p q : Pt} {t t' : P.Tailed (List V)}
    (h : TailR toks true er S R p t q t') :
    ∃ ws ts, t'.values.flatten = t.values.flatten ++ ws ∧ Path toks p q ts ∧ Spells toks (.sep loose k m ws) ts := by
  induction h with
  | stop hg =>
    obtain ⟨ts, hp, he⟩ := hg.path hl
    exact ⟨[], ts, by simp, hp, .sepEnd he⟩
  | last hr hg =>
    rw [hg.same]
    obtain ⟨x, ts, rfl, hp, hs⟩ := hR _ _ _ hr
    exact ⟨[x], ts, by simp, hp, .sepLast hs⟩
  | more hr hs _ ih =>
    obtain ⟨x, ts, rfl, hp, hx⟩ := hR _ _ _ hr
    obtain ⟨e, hp'⟩ := hS _ _ hs
    obtain ⟨ws, us, hw, hp'', hu⟩ := ih
    exact ⟨x :: ws, _, by rw [hw]; simp, hp.append (hp'.append hp''), .sepCons hx hu⟩

theorem TailR1.spells {er loose : Bool} (hl : loose = !er) {p q : Pt} {t : P.Tailed (List V)}
    (h : TailR1 toks true er S R p q t) :
    ∃ ts, t.values.flatten ≠ [] ∧ Path toks p q ts ∧ Spells toks (.sep loose k m t.values.flatten) ts := by
  cases h with
  | one hr hg =>
    rw [hg.same]
    obtain ⟨x, ts, rfl, hp, hs⟩ := hR _ _ _ hr
    exact ⟨ts, by simp, hp, .sepLast hs⟩
  | more hr hs h =>
    obtain ⟨x, ts, rfl, hp, hx⟩ := hR _ _ _ hr
    obtain ⟨e, hp'⟩ := hS _ _ hs
    obtain ⟨ws, us, hw, hp'', hu⟩ := h.spells hR hS hl
    rw [hw]
    exact ⟨_, by simp, hp.append (hp'.append hp''), .sepCons hx hu⟩

end

theorem ImplR.spells {R : Pt → Pt → List V → Prop} {S : Pt → Pt → Prop} {k : TK} {impl : List V → Bool} {ends : V → Bool}
    (hR : ∀ p q v, R p q v → ∃ x ts, v = [x] ∧ Path toks p q ts ∧ Spells toks (.one (.val .plain) x) ts)
    (hS : ∀ p q, S p q → ∃ e, Path toks p q [.plain k e]) (hi : ∀ x, impl [x] = true → ends x = true)
    {er loose : Bool} (hl : loose = !er) {p q : Pt} {t t' : P.Tailed (List V)} (h : ImplR toks true er impl S R p t q t') :
    ∃ ws ts, t'.values.flatten = t.values.flatten ++ ws ∧ Path toks p q ts ∧ Spells toks (.ended loose ends k ws) ts := by
  induction h with
  | stop hg =>
    obtain ⟨ts, hp, he⟩ := hg.path hl
    exact ⟨[], ts, by simp, hp, .endedEnd he⟩
  | last hr _ hg =>
    rw [hg.same]
    obtain ⟨x, ts, rfl, hp, hs⟩ := hR _ _ _ hr
    exact ⟨[x], ts, by simp, hp, .endedLast hs⟩
  | implicit hr hv hg _ ih =>
    obtain ⟨x, ts, rfl, hp, hx⟩ := hR _ _ _ hr
    rw [hg.same] at ih
    obtain ⟨ws, us, hw, hp'', hu⟩ := ih
    exact ⟨x :: ws, _, by rw [hw]; simp, hp.append hp'', .endedSelf (hi _ hv) hx hu⟩
  | more hr hs _ ih =>
    obtain ⟨x, ts, rfl, hp, hx⟩ := hR _ _ _ hr
    obtain ⟨e, hp'⟩ := hS _ _ hs
    obtain ⟨ws, us, hw, hp'', hu⟩ := ih
    exact ⟨x :: ws, _, by rw [hw]; simp, hp.append (hp'.append hp''), .endedCons hx hu⟩

theorem TailR.count {α : Type} {es er : Bool} {S : Pt → Pt → Prop} {R : Pt → Pt → α → Prop} {p q : Pt} {t t' : P.Tailed α}
    (h : TailR toks es er S R p t q t') : t.separatorCount ≤ t'.separatorCount := by
  induction h with
  | stop | last => exact Nat.le_refl _
  | more _ _ _ ih => simp only at ih; omega

end

end Verif
