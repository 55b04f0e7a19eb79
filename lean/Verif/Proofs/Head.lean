import Verif.Spec.Head
import Verif.Proofs.Nodes
/-!
# Struct literals are only read where they are allowed
-/

namespace Verif
open Verif.Spec

/-! ## Values -/

theorem exposesAny_append (vs ws : List V) : exposesAny (vs ++ ws) = (exposesAny vs || exposesAny ws) := by
  induction vs with
  | nil => simp [exposesAny]
  | cons v vs ih => simp [exposesAny, ih, Bool.or_assoc]

theorem exposesAny_flatten {vss : List (List V)} (h : ∀ vs ∈ vss, exposesAny vs = false) : exposesAny vss.flatten = false := by
  induction vss with
  | nil => rfl
  | cons v vss ih =>
    simp only [List.flatten_cons, exposesAny_append, h v (by simp), ih fun w hw => h w (by simp [hw]), Bool.or_false]

theorem exposesAny_mem {vs : List V} (h : exposesAny vs = false) {v : V} (hv : v ∈ vs) : exposes v = false := by
  induction vs with
  | nil => simp at hv
  | cons w vs ih =>
    simp [exposesAny] at h hv
    rcases hv with rfl | hv
    · exact h.1
    · exact ih h.2 hv

theorem exposesAny_of {vs : List V} (h : ∀ v ∈ vs, exposes v = false) : exposesAny vs = false := by
  induction vs with
  | nil => rfl
  | cons w vs ih => simp [exposesAny, h w (by simp), ih fun v hv => h v (by simp [hv])]

theorem exposesField_of {vs : List V} (h : exposesAny vs = false) (ss : List Bool) : exposesField ss vs = false := by
  induction vs generalizing ss with
  | nil => cases ss <;> rfl
  | cons v vs ih =>
    simp [exposesAny] at h
    cases ss <;> simp [exposesField, h.1, ih h.2]

/-- Flags: which values are known to expose nothing. -/
inductive Flags : List Bool → List V → Prop
  | nil : Flags [] []
  | yes {b bs v vs} : exposes v = false → Flags bs vs → Flags (b :: bs) (v :: vs)
  | no {bs v vs} : Flags bs vs → Flags (false :: bs) (v :: vs)

theorem Flags.append {bs cs : List Bool} {vs ws : List V} (h : Flags bs vs) (h' : Flags cs ws) : Flags (bs ++ cs) (vs ++ ws) := by
  induction h with
  | nil => exact h'
  | yes h _ ih => exact .yes h ih
  | no _ ih => exact .no ih

theorem Flags.all {bs : List Bool} {vs : List V} (h : Flags bs vs) (hb : bs.all id = true) : exposesAny vs = false := by
  induction h with
  | nil => rfl
  | yes h _ ih => simp at hb; simp [exposesAny, h, ih (by simpa using hb.2)]
  | no _ ih => simp at hb

theorem Flags.of {b : Bool} {vs : List V} {n : Nat} (hn : vs.length = n) (h : b = true → exposesAny vs = false) :
    Flags (List.replicate n b) vs := by
  subst hn
  induction vs with
  | nil => exact .nil
  | cons v vs ih =>
    cases b with
    | false => exact .no (ih (by simp))
    | true =>
      have := h rfl
      simp [exposesAny] at this
      exact .yes this.1 (ih fun _ => this.2)

theorem Flags.length {bs : List Bool} {vs : List V} (h : Flags bs vs) : bs.length = vs.length := by
  induction h with
  | nil => rfl
  | yes _ _ ih => simp [ih]
  | no _ ih => simp [ih]

theorem Flags.weaken {bs cs : List Bool} {vs : List V} (h : Flags bs vs) (hl : cs.length = bs.length)
    (hc : ∀ i : Nat, cs[i]? = some true → bs[i]? = some true) : Flags cs vs := by
  induction h generalizing cs with
  | nil => simp at hl; subst hl; exact .nil
  | @yes b bs v vs h _ ih =>
    cases cs with
    | nil => simp at hl
    | cons c cs => exact .yes h (ih (by simpa using hl) fun i => by simpa using hc (i + 1))
  | @no bs v vs _ ih =>
    cases cs with
    | nil => simp at hl
    | cons c cs =>
      have := hc 0
      simp at this
      subst this
      exact .no (ih (by simpa using hl) fun i => by simpa using hc (i + 1))

/-- A field is sheltered or known to expose nothing. -/
def covers : List Bool → List Bool → Bool
  | s :: ss, b :: bs => (s || b) && covers ss bs
  | [], bs => bs.all id
  | _, [] => true

theorem Flags.field {bs ss : List Bool} {vs : List V} (h : Flags bs vs) (hc : covers ss bs = true) : exposesField ss vs = false := by
  induction h generalizing ss with
  | nil => cases ss <;> rfl
  | yes h h' ih =>
    cases ss with
    | nil => simp [covers] at hc; simp [exposesField, h, ih (ss := []) (by simpa [covers] using hc.2)]
    | cons s ss => simp [covers] at hc; simp [exposesField, h, ih hc.2]
  | no h' ih =>
    cases ss with
    | nil => simp [covers] at hc
    | cons s ss => simp [covers] at hc; simp [exposesField, hc.1, ih hc.2]

theorem hasS_length {vs : List V} {ss : List STy} (h : hasS vs ss = true) : vs.length = ss.length := by
  induction vs generalizing ss with
  | nil => cases ss <;> simp [hasS] at h; rfl
  | cons v vs ih => cases ss <;> simp [hasS] at h; simp [ih h.2]

/-! ## Closures -/

theorem Fn.app_clean (f : Fn) (vs : List V) (hf : f ≠ .copyExtent .StructLiteral) (h : exposesAny vs = false) :
    exposesAny (f.app vs) = false := by
  have hm : ∀ {v : V}, v ∈ vs → exposes v = false := fun hv => exposesAny_mem h hv
  unfold Fn.app
  split
  all_goals first
    | exact h
    | skip
  case h_17 k v =>
    split
    · have : k ≠ .StructLiteral := fun hk => hf (by rw [hk])
      simp [exposesAny, exposes, this]
      exact exposesField_of h _
    · exact h
  case h_18 v =>
    split
    · simp only [intoExpr, mkAttributed, exposesAny, exposes, Bool.or_false]
      simp
      exact exposesField_of (by simpa [exposesAny, exposes] using h) _
    · exact h
  all_goals simp [exposesAny, exposes, mkIdent, mkPathedIdent, intoExpr, mkAttributed, exposesAny_append] at h ⊢
  all_goals try first
    | exact h
    | simp [h]
    | skip
  all_goals simp [exposesField, exposes, exposesAny, K.fields, shelters]
  all_goals exact h

theorem TailK.out_clean (k : TailK) (t : P.Tailed (List V)) (h : exposesAny t.values.flatten = false) :
    exposesAny (k.out t) = false := by
  have hi : ∀ {v w : V}, intoExpression v = some w → exposes v = false → exposes w = false := by
    intro v w hv h
    unfold intoExpression at hv
    split at hv <;> simp at hv
    subst hv
    simpa [exposes, exposesAny] using h
  unfold TailK.out
  split
  · simpa [exposesAny, exposes] using h
  · split
    · rename_i e' h'
      split
      · simpa [exposesAny, exposes] using h
      · have h1 : exposesAny t.values.flatten.dropLast = false :=
          exposesAny_of fun v hv => exposesAny_mem h (List.dropLast_subset _ hv)
        cases hl : t.values.flatten.getLast? with
        | none => rw [hl] at h'; cases h'
        | some w =>
          rw [hl] at h'
          simp [exposesAny, exposes, h1, hi h' (exposesAny_mem h (List.mem_of_getLast? hl))]
    · simpa [exposesAny, exposes] using h
  · split <;> simpa [exposesAny, exposes] using h

/-! ## The analysis -/

/-- The number of values of a grammar expression. -/
def G.width (g : G) : Nat := ((g.sty NT.sty).getD []).length

/-- Which values of a grammar expression expose nothing when read in a mode in which struct literals are forbidden (`true`) or
allowed (`false`), given the same of the nonterminals. -/
def G.free (d : Bool → NT → List Bool) : Bool → G → List Bool
  | _, .eps => []
  | _, .tok _ | _, .number | _, .simpleNumber | _, .nested _ _ | _, .ext _ => [true]
  | m, .r n => d m n
  | m, .seq a b => a.free d m ++ b.free d m
  | m, .alt a b =>
    if (a.free d m).length = (b.free d m).length then (a.free d m).zipWith (· && ·) (b.free d m)
    else List.replicate (G.alt a b).width false
  | m, .ifAmbiguous a b => if m then a.free d m else b.free d m
  | m, .opt a => List.replicate (G.opt a).width ((a.free d m).all id)
  | m, .many a => List.replicate (G.many a).width ((a.free d m).all id)
  | m, .tailed k s a => List.replicate (G.tailed k s a).width ((a.free d m).all id)
  | m, .tailed1Values s a => List.replicate (G.tailed1Values s a).width ((a.free d m).all id)
  | m, .resume s a => List.replicate (G.resume s a).width ((a.free d m).all id)
  | m, .implTailed k i s a => List.replicate (G.implTailed k i s a).width ((a.free d m).all id)
  | _, .drop _ => []
  | m, .map f a =>
    List.replicate (G.map f a).width (decide (f ≠ .copyExtent .StructLiteral) && (a.free d m).all id)
  | m, .build (.node k) a =>
    [decide (k ≠ .StructLiteral) && covers (k.fields.map fun f => shelters k f.name) (a.free d m)]
  | _, .build .paren _ => [true]
  | m, .build .tupleBody a => List.replicate (G.build .tupleBody a).width ((a.free d m).all id)
  | m, .build .span a => true :: a.free d m
  | m, .nodeEmpty k a =>
    [decide (k ≠ .StructLiteral) && covers (k.fields.map fun f => shelters k f.name) (a.free d m)]
  | m, .mapErr _ a => a.free d m
  | m, .peek a => a.free d m
  | _, .amb l a => a.free d l.isAmbiguous
  | m, .notMaximum a => a.free d m

/-- What the nonterminals expose. -/
def NT.free : Bool → NT → List Bool
  | true, nt => List.replicate nt.sty.length (match nt with
    | .operator_postfix_call | .operator_postfix_slice | .match_arm_guard | .match_arm_hand | .expr_value_struct_literal
    | .expr_value_struct_literal_field | .expr_value_struct_literal_field_value | .expr_value_struct_literal_splat => false
    | _ => true)
  | false, .expr_followed_by_block => [true, false]
  | false, nt => List.replicate nt.sty.length false

/-- The second list of flags says no less than the first. -/
def implied : List Bool → List Bool → Bool
  | [], [] => true
  | c :: cs, b :: bs => (!c || b) && implied cs bs
  | _, _ => false

theorem Flags.implied {cs bs : List Bool} {vs : List V} (h : Flags bs vs) (hc : implied cs bs = true) : Flags cs vs := by
  induction h generalizing cs with
  | nil => cases cs <;> simp [Verif.implied] at hc; exact .nil
  | yes h _ ih => cases cs <;> simp [Verif.implied] at hc; exact .yes h (ih hc.2)
  | no _ ih => cases cs <;> simp [Verif.implied] at hc; obtain ⟨rfl, hc⟩ := hc; exact .no (ih hc)

theorem rules_free (m : Bool) (nt : NT) (g : G) (h : rules nt = .g g) : implied (nt.free m) (g.free NT.free m) = true := by
  have ha : [true, false].all (fun m => NT.all.all (fun nt => match rules nt with
    | .g g => implied (nt.free m) (g.free NT.free m)
    | .expr _ => true)) = true := by decide +kernel
  have := List.all_eq_true.mp (List.all_eq_true.mp ha m (by cases m <;> simp)) nt (NT.mem_all nt)
  rw [h] at this
  exact this

theorem Flags.zip {bs cs : List Bool} {vs : List V} (h : Flags bs vs ∨ Flags cs vs) (hl : bs.length = vs.length)
    (hl' : cs.length = vs.length) : Flags (bs.zipWith (· && ·) cs) vs := by
  induction vs generalizing bs cs with
  | nil =>
    have h1 := List.length_eq_zero_iff.mp hl
    subst h1
    exact .nil
  | cons v vs ih =>
    match bs, cs, hl, hl' with
    | b :: bs, c :: cs, hl, hl' =>
      simp at hl hl'
      rcases h with h | h
      · cases h with
        | yes h h' => exact .yes h (ih (.inl h') hl hl')
        | no h' => simp only [List.zipWith_cons_cons, Bool.false_and]; exact .no (ih (.inl h') hl hl')
      · cases h with
        | yes h h' => exact .yes h (ih (.inr h') hl hl')
        | no h' => simp only [List.zipWith_cons_cons, Bool.and_false]; exact .no (ih (.inr h') hl hl')


theorem convertNumber_clean (n : Number) : exposes (convertNumber n) = false := by
  have h : ∀ o, exposes (optExt o) = false := by intro o; cases o <;> rfl
  unfold convertNumber
  cases n.base <;> simp [exposes, exposesAny, exposesField, K.fields, shelters, h]

section
variable {toks : List Token} {Φ : NT → Rel} (hΦ : ∀ nt am p q vs, Φ nt am p q vs → hasS vs nt.sty = true)
  (hF : ∀ nt am p q vs, Φ nt am p q vs → Flags (nt.free am.isAmbiguous) vs)
include hΦ hF

theorem den_free (g : G) : ∀ ss, g.sty NT.sty = some ss → ∀ a p q vs, den toks Φ g a p q vs →
    Flags (g.free NT.free a.isAmbiguous) vs := by
  have hw : ∀ (x : G) ss, x.sty NT.sty = some ss → ∀ a p q vs, den toks Φ x a p q vs → vs.length = x.width := by
    intro x ss hs a p q vs h
    rw [hasS_length (den_sty hΦ x ss hs _ _ _ _ h), G.width, hs]; rfl
  induction g with
  | eps => rintro ss - a p q vs ⟨-, -, rfl⟩; exact .nil
  | tok k => rintro ss - a p q vs ⟨-, e, -, rfl⟩; exact .yes rfl .nil
  | simpleNumber => rintro ss - a p q vs ⟨-, n, e, -, -, rfl⟩; exact .yes rfl .nil
  | number => rintro ss - a p q vs ⟨-, n, -, rfl⟩; exact .yes (convertNumber_clean n) .nil
  | nested o c => rintro ss - a p q vs ⟨m, e0, e, -, -, -, -, -, rfl⟩; exact .yes rfl .nil
  | r n => rintro ss - a p q vs ⟨-, h⟩; exact hF _ _ _ _ _ h
  | seq x y ihx ihy =>
    intro ss hs
    simp only [G.sty, bind, Option.bind_eq_some_iff] at hs
    obtain ⟨s, hs, t, ht, h⟩ := hs
    rintro a p q vs ⟨m, v, w, hx, hy, rfl⟩
    exact (ihx _ hs _ _ _ _ hx).append (ihy _ ht _ _ _ _ hy)
  | alt x y ihx ihy =>
    intro ss hs' a p q vs h
    have hl := hw _ _ hs' _ _ _ _ h
    have hs := hs'
    simp only [G.sty, bind, Option.bind_eq_some_iff] at hs
    obtain ⟨s, hs, t, ht, hj⟩ := hs
    have h1 : Flags (x.free NT.free a.isAmbiguous) vs ∨ Flags (y.free NT.free a.isAmbiguous) vs :=
      h.imp (ihx _ hs _ _ _ _) (ihy _ ht _ _ _ _)
    simp only [G.free]
    split
    · next he =>
      rcases h1 with h1 | h1
      · exact Flags.zip (.inl h1) h1.length (he ▸ h1.length)
      · exact Flags.zip (.inr h1) (he.trans h1.length) h1.length
    · exact .of hl (by simp)
  | ifAmbiguous x y ihx ihy =>
    intro ss hs
    simp only [G.sty, bind, Option.bind_eq_some_iff] at hs
    obtain ⟨s, hs, t, ht, hj⟩ := hs
    intro a p q vs h
    simp only [den] at h
    simp only [G.free]
    split at h
    · next ha => rw [if_pos ha]; exact ihx _ hs _ _ _ _ h
    · next ha => rw [if_neg ha]; exact ihy _ ht _ _ _ _ h
  | opt x ih =>
    intro ss hs' a p q vs h
    refine .of (hw _ _ hs' _ _ _ _ h) fun hb => ?_
    simp only [G.sty, bind, Option.bind_eq_some_iff] at hs'
    obtain ⟨s, hs, -⟩ := hs'
    rcases h with ⟨v, h, rfl⟩ | ⟨-, -, rfl⟩
    · simpa [exposes, exposesAny] using (ih _ hs _ _ _ _ h).all hb
    · rfl
  | many x ih =>
    intro ss hs' a p q vs h
    refine .of (hw _ _ hs' _ _ _ _ h) fun hb => ?_
    simp only [G.sty, bind, Option.bind_eq_some_iff] at hs'
    obtain ⟨s, hs, -⟩ := hs'
    obtain ⟨vss, h, rfl⟩ := h
    simpa [exposes, exposesAny] using exposesAny_flatten (h.all (P := fun v => exposesAny v = false) (fun _ _ _ h => (ih _ hs _ _ _ _ h).all hb))
  | tailed k sp x ihs ih =>
    intro ss hs' a p q vs h
    refine .of (hw _ _ hs' _ _ _ _ h) fun hb => ?_
    simp only [G.sty, bind, Option.bind_eq_some_iff] at hs'
    obtain ⟨-, -, s, hs, -⟩ := hs'
    obtain ⟨t, h, rfl⟩ := h
    exact TailK.out_clean k t (exposesAny_flatten (h.all (P := fun v => exposesAny v = false) (fun _ _ _ h => (ih _ hs _ _ _ _ h).all hb) (by simp)))
  | implTailed k i sp x ihs ih =>
    intro ss hs' a p q vs h
    refine .of (hw _ _ hs' _ _ _ _ h) fun hb => ?_
    simp only [G.sty, bind, Option.bind_eq_some_iff] at hs'
    obtain ⟨-, -, s, hs, -⟩ := hs'
    obtain ⟨t, h, rfl⟩ := h
    exact TailK.out_clean k t (exposesAny_flatten (h.all (P := fun v => exposesAny v = false) (fun _ _ _ h => (ih _ hs _ _ _ _ h).all hb) (by simp)))
  | tailed1Values sp x ihs ih =>
    intro ss hs' a p q vs h
    refine .of (hw _ _ hs' _ _ _ _ h) fun hb => ?_
    simp only [G.sty, bind, Option.bind_eq_some_iff] at hs'
    obtain ⟨-, -, s, hs, -⟩ := hs'
    obtain ⟨t, h, rfl⟩ := h
    exact TailK.out_clean .values t (exposesAny_flatten (h.all (P := fun v => exposesAny v = false) (fun _ _ _ h => (ih _ hs _ _ _ _ h).all hb)))
  | resume sp x ihs ih =>
    intro ss hs' a p q vs h
    refine .of (hw _ _ hs' _ _ _ _ h) fun hb => ?_
    simp only [G.sty, bind, Option.bind_eq_some_iff] at hs'
    obtain ⟨-, -, s, hs, -⟩ := hs'
    rcases h with ⟨-, rfl⟩ | ⟨m, w, t, -, h, rfl⟩
    · rfl
    · simpa [exposes, exposesAny] using exposesAny_flatten (h.all (P := fun v => exposesAny v = false) (fun _ _ _ h => (ih _ hs _ _ _ _ h).all hb))
  | ext x ih => rintro ss - a p q vs ⟨v, e, -, -, rfl⟩; exact .yes rfl .nil
  | drop x ih => rintro ss - a p q vs ⟨v, -, rfl⟩; exact .nil
  | map f x ih =>
    intro ss hs' a p q vs h
    refine .of (hw _ _ hs' _ _ _ _ h) fun hb => ?_
    simp only [G.sty, bind, Option.bind_eq_some_iff] at hs'
    obtain ⟨s, hs, -⟩ := hs'
    obtain ⟨v, h, rfl⟩ := h
    simp only [Bool.and_eq_true, decide_eq_true_eq] at hb
    exact Fn.app_clean f v hb.1 ((ih _ hs _ _ _ _ h).all hb.2)
  | build m x ih =>
    intro ss hs' a p q vs h
    have hl := hw _ _ hs' _ _ _ _ h
    simp only [G.sty, bind, Option.bind_eq_some_iff] at hs'
    obtain ⟨s, hs, hj⟩ := hs'
    obtain ⟨v, e, h, -, rfl⟩ := h
    have h1 := ih _ hs _ _ _ _ h
    have h2 := den_sty hΦ x s hs _ _ _ _ h
    cases m with
    | node k =>
      refine Flags.of (n := 1) rfl fun hb => ?_
      simp only [Bool.and_eq_true, decide_eq_true_eq] at hb
      simp [Mk.app, exposes, exposesAny, hb.1, h1.field hb.2]
    | span => exact .yes rfl h1
    | paren =>
      unfold Mk.sty at hj
      split at hj <;> try (simp at *; done)
      obtain ⟨w, rfl, hp⟩ := hasS_one h2
      unfold STy.has at hp
      split at hp <;> try (simp at *; done)
      all_goals exact .yes (by simp [exposes, exposesAny, exposesField, K.fields, shelters]) .nil
    | tupleBody =>
      refine .of hl fun hb => ?_
      have h3 := h1.all hb
      unfold Mk.app
      split <;> try (first | exact h3 | (simp at *; done))
      simp [exposesAny] at h3
      simp [exposesAny, exposes, h3.2]
      exact exposesField_of (by simp [exposesAny, h3.1]) _
  | nodeEmpty k x ih =>
    intro ss hs' a p q vs h
    simp only [G.sty, bind, Option.bind_eq_some_iff] at hs'
    obtain ⟨s, hs, hj⟩ := hs'
    obtain ⟨v, e, h, -, rfl⟩ := h
    have h1 := ih _ hs _ _ _ _ h
    refine Flags.of (n := 1) rfl fun hb => ?_
    simp only [Bool.and_eq_true, decide_eq_true_eq] at hb
    simp [exposes, exposesAny, hb.1, h1.field hb.2]
  | mapErr e x ih => intro ss hs a p q vs h; exact ih ss hs _ _ _ _ h
  | peek x ih => rintro ss hs a p q vs ⟨-, -, m, h⟩; exact ih ss hs _ _ _ _ h
  | amb l x ih => intro ss hs a p q vs h; exact ih ss hs _ _ _ _ h
  | notMaximum x ih => rintro ss hs a p q vs ⟨-, h⟩; exact ih ss hs _ _ _ _ h


/-! ## Expressions -/

omit hΦ hF in
theorem mkAttributed_clean {e : Extent} {attrs : List V} {v : V} (ha : exposesAny attrs = false) (hv : exposes v = false) :
    exposes (mkAttributed e attrs v) = false := by
  simp [mkAttributed, exposes, exposesField, exposesAny, K.fields, shelters, ha, hv]

omit hΦ hF in
theorem exposesAny_toList {o : Option V} (ho : ∀ v, o = some v → exposes v = false) : exposesAny o.toList = false :=
  exposesAny_of fun v hv => ho v (by simpa using hv)

omit hΦ hF in
theorem PrefixOp.mk_clean {op : PrefixOp} {payload : List V} {e : Extent} {o : Option V} (hp : exposesAny payload = false)
    (ho : ∀ v, o = some v → exposes v = false) : exposes (op.mk payload e o) = false := by
  have h := exposesAny_toList ho
  cases op <;> simp [PrefixOp.mk, exposes, exposesAny]
  all_goals exact exposesField_of (by simp [exposesAny, exposes, exposesAny_append, h, hp]) _

omit hΦ hF in
theorem InfixOp.mk_clean {op : InfixOp} {payload : List V} {e : Extent} {l : V} {o : Option V} (hp : exposesAny payload = false)
    (hl : exposes l = false) (ho : ∀ v, o = some v → exposes v = false) : exposes (op.mk payload e l o) = false := by
  have h := exposesAny_toList ho
  cases op <;> refine mkAttributed_clean rfl ?_ <;> simp [exposes, exposesAny]
  all_goals exact exposesField_of (by simp [exposesAny, exposes, exposesAny_append, h, hp, hl]) _

omit hΦ hF in
theorem PostfixOp.mk_clean {op : PostfixOp} {payload : List V} {e : Extent} {l : V}
    (hp : hasTys payload op.payload = true) (hp' : op ≠ .Call → op ≠ .Slice → exposesAny payload = false)
    (hl : exposes l = false) : exposes (op.mk payload e l) = false := by
  cases op
  case Call | Slice =>
    obtain ⟨w, rfl, hw⟩ := hasTys_one hp
    refine mkAttributed_clean rfl ?_
    simp [exposes, exposesAny, exposesField, K.fields, shelters, hl]
  all_goals
    refine mkAttributed_clean rfl ?_
    simp [exposes, exposesAny]
    exact exposesField_of (by simp [exposesAny, hl, hp']) _

/-- The values of the operators of a table expose nothing, with exceptions. -/
def cleanTable {α : Type} (f : α → Bool) (t : (α × G) × List (α × G)) : Bool :=
  (t.1 :: t.2).all fun (op, g) => f op || ((g.sty NT.sty).isSome && (g.free NT.free true).all id)

omit hΦ hF in
theorem prefixTable_clean : cleanTable (fun _ => false) prefixTable = true := by decide +kernel
omit hΦ hF in
theorem infixTable_clean : cleanTable (fun _ => false) infixTable = true := by decide +kernel
omit hΦ hF in
theorem postfixTable_clean :
    cleanTable (fun | .Call | .Slice => true | _ => false) postfixTable = true := by decide +kernel
omit hΦ hF in
theorem limitedTable_clean :
    cleanTable (fun | .Call | .Slice => true | _ => false) limitedTable = true := by decide +kernel

theorem TableR.clean {α : Type} {f : α → Bool} {t : (α × G) × List (α × G)} (ht : cleanTable f t = true)
    {am p q op payload} (ha : am.isAmbiguous = true) (hf : f op = false) (h : TableR toks Φ t am p q op payload) :
    exposesAny payload = false := by
  obtain ⟨g, hg, h⟩ := h
  have := List.all_eq_true.mp ht _ hg
  simp only [hf, Bool.false_or, Bool.and_eq_true, Option.isSome_iff_exists] at this
  obtain ⟨⟨ss, hs⟩, hg'⟩ := this
  have h1 := den_free hΦ hF g ss hs _ _ _ _ h
  rw [ha] at h1
  exact h1.all hg'

theorem AttrR.clean {R : Pt → Pt → Prop} {am p q e attrs} (ha : am.isAmbiguous = true) (h : AttrR toks Φ R am p q e attrs) :
    exposesAny attrs = false := by
  obtain ⟨m, vss, h, -, -, rfl⟩ := h
  refine exposesAny_flatten (h.all (P := fun v => exposesAny v = false) fun _ _ _ ⟨_, h⟩ => ?_)
  have h1 := hF _ _ _ _ _ h
  rw [ha] at h1
  exact h1.all (by decide +kernel)

theorem AtomR.clean {am p q v} (ha : am.isAmbiguous = true) (h : AtomR toks Φ am p q v) : exposes v = false := by
  obtain ⟨e, attrs, vs, h, rfl⟩ := h
  have h0 := AttrR.clean hΦ hF ha h
  obtain ⟨m, vss, -, ⟨-, h⟩, -, -⟩ := h
  have h1 := hF _ _ _ _ _ h
  rw [ha] at h1
  have h2 := h1.all (by decide +kernel)
  simp only [exposes, reduceCtorEq, decide_false, Bool.false_or]
  exact exposesField_of (by simp [exposesAny, exposes, h0, h2]) _

theorem PrefixR.clean {am p q e attrs op payload} (ha : am.isAmbiguous = true) (h : PrefixR toks Φ am p q e attrs op payload) :
    exposesAny attrs = false ∧ exposesAny payload = false := by
  refine ⟨AttrR.clean hΦ hF ha h, ?_⟩
  obtain ⟨m, vss, -, h, -, -⟩ := h
  exact TableR.clean hΦ hF prefixTable_clean ha rfl h

theorem OperandR.clean {a am p q v} (ha : a.isAmbiguous = true) (ha' : am.isAmbiguous = true) (h : OperandR toks Φ a am p q v) :
    exposes v = false := by
  induction h with
  | atom h => exact AtomR.clean hΦ hF ha' h
  | pre h _ _ ih =>
    have h1 := PrefixR.clean hΦ hF ha' h
    exact mkAttributed_clean h1.1 (PrefixOp.mk_clean h1.2 (by rintro _ ⟨⟩; exact ih ha))

theorem OpenRangeR.clean {a p q v} (ha : a.isAmbiguous = true) (h : OpenRangeR toks Φ a p q v) : exposes v = false := by
  induction h with
  | last h hr =>
    have h1 := PrefixR.clean hΦ hF ha h
    exact mkAttributed_clean h1.1 (PrefixOp.mk_clean h1.2 (by rintro _ ⟨⟩))
  | pre h _ _ ih =>
    have h1 := PrefixR.clean hΦ hF ha h
    exact mkAttributed_clean h1.1 (PrefixOp.mk_clean h1.2 (by rintro _ ⟨⟩; exact ih))

omit hΦ hF in
theorem rhsMode_ambiguous {a : Amb} (ha : a.isAmbiguous = true) (op : InfixOp) : (rhsMode a op).isAmbiguous = true := by
  unfold rhsMode; split
  · rfl
  · exact ha

theorem LeftR.clean {stmt a p q v} (ha : a.isAmbiguous = true) (h : LeftR toks Φ stmt a p q v) : exposes v = false := by
  induction h with
  | operand h => exact OperandR.clean hΦ hF ha ha h
  | post h _ h' he ih =>
    exact PostfixOp.mk_clean (TableR.sty hΦ postfixTable_typed h')
      (fun h1 h2 => TableR.clean hΦ hF postfixTable_clean ha (by split <;> simp_all) h') ih
  | limited h h' he ih =>
    exact PostfixOp.mk_clean (TableR.sty hΦ limitedTable_typed h')
      (fun h1 h2 => TableR.clean hΦ hF limitedTable_clean ha (by split <;> simp_all) h') ih
  | «infix» h _ h' h'' he ih =>
    exact InfixOp.mk_clean (TableR.clean hΦ hF infixTable_clean ha rfl h') ih
      (by rintro _ ⟨⟩; exact OperandR.clean hΦ hF ha (rhsMode_ambiguous ha _) h'')

theorem ExprR.clean {stmt a p q v} (ha : a.isAmbiguous = true) (h : ExprR toks Φ stmt a p q v) : exposes v = false := by
  cases h with
  | left h => exact LeftR.clean hΦ hF ha h
  | openInfix h _ h' hr he =>
    exact InfixOp.mk_clean (TableR.clean hΦ hF infixTable_clean ha rfl h') (LeftR.clean hΦ hF ha h) (by rintro _ ⟨⟩)
  | openPrefix h => exact OpenRangeR.clean hΦ hF ha h

theorem denRule_free (nt : NT) (a : Amb) (p q : Pt) (vs : List V) (h : denRule toks Φ (rules nt) a p q vs) :
    Flags (nt.free a.isAmbiguous) vs := by
  cases hr : rules nt with
  | g x =>
    rw [hr] at h
    obtain ⟨ss, hs, hl⟩ := rules_sty nt x hr
    exact (den_free hΦ hF x ss hs _ _ _ _ h).implied (rules_free _ nt x hr)
  | expr s =>
    rw [hr] at h
    obtain ⟨v, -, h, rfl⟩ := h
    have ha : [true, false].all (fun m => NT.all.all (fun nt => match rules nt with
      | .g _ => true
      | .expr _ => decide (nt.free m = [m]))) = true := by decide +kernel
    have := List.all_eq_true.mp (List.all_eq_true.mp ha a.isAmbiguous (by cases a.isAmbiguous <;> simp)) nt (NT.mem_all nt)
    rw [hr] at this
    rw [of_decide_eq_true this]
    cases hm : a.isAmbiguous with
    | true => exact .yes (ExprR.clean hΦ hF hm h) .nil
    | false => exact .no .nil

end

/-- Being of the right type and exposing no struct literals where these are forbidden. -/
def Clean (nt : NT) (am : Amb) (_ _ : Pt) (vs : List V) : Prop :=
  hasS vs nt.sty = true ∧ Flags (nt.free am.isAmbiguous) vs

theorem clean_inductive {toks : List Token} : Inductive toks Clean :=
  fun nt _ _ _ _ _ h => ⟨denRule_sty (fun _ _ _ _ _ h => h.2.2.1) nt _ _ _ _ h,
    denRule_free (fun _ _ _ _ _ h => h.2.2.1) (fun _ _ _ _ _ h => h.2.2.2) nt _ _ _ _ h⟩

/-! ## Heads -/

/-- The flag of the head is set. -/
def headFlag (k : K) (bs : List Bool) : Bool :=
  match headField k with
  | some n => ((k.fields.map (·.name)).zip bs).lookup n = some true
  | none => true

/-- The heads of the structs built are flagged in both modes. -/
def headPart : G → Bool
  | .build (.node k) g => (g.sty NT.sty).isSome && headFlag k (g.free NT.free true) && headFlag k (g.free NT.free false)
  | _ => true

theorem headParts : allParts.all headPart = true := by decide +kernel

theorem Flags.lookup {bs : List Bool} {vs : List V} (h : Flags bs vs) (names : List String) {n : String}
    (hn : (names.zip bs).lookup n = some true) : ∃ v, (names.zip vs).lookup n = some v ∧ exposes v = false := by
  induction h generalizing names with
  | nil => cases names <;> simp at hn
  | yes h _ ih =>
    cases names with
    | nil => simp at hn
    | cons x names =>
      simp only [List.zip_cons_cons, List.lookup_cons] at hn ⊢
      split at hn
      · exact ⟨_, rfl, h⟩
      · exact ih _ hn
  | no _ ih =>
    cases names with
    | nil => simp at hn
    | cons x names =>
      simp only [List.zip_cons_cons, List.lookup_cons] at hn ⊢
      split at hn
      · simp at hn
      · exact ih _ hn

theorem head_plain (k : K) (h : headField k ≠ none) :
    (!isExprKind k && !isNumberKind k && allParts.all (fun g => !g.odd k)) = true := by
  unfold headField at h
  split at h
  all_goals first | exact absurd rfl h | decide +kernel

theorem Orig.head {toks : List Token} {k : K} {e : Extent} {vs : List V} {Φ : NT → Rel}
    (hΦ : ∀ nt am p q vs, Φ nt am p q vs → Clean nt am p q vs)
    (h : Orig toks Φ k e vs) {n : String} (hn : headField k = some n) :
    ∃ v, fieldOf k vs n = some v ∧ exposes v = false := by
  obtain ⟨g, am, p, q, hg, hd, he⟩ := h.plain (head_plain k (by simp [hn]))
  have hp := List.all_eq_true.mp headParts _ hg
  simp only [headPart, Bool.and_eq_true, Option.isSome_iff_exists] at hp
  obtain ⟨⟨⟨ss, hs⟩, h1⟩, h2⟩ := hp
  have h3 := den_free (fun _ _ _ _ _ h => (hΦ _ _ _ _ _ h).1) (fun _ _ _ _ _ h => (hΦ _ _ _ _ _ h).2) g ss hs _ _ _ _ hd
  simp only [headFlag, hn, decide_eq_true_eq] at h1 h2
  refine h3.lookup _ ?_
  cases am.isAmbiguous
  · exact h2
  · exact h1

/-! ## Whitespace -/

mutual
theorem V.bare_exposes : ∀ (v : V), exposes v.bare = exposes v
  | .ext _ | .bool _ => rfl
  | .list vs => by simp [V.bare, exposes, bareL_exposesAny vs]
  | .enm _ vs => by simp [V.bare, exposes, bareL_exposesAny vs]
  | .node k _ _ vs => by simp [V.bare, exposes, bareL_exposesField vs]
theorem bareL_exposesAny : ∀ (vs : List V), exposesAny (bareL vs) = exposesAny vs
  | [] => rfl
  | v :: vs => by simp [bareL, exposesAny, v.bare_exposes, bareL_exposesAny vs]
theorem bareL_exposesField : ∀ (vs : List V) (ss : List Bool), exposesField ss (bareL vs) = exposesField ss vs
  | [], ss => by simp [bareL]
  | v :: vs, [] => by simp [bareL, exposesField, v.bare_exposes, bareL_exposesField vs]
  | v :: vs, s :: ss => by simp [bareL, exposesField, v.bare_exposes, bareL_exposesField vs]
end

theorem fieldOf_bare (k : K) (vs : List V) (n : String) : fieldOf k (bareL vs) n = (fieldOf k vs n).map V.bare := by
  unfold fieldOf
  generalize k.fields.map (·.name) = names
  induction names generalizing vs with
  | nil => simp
  | cons x names ih =>
    cases vs with
    | nil => simp [bareL]
    | cons v vs =>
      simp only [bareL, List.zip_cons_cons, List.lookup_cons]
      split
      · rfl
      · exact ih vs

end Verif
