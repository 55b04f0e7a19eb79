import Verif.Proofs.File
import Verif.Proofs.Typing
/-!
# The structs of a file

The items of a file are the ones parsed, up to the whitespace, so what is known of the structs parsed holds of the structs of the
file.
-/

namespace Verif
open Verif.Props Verif.Spec

/-! ## Trees without their whitespace -/

mutual
theorem V.bare_hasTy : ∀ (v : V) (t : Ty), v.bare.hasTy t = v.hasTy t
  | .ext _, _ => by simp [V.bare]
  | .bool _, _ => by simp [V.bare]
  | .list vs, t => by
    have := bareL_length vs
    cases t <;> simp [V.bare, V.hasTy, bareL_allTy vs, this]
  | .enm g vs, t => by cases t <;> simp [V.bare, V.hasTy, bareL_hasTys vs]
  | .node k e ws vs, t => by cases t <;> simp [V.bare, V.hasTy, bareL_hasTys vs]
theorem bareL_allTy : ∀ (vs : List V) (t : Ty), allTy (bareL vs) t = allTy vs t
  | [], _ => rfl
  | v :: vs, t => by simp [bareL, allTy, v.bare_hasTy, bareL_allTy vs]
theorem bareL_hasTys : ∀ (vs : List V) (ts : List Ty), hasTys (bareL vs) ts = hasTys vs ts
  | [], ts => by simp [bareL]
  | v :: vs, [] => by simp [bareL, hasTys]
  | v :: vs, t :: ts => by simp [bareL, hasTys, v.bare_hasTy, bareL_hasTys vs]
theorem bareL_length : ∀ (vs : List V), (bareL vs).length = vs.length
  | [] => rfl
  | v :: vs => by simp [bareL, bareL_length vs]
end

theorem bareL_map (vs : List V) : bareL vs = vs.map V.bare := by
  induction vs with
  | nil => rfl
  | cons v vs ih => simp [bareL, ih]

mutual
theorem V.bare_subs : ∀ (v x : V), x ∈ v.subs → x.bare ∈ v.bare.subs
  | .ext _, x, h => by simp at h; subst h; simp [V.bare]
  | .bool _, x, h => by simp at h; subst h; simp [V.bare]
  | .list vs, x, h => by
    simp at h
    rcases h with rfl | h
    · simp [V.bare]
    · simp [V.bare, bareL_subs vs x h]
  | .enm g vs, x, h => by
    simp at h
    rcases h with rfl | h
    · simp [V.bare]
    · simp [V.bare, bareL_subs vs x h]
  | .node k e ws vs, x, h => by
    simp at h
    rcases h with rfl | h
    · simp [V.bare]
    · simp [V.bare, bareL_subs vs x h]
theorem bareL_subs : ∀ (vs : List V) (x : V), x ∈ subsL vs → x.bare ∈ subsL (bareL vs)
  | [], x, h => by simp at h
  | v :: vs, x, h => by
    simp at h
    simp only [bareL, subsL_cons, List.mem_append]
    exact h.imp (V.bare_subs v x) (bareL_subs vs x)
end

mutual
theorem V.bare_self : ∀ (v : V), (∀ k e ws fs, V.node k e ws fs ∈ v.subs → ws = []) → v.bare = v
  | .ext _, _ => rfl
  | .bool _, _ => rfl
  | .list vs, h => by simp [V.bare, bareL_self vs (fun k e ws fs hx => h k e ws fs (by simp [hx]))]
  | .enm g vs, h => by simp [V.bare, bareL_self vs (fun k e ws fs hx => h k e ws fs (by simp [hx]))]
  | .node k e ws vs, h => by
    simp [V.bare, bareL_self vs (fun k e ws fs hx => h k e ws fs (by simp [hx])), h k e ws vs (by simp)]
theorem bareL_self : ∀ (vs : List V), (∀ k e ws fs, V.node k e ws fs ∈ subsL vs → ws = []) → bareL vs = vs
  | [], _ => rfl
  | v :: vs, h => by
    simp [bareL, v.bare_self (fun k e ws fs hx => h k e ws fs (by simp [hx])),
      bareL_self vs (fun k e ws fs hx => h k e ws fs (by simp [hx]))]
end

section
variable {X : Xid} {cl : Bool} {code : Text} {Ψ : List Token → NT → Rel} {f : File} {ts : List Token} {items : List V} {q : Pt}

theorem Parsed.bare (h : Parsed X cl code Ψ f ts items q) : bareL f.items = items := by
  rw [h.took.bare, bareL_self items h.orig.noWs]

/-- What is in the items of the file is, without its whitespace, in the items parsed. -/
theorem Parsed.sub (h : Parsed X cl code Ψ f ts items q) {x : V} (hx : x ∈ subsL f.items) : x.bare ∈ subsL items := by
  rw [← h.bare]; exact bareL_subs _ _ hx

/-- Where the structs of the file come from. -/
theorem Parsed.node (h : Parsed X cl code Ψ f ts items q) {k e ws fs} (hx : V.node k e ws fs ∈ subsL f.items) :
    Orig (significant ts) (Known (Ψ (significant ts))) k e (bareL fs) :=
  (h.orig _ _ _ _ (h.sub hx)).2

end

theorem Inductive.and {toks : List Token} {Ψ Ψ' : NT → Rel} (h : Inductive toks Ψ) (h' : Inductive toks Ψ') :
    Inductive toks (fun nt am p q vs => Ψ nt am p q vs ∧ Ψ' nt am p q vs) :=
  fun nt am p q vs hb hd => ⟨h nt am p q vs hb (denRule_mono (Known.mono fun _ _ _ _ _ h => h.1) _ hd),
    h' nt am p q vs hb (denRule_mono (Known.mono fun _ _ _ _ _ h => h.2) _ hd)⟩

/-- Being of the right type is kept up by the rules. -/
theorem typed_inductive {toks : List Token} : Inductive toks (fun nt _ _ _ vs => hasS vs nt.sty = true) :=
  fun nt _ _ _ _ _ h => denRule_sty (fun _ _ _ _ _ h => h.2.2) nt _ _ _ _ h

theorem itemG_sty : (match itemG.sty NT.sty with | some ss => leS ss [.ty (.node .AttributedItem)] | none => false) = true := by
  decide +kernel

theorem ItemsR.typed {toks : List Token} {a p q vs}
    (h : ItemsR toks (Full toks (fun nt _ _ _ vs => hasS vs nt.sty = true)) a p q vs) :
    allTy vs (.node .AttributedItem) = true := by
  induction h with
  | nil => rfl
  | snoc _ _ _ h ih =>
    have h1 := itemG_sty
    split at h1
    · next ss hs =>
      have h2 := leS_sound h1 (den_sty (fun _ _ _ _ _ h => h.2.2.2.1) itemG ss hs _ _ _ _ h)
      obtain ⟨v, rfl, hv⟩ := hasS_one h2
      have hv' : v.hasTy (.node .AttributedItem) = true := hv
      exact allTy_append ih (by simp [allTy, hv'])
    · cases h1

/-- Values lie between their points and are of the right types. -/
def Base (toks : List Token) (nt : NT) (_ : Amb) (p q : Pt) (vs : List V) : Prop :=
  Within toks p q vs ∧ hasS vs nt.sty = true

theorem base_inductive {code : Text} {toks : List Token} (hs : Src code toks) : Inductive toks (Base toks) :=
  fun nt _ _ _ _ _ h => ⟨denRule_within hs (fun _ _ _ _ _ h => h.2.2.1) nt _ _ _ _ h,
    denRule_sty (fun _ _ _ _ _ h => h.2.2.2) nt _ _ _ _ h⟩

/-! ## Values without their whitespace -/

theorem V.bare_extent? : ∀ (v : V), v.bare.extent? = v.extent?
  | .ext _ | .bool _ | .list _ | .node .. | .enm _ [] => rfl
  | .enm _ (v :: _) => by simp [V.bare, bareL, V.extent?, v.bare_extent?]

theorem bareL_eq_nil {vs : List V} (h : bareL vs = []) : vs = [] := by
  cases vs <;> simp [bareL] at h ⊢

theorem bareL_eq_cons {vs : List V} {x : V} {xs : List V} (h : bareL vs = x :: xs) :
    ∃ v ws, vs = v :: ws ∧ v.bare = x ∧ bareL ws = xs := by
  cases vs with
  | nil => simp [bareL] at h
  | cons v ws => simp [bareL] at h; exact ⟨v, ws, rfl, h⟩

theorem bareL_eq_one {vs : List V} {x : V} (h : bareL vs = [x]) : ∃ v, vs = [v] ∧ v.bare = x := by
  obtain ⟨v, ws, rfl, h1, h2⟩ := bareL_eq_cons h
  cases bareL_eq_nil h2
  exact ⟨v, rfl, h1⟩

theorem V.bare_eq_list {v : V} {xs : List V} (h : v.bare = .list xs) : ∃ vs, v = .list vs ∧ bareL vs = xs := by
  cases v <;> simp [V.bare] at h
  exact ⟨_, rfl, h⟩

theorem V.bare_eq_enm {v : V} {t : Tag} {xs : List V} (h : v.bare = .enm t xs) : ∃ vs, v = .enm t vs ∧ bareL vs = xs := by
  cases v <;> simp [V.bare] at h
  obtain ⟨rfl, h⟩ := h
  exact ⟨_, rfl, h⟩

theorem V.bare_eq_node {v : V} {k : K} {e : Extent} {ws : List Ws} {xs : List V} (h : v.bare = .node k e ws xs) :
    ∃ ws' vs, v = .node k e ws' vs ∧ bareL vs = xs := by
  cases v <;> simp [V.bare] at h
  obtain ⟨rfl, rfl, -, h⟩ := h
  exact ⟨_, _, rfl, h⟩

/-! ## Structs that only one construct makes -/

/-- The structs that the expression parser makes. -/
def isExprKind : K → Bool
  | .Binary | .Range | .RangeInclusive | .Unary | .Reference | .Dereference | .ExpressionBox | .FieldAccess | .Call | .Slice
  | .AsType | .Ascription | .TryOperator | .AttributedExpression => true
  | _ => false

/-- The structs of numbers. -/
def isNumberKind : K → Bool
  | .Number | .NumberBinary | .NumberOctal | .NumberHexadecimal | .NumberDecimal => true
  | _ => false

theorem PrefixOp.mk_kind {op : PrefixOp} {payload e o t k e' ws vs} (h : op.mk payload e o = .enm t [.node k e' ws vs]) :
    isExprKind k = true := by
  cases op <;> simp [PrefixOp.mk] at h <;> obtain ⟨-, rfl, -⟩ := h <;> rfl

theorem InfixOp.mk_kind {op : InfixOp} {payload e l o t k e' vs} (h : op.mk payload e l o = intoAttributed t k e' vs) :
    isExprKind k = true := by
  cases op <;> simp [InfixOp.mk, intoAttributed, mkAttributed] at h <;> obtain ⟨-, -, rfl, -⟩ := h <;> rfl

theorem PostfixOp.mk_kind {op : PostfixOp} {payload e l t k e' vs} (h : op.mk payload e l = intoAttributed t k e' vs) :
    isExprKind k = true := by
  cases op <;> simp [PostfixOp.mk, intoAttributed, mkAttributed] at h <;> obtain ⟨-, -, rfl, -⟩ := h <;> rfl

theorem InfixOp.mk_kind' {op : InfixOp} {payload e l o k e' ws vs} (h : .node k e' ws vs = op.mk payload e l o) :
    k = .AttributedExpression := by
  cases op <;> simp [InfixOp.mk, intoAttributed, mkAttributed] at h <;> exact h.1

theorem PostfixOp.mk_kind' {op : PostfixOp} {payload e l k e' ws vs} (h : .node k e' ws vs = op.mk payload e l) :
    k = .AttributedExpression := by
  cases op <;> simp [PostfixOp.mk, intoAttributed, mkAttributed] at h <;> exact h.1

theorem number_kind (n : Number) {k e ws fs} (h : V.node k e ws fs ∈ (convertNumber n).subs) : isNumberKind k = true := by
  have hn : ∀ o, V.node k e ws fs ∉ (optExt o).subs := by intro o; cases o <;> simp [optExt]
  obtain ⟨base, e0, i, fr, ex, suf, w⟩ := n
  unfold convertNumber at h
  cases base <;> simp [hn] at h <;> rcases h with ⟨rfl, -⟩ | ⟨rfl, -⟩ <;> rfl

/-- A construct that makes the struct in another way than by the plain `node`. -/
def G.odd (k : K) : G → Bool
  | .nodeEmpty k' _ => k' = k
  | .map f _ => f.makes k
  | .build .paren _ => k = .Parenthetical || k = .Tuple
  | .build .tupleBody _ => k = .StructDefinitionBodyTuple
  | _ => false

/-- Structs made only by the plain `node`. -/
theorem Orig.plain {toks : List Token} {Φ : NT → Rel} {k e vs} (h : Orig toks Φ k e vs)
    (hk : (!isExprKind k && !isNumberKind k && allParts.all (fun g => !g.odd k)) = true) :
    ∃ g am p q, .build (.node k) g ∈ allParts ∧ den toks Φ g am p q vs ∧ ex toks p q = some e := by
  simp only [Bool.and_eq_true, Bool.not_eq_true'] at hk
  obtain ⟨⟨h1, h2⟩, h3⟩ := hk
  have h3 : ∀ g ∈ allParts, g.odd k = false := fun g hg => by
    have := List.all_eq_true.mp h3 g hg
    simpa using this
  have hno : isExprKind k ≠ true := by simp [h1]
  cases h with
  | @build m g am p q v _ _ _ hg hd he hn =>
    cases m with
    | node k' =>
      simp [Mk.node?] at hn; obtain ⟨rfl, rfl⟩ := hn
      exact ⟨g, am, p, q, hg, hd, he⟩
    | span => unfold Mk.node? at hn; split at hn <;> simp_all
    | paren =>
      have := h3 _ hg
      simp [G.odd] at this
      unfold Mk.node? at hn
      split at hn <;> simp_all
    | tupleBody =>
      have := h3 _ hg
      simp [G.odd] at this
      unfold Mk.node? at hn
      split at hn <;> simp_all
  | empty hg => have := h3 _ hg; simp [G.odd] at this
  | fn hg _ _ _ hm => have := h3 _ hg; simp [G.odd, hm] at this
  | number _ _ hn => rw [number_kind _ hn] at h2; cases h2
  | atom => exact absurd rfl hno
  | pre _ _ _ hn =>
    rcases hn with hn | ⟨t, hn⟩
    · simp [mkAttributed] at hn; obtain ⟨rfl, -⟩ := hn; exact absurd rfl hno
    · exact absurd (PrefixOp.mk_kind hn) hno
  | post _ _ _ hn =>
    rcases hn with hn | ⟨t, hn⟩
    · cases PostfixOp.mk_kind' hn; exact absurd rfl hno
    · exact absurd (PostfixOp.mk_kind hn) hno
  | inf _ _ _ _ hn =>
    rcases hn with hn | ⟨t, hn⟩
    · cases InfixOp.mk_kind' hn; exact absurd rfl hno
    · exact absurd (InfixOp.mk_kind hn) hno

end Verif
