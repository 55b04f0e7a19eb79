import Verif.Proofs.SyntaxFile
import Verif.Props.Tree
/-!
# How the structs inside a tree are written
-/

namespace Verif
open Verif.Spec

/-- A form mentions all the first `n` fields and each of them once. -/
def complete (n : Nat) (form : Form Nat) : Bool :=
  (mentions form).length == n && (List.range n).all (fun i => (mentions form).count i == 1)

theorem style_mem_all (s : Style) : s ∈ Style.all := by cases s <;> decide

theorem forms_complete (s : Style) (k : K) : (forms s k).all (complete k.fields.length) = true := by
  have h : Style.all.all (fun s => K.all.all fun k => (forms s k).all (complete k.fields.length)) = true := by decide +kernel
  exact List.all_eq_true.mp (List.all_eq_true.mp h s (style_mem_all s)) k (K.mem_all k)

theorem variants_complete (s : Style) (t : Tag) : (variantSyntax s t).all (complete t.payload.length) = true := by
  cases t <;> first | rfl | (cases s <;> rfl)

/-! ## Values with all their fields -/

/-- A struct or a variant has as many fields as it is declared with. -/
def V.sized : V → Prop
  | .node k _ _ vs => vs.length = k.fields.length
  | .enm t vs => vs.length = t.payload.length
  | _ => True

/-- The same for everything inside some values. -/
def Sized (vs : List V) : Prop := ∀ x ∈ subsL vs, x.sized

theorem hasTys_len {vs : List V} {ts : List Ty} (h : hasTys vs ts = true) : vs.length = ts.length := by
  induction vs generalizing ts with
  | nil => cases ts <;> simp [hasTys] at h ⊢
  | cons v vs ih => cases ts <;> simp [hasTys] at h ⊢; exact ih h.2

mutual
theorem V.hasTy_sized : ∀ (v : V) (t : Ty), v.hasTy t = true → ∀ x ∈ v.subs, x.sized
  | .ext _, _, _, x, h => by simp at h; subst h; trivial
  | .bool _, _, _, x, h => by simp at h; subst h; trivial
  | .list vs, t, ht, x, h => by
    simp at h
    rcases h with rfl | h
    · trivial
    · cases t <;> simp [V.hasTy] at ht
      · exact allTy_sized vs _ ht.2 x h
      · exact allTy_sized vs _ ht x h
  | .enm g vs, t, ht, x, h => by
    simp at h
    cases t <;> simp [V.hasTy] at ht
    rcases h with rfl | h
    · exact hasTys_len ht.2
    · exact hasTys_sized vs _ ht.2 x h
  | .node k' e' ws' vs, t, ht, x, h => by
    simp at h
    cases t <;> simp [V.hasTy] at ht
    rcases h with rfl | h
    · have := hasTys_len ht.2
      simpa [V.sized] using this
    · exact hasTys_sized vs _ ht.2 x h
theorem allTy_sized : ∀ (vs : List V) (t : Ty), allTy vs t = true → ∀ x ∈ subsL vs, x.sized
  | [], _, _, x, h => by simp at h
  | v :: vs, t, ht, x, h => by
    simp [allTy] at ht
    simp at h
    exact h.elim (V.hasTy_sized v t ht.1 x) (allTy_sized vs t ht.2 x)
theorem hasTys_sized : ∀ (vs : List V) (ts : List Ty), hasTys vs ts = true → ∀ x ∈ subsL vs, x.sized
  | [], _, _, x, h => by simp at h
  | v :: vs, [], ht, x, h => by simp [hasTys] at ht
  | v :: vs, t :: ts, ht, x, h => by
    simp [hasTys] at ht
    simp at h
    exact h.elim (V.hasTy_sized v t ht.1 x) (hasTys_sized vs ts ht.2 x)
end

/-! ## Structs -/

section
variable {toks : List Token}

/-- Some of the tokens, in a row, spell the value. -/
def SpeltIn (toks : List Token) (x : V) (ts : List Token) : Prop := ∃ s us, us <:+: ts ∧ Spells toks (.one (.val s) x) us

theorem SpeltIn.left {x : V} {a b : List Token} (h : SpeltIn toks x a) : SpeltIn toks x (a ++ b) := by
  obtain ⟨s, us, h1, h2⟩ := h
  exact ⟨s, us, h1.trans (List.prefix_append a b).isInfix, h2⟩

theorem SpeltIn.right {x : V} {a b : List Token} (h : SpeltIn toks x b) : SpeltIn toks x (a ++ b) := by
  obtain ⟨s, us, h1, h2⟩ := h
  exact ⟨s, us, h1.trans (List.suffix_append a b).isInfix, h2⟩

theorem SpeltIn.cons {x : V} {t : Token} {b : List Token} (h : SpeltIn toks x b) : SpeltIn toks x (t :: b) := SpeltIn.right (a := [t]) h

/-- `x` is part of what is written. -/
def _root_.Verif.Spec.Job.has (x : V) : Job → Prop
  | .one _ v => x ∈ v.subs
  | .form _ items vs => ∃ i v, i ∈ mentions items ∧ vs[i]? = some v ∧ x ∈ v.subs
  | .rep _ _ _ vs | .sep _ _ _ vs | .ended _ _ _ vs => x ∈ subsL vs

/-- What is written has all its fields. -/
def _root_.Verif.Spec.Job.sized : Job → Prop
  | .one _ v => Sized [v]
  | .form _ _ vs | .rep _ _ _ vs | .sep _ _ _ vs | .ended _ _ _ vs => Sized vs

theorem Sized.of_subset {vs ws : List V} (h : Sized vs) (hs : ∀ x ∈ subsL ws, x ∈ subsL vs) : Sized ws :=
  fun x hx => h x (hs x hx)

theorem Sized.one {vs : List V} (h : Sized vs) {i : Nat} {v : V} (hv : vs[i]? = some v) : Sized [v] :=
  h.of_subset fun x hx => mem_subsL.mpr ⟨v, List.mem_of_getElem? hv, by simpa using hx⟩

theorem has_form {x : V} {vs : List V} {e : Extent} {form : Form Nat} {n : Nat} (hx : x ∈ subsL vs)
    (hl : vs.length = n) (hc : complete n form = true) : Job.has x (.form e form vs) := by
  obtain ⟨v, hv, hx⟩ := mem_subsL.mp hx
  obtain ⟨i, hi, rfl⟩ := List.getElem_of_mem hv
  simp only [complete, Bool.and_eq_true, List.all_eq_true, List.mem_range, beq_iff_eq] at hc
  exact ⟨i, _, List.count_pos_iff.mp (by rw [hc.2 i (hl ▸ hi)]; exact Nat.one_pos), by simp [hi], hx⟩

/-- An identifier that stands for a field and its value spells the value as well. -/
theorem variable_spelt {name value x : V} {a : List Token} (hi : isVariable name value) (hs : Spells toks (.one (.val .plain) name) a)
    (hx : x ∈ value.subs) {k e ws fs} (hk : x = .node k e ws fs) : SpeltIn toks x a := by
  unfold isVariable at hi
  split at hi
  · obtain ⟨e', ws', ws'', rfl, rfl, a1, a2, a3, a4⟩ := hi
    replace a1 := a1.symm; replace a2 := a2.symm; replace a3 := a3.symm; replace a4 := a4.symm
    subst a1 a2 a3 a4
    cases hs with
    | @node _ _ _ _ _ form _ hf hs =>
      obtain rfl : form = [Item.self [.Default, .SelfIdent, .Dyn, .Union, .Ident]] := by
        have : forms .plain .Ident = [[Item.self [.Default, .SelfIdent, .Dyn, .Union, .Ident]]] := by decide +kernel
        rw [this] at hf; simpa using hf
      cases hs with
      | @self _ _ kind _ _ _ hk' hs =>
        cases hs
        have hx' : ∀ {k : K}, emptyExtent k = false → Extends toks k e' [.plain kind e'] := fun hk => (spans_one rfl).extends hk
        have s1 : ∀ ws, Spells toks (.one (.val .path) (.node .Ident e' ws [])) [.plain kind e'] := fun ws =>
          .node (form := [.self [.Default, .SelfIdent, .Dyn, .Union, .Ident, .Crate]]) (by decide +kernel)
            (.self (List.mem_append_left [TK.Crate] hk') .done) (hx' rfl)
        have s2 : ∀ ws ws', Spells toks (.one (.val .plain) (.node .PathComponent e' ws [.node .Ident e' ws' [], .list []])) [.plain kind e'] :=
          fun ws ws' => .node (form := [.f 0 (.val .path), .f 1 (.opt [] (.val .plain) [])]) (by decide +kernel)
            (.f rfl (s1 ws') (.f rfl .absent .done)) (hx' rfl)
        have s3 : ∀ ws0 ws ws', Spells toks (.one (.val .plain) (.node .PathedIdent e' ws0
            [.list [.node .PathComponent e' ws [.node .Ident e' ws' [], .list []]]])) [.plain kind e'] :=
          fun ws0 ws ws' => .node (form := [.maybe .DoubleColon, .f 0 (.sep1 false .DoubleColon (.val .plain))]) (by decide +kernel)
            (.without (.f rfl (.sep1 (by simp) (.sepLast (s2 ws ws'))) .done)) (hx' rfl)
        have s4 : ∀ ws1 ws0 ws ws', Spells toks (.one (.val .plain) (.node .Value e' ws1 [.node .PathedIdent e' ws0
            [.list [.node .PathComponent e' ws [.node .Ident e' ws' [], .list []]]], .list []])) [.plain kind e'] :=
          fun ws1 ws0 ws ws' => .node (form := [.f 0 (.val .plain), .f 1 (.opt [] (.val .plain) [])]) (by decide +kernel)
            (.f rfl (s3 ws0 ws ws') (.f rfl .absent .done)) (hx' rfl)
        have s5 : ∀ ws2 ws1 ws0 ws ws', Spells toks (.one (.val .plain) (.node .AttributedExpression e' ws2 [.list [],
            .enm .Expression_Value [.node .Value e' ws1 [.node .PathedIdent e' ws0
            [.list [.node .PathComponent e' ws [.node .Ident e' ws' [], .list []]]], .list []]]])) [.plain kind e'] :=
          fun ws2 ws1 ws0 ws ws' =>
            .node (form := [.f 0 (.many [] (.val .plain) []), .f 1 (.val .plain)]) (by decide +kernel)
              (.f rfl (.many .repNil) (.f rfl (.enm (e := e') (form := [.f 0 (.val .plain)]) (by decide)
                (.f rfl (s4 ws1 ws0 ws ws') .done)) .done)) (hx' rfl)
        simp only [subs_node, subs_enm, subs_list, subsL_cons, subsL_nil, List.append_nil, List.nil_append, List.cons_append,
          List.mem_cons, List.not_mem_nil, or_false] at hx
        subst hk
        rcases hx with hx | hx | hx | hx | hx | hx | hx | hx | hx | hx <;> cases hx
        · exact ⟨_, _, List.infix_rfl, s5 ..⟩
        · exact ⟨_, _, List.infix_rfl, s4 ..⟩
        · exact ⟨_, _, List.infix_rfl, s3 ..⟩
        · exact ⟨_, _, List.infix_rfl, s2 ..⟩
        · exact ⟨_, _, List.infix_rfl, s1 ..⟩
  · cases hi

/-- The extent of tokens the last of which is not cut. -/
theorem _root_.Verif.Spec.Spans.covers {e : Extent} {ts : List Token} (h : Spans toks e ts)
    (hc : ∀ b, ts.getLast? = some b → ¬ EndsCut toks e.e b.extent.e) : Covers e ts := by
  unfold Spans at h
  unfold Covers
  split at h
  · next a b ha hb =>
    obtain ⟨h1, h2 | ⟨-, h2⟩⟩ := h
    · obtain ⟨s, t⟩ := e; simp at h1 h2 ⊢; exact ⟨h1, h2⟩
    · exact (hc b hb h2).elim
  · next hn =>
    exact h

theorem Src.of_lex {X : Xid} {cl : Bool} {code : Text} {ts : List Token} (h : lex X cl code = .ok ts) : Src code (significant ts) := by
  have := Src.of_extract (X := X) (clear := cl) (code := code) (ws := (partitionTokens ts).1) (toks := (partitionTokens ts).2)
    (by unfold extractWhitespace; rw [h])
  rwa [partitionTokens_snd] at this

/-- The end of a token is not inside of a token. -/
theorem not_endsCut {X : Xid} {cl : Bool} {code : Text} {ts : List Token} (h : lex X cl code = .ok ts) {t : Token}
    (ht : t ∈ significant ts) {x : Nat} : ¬ EndsCut (significant ts) x t.extent.e := by
  rintro ⟨i, u, k, e, w, n, -, h2, h3, h4, h5, h6, -⟩
  have hm := (Src.of_lex h).mono
  have hl := symbol_lengths h _ (List.mem_of_getElem? h2) k e w rfl h3
  obtain ⟨j, hj, rfl⟩ := List.getElem_of_mem ht
  obtain ⟨hi, hi'⟩ := List.getElem?_eq_some_iff.mp h2
  rw [List.pairwise_iff_getElem] at hm
  rcases Nat.lt_trichotomy j (i + 1) with hlt | rfl | hlt
  · have := hm _ _ hj hi hlt
    rw [hi'] at this
    simp only [Token.extent] at this h6
    omega
  · rw [hi'] at h6
    simp only [Token.extent] at h6
    omega
  · have := hm _ _ hi hj hlt
    rw [hi'] at this
    have hb := (Src.of_lex h).inside _ ht _ (extent_mem_allExtents _)
    simp only [Token.extent] at this h6 hb
    omega

/-- Every struct inside what is written is spelt by some of the tokens. -/
theorem _root_.Verif.Spec.Spells.sub {j : Job} {ts : List Token} (h : Spells toks j ts) (hz : Job.sized j) {x : V} {k : K} {e : Extent}
    {ws : List Ws} {fs : List V} (hx : x = .node k e ws fs) (hk : isNumberPart k = false) (hj : Job.has x j) : SpeltIn toks x ts := by
  have node_not_ext : ∀ e', x ∉ (V.ext e').subs := by simp [hx]
  have node_not_bool : ∀ b, x ∉ (V.bool b).subs := by simp [hx]
  have listed : ∀ {vs}, x ∈ (V.list vs).subs → x ∈ subsL vs := by intro vs h; simpa [hx] using h
  have sizedL : ∀ {vs}, Sized [.list vs] → Sized vs := fun h => h.of_subset fun x hx => by simp [hx]
  induction h with
  | node hf hs hx' ih =>
    have h1 := hz _ (by simp; exact .inl rfl)
    simp only [Job.has, subs_node, List.mem_cons] at hj
    rcases hj with rfl | hj
    · exact ⟨_, _, List.infix_rfl, .node hf hs hx'⟩
    · exact ih (hz.of_subset fun x hx => by simp [hx])
        (has_form hj h1 (List.all_eq_true.mp (forms_complete _ _) _ hf))
  | @enm s t e' vs form ts hf hs ih =>
    have h1 : (V.enm t vs).sized := hz _ (by simp)
    have hj : x ∈ subsL vs := by simpa [Job.has, hx] using hj
    exact ih (hz.of_subset fun x hx => by simp [hx]) (has_form hj h1 (List.all_eq_true.mp (variants_complete _ _) _ hf))
  | number =>
    simp only [Job.has, maybeExt, subs_node, subs_enm, subs_list, subs_ext, subsL_cons, subsL_nil, List.append_nil, List.nil_append,
      List.cons_append, List.mem_cons, List.mem_append, hx] at hj
    rcases hj with hj | hj
    · rw [hx, hj]; exact ⟨.plain, _, List.infix_rfl, .number⟩
    · exfalso
      have hm : ∀ o : Option Extent, V.node k e ws fs ∉ subsL (o.toList.map V.ext) := by intro o; cases o <;> simp
      rcases hj with hj | hj | hj | hj
      · cases hj
      · cases hj
      · cases hj
        rename_i n _
        revert hk
        cases n.base <;> simp [numberKind, isNumberPart]
      · simp [hm] at hj
  | variant _ ih => exact ih hz hj
  | tok _ | here | simple | text => exact (node_not_ext _ hj).elim
  | yes | no => exact (node_not_bool _ hj).elim
  | none | absent | noGroup | noMore => simpa using listed hj
  | some _ ih => exact ih (sizedL hz) (by simpa [Job.has] using listed hj)
  | present _ _ _ ih => exact (ih (sizedL hz) (by simpa [Job.has] using listed hj)).right.left
  | group _ _ _ ih => exact (ih hz hj).right.left
  | many _ ih | sep _ ih | sep1 _ _ ih | arms _ ih => exact ih (sizedL hz) (listed hj)
  | more _ _ ih => exact (ih (sizedL hz) (listed hj)).cons
  | repNil | sepEnd | endedEnd => simp [Job.has] at hj
  | repCons _ _ _ _ ih ih' =>
    simp only [Job.has, subsL_cons, List.mem_append] at hj
    rcases hj with hj | hj
    · exact (ih (hz.of_subset fun x hx => by simp at hx; simp [hx]) hj).right.left.left
    · exact (ih' (hz.of_subset fun x hx => by simp [hx]) hj).right
  | sepLast _ ih | endedLast _ ih => exact ih hz (by simpa [Job.has] using hj)
  | sepCons _ _ ih ih' | endedCons _ _ ih ih' =>
    simp only [Job.has, subsL_cons, List.mem_append] at hj
    rcases hj with hj | hj
    · exact (ih (hz.of_subset fun x hx => by simp at hx; simp [hx]) hj).left
    · exact (ih' (hz.of_subset fun x hx => by simp [hx]) hj).cons.right
  | endedSelf _ _ _ ih ih' =>
    simp only [Job.has, subsL_cons, List.mem_append] at hj
    rcases hj with hj | hj
    · exact (ih (hz.of_subset fun x hx => by simp at hx; simp [hx]) hj).left
    · exact (ih' (hz.of_subset fun x hx => by simp [hx]) hj).right
  | @both m n vs ws' a b _ _ ih ih' =>
    have hj := listed hj
    have hz := sizedL hz
    rw [subsL_append, List.mem_append] at hj
    rcases hj with hj | hj
    · exact (ih (fun y hy => by
        rcases (by simpa using hy : y = .list vs ∨ y ∈ subsL vs) with rfl | hy
        · trivial
        · exact hz y (by rw [subsL_append, List.mem_append]; simp [hy])) (by simp [Job.has, hj])).left
    · exact (ih' (fun y hy => by
        rcases (by simpa using hy : y = .list ws' ∨ y ∈ subsL ws') with rfl | hy
        · trivial
        · exact hz y (by rw [subsL_append, List.mem_append]; simp [hy])) (by simp [Job.has, hj])).right
  | done => obtain ⟨i, v, hi, -⟩ := hj; simp [mentions] at hi
  | t _ ih => exact (ih hz hj).cons
  | without _ ih => exact ih hz hj
  | «with» _ ih => exact (ih hz hj).cons
  | self _ _ ih => exact (ih hz hj).cons
  | f hv _ _ ih ih' =>
    obtain ⟨i, v, hi, hv', hj⟩ := hj
    simp only [mentions, List.mem_cons] at hi
    rcases hi with rfl | hi
    · rw [hv] at hv'; cases hv'
      exact (ih (Sized.one hz hv) hj).left
    · exact (ih' hz ⟨i, v, hi, hv', hj⟩).right
  | @body e' i j items vs ss es a b hv hv' hl _ _ ih ih' =>
    have h1 : Sized (ss ++ es.map (fun x => .enm .Statement_Expression [x])) := by
      intro y hy
      rw [subsL_append, List.mem_append] at hy
      rcases hy with hy | hy
      · exact Sized.one hz hv y (by simp [hy])
      · obtain ⟨v, hv1, hy⟩ := mem_subsL.mp hy
        obtain ⟨z, hz1, rfl⟩ := List.mem_map.mp hv1
        rcases (by simpa using hy : y = .enm .Statement_Expression [z] ∨ y ∈ z.subs) with rfl | hy
        · rfl
        · exact Sized.one hz hv' y (by simp [mem_subsL]; exact .inr ⟨z, hz1, hy⟩)
    obtain ⟨n, v, hi, hv'', hj⟩ := hj
    simp only [mentions, List.mem_cons] at hi
    rcases hi with rfl | rfl | hi
    · rw [hv] at hv''; cases hv''
      exact (ih h1 (by simp only [Job.has, subsL_append, List.mem_append]; exact .inl (listed hj))).left
    · rw [hv'] at hv''; cases hv''
      obtain ⟨z, hz1, hz2⟩ := mem_subsL.mp (listed hj)
      refine (ih h1 ?_).left
      simp only [Job.has, subsL_append, List.mem_append]
      exact .inr (mem_subsL.mpr ⟨_, List.mem_map.mpr ⟨z, hz1, rfl⟩, by simp [hz2]⟩)
    · exact (ih' hz ⟨n, v, hi, hv'', hj⟩).right
  | shorthand hv hv' hi hs _ ih ih' =>
    obtain ⟨i, v, hi', hv'', hj⟩ := hj
    simp only [mentions, List.mem_cons] at hi'
    rcases hi' with rfl | rfl | hi'
    · rw [hv] at hv''; cases hv''
      exact (ih (Sized.one hz hv) hj).left
    · rw [hv'] at hv''; cases hv''
      exact (variable_spelt hi hs hj hx).left
    · exact (ih' hz ⟨i, v, hi', hv'', hj⟩).right

end

end Verif
