import Verif.Proofs.SyntaxExpr
import Verif.Proofs.File
import Verif.Proofs.Nodes
import Verif.Props.Lex
/-!
# How a whole file is written
-/

namespace Verif
open Verif.Spec

/-! ## Pieces -/

section
variable {toks : List Token}

theorem slice_cons {i j : Nat} {t : Token} (hij : i < j) (ht : toks[i]? = some t) :
    (toks.take j).drop i = t :: (toks.take j).drop (i + 1) := by
  obtain ⟨hi, rfl⟩ := List.getElem?_eq_some_iff.mp ht
  rw [List.drop_eq_getElem_cons (by simp; omega)]
  simp

theorem Path.refines (hlen : ∀ t ∈ toks, ∀ k e w, t = .plain k e → symbolText k = some w → e.e = e.s + w.length)
    {p q : Pt} {ts : List Token} (h : Path toks p q ts) (hq : q.sub = none) :
    (p.sub = none → Refines ((toks.take q.off).drop p.off) ts) ∧
    (∀ n, p.sub = some n → ∀ k e w, toks[p.off]? = some (.plain k e) → symbolText k = some w →
      ∃ ps rest, ts = ps ++ rest ∧ Tiles (e.s + n + 1) (w.drop (n + 1)) ps ∧ p.off < q.off ∧
        Refines ((toks.take q.off).drop (p.off + 1)) rest) := by
  induction h with
  | nil =>
    refine ⟨fun _ => ?_, fun n hn => ?_⟩
    · rw [List.drop_eq_nil_of_le (by simp; omega)]; exact .nil
    · rw [hq] at hn; cases hn
  | @whole p q t ts hc hp ih =>
    have ih := (ih hq).1 rfl
    have hle : p.off < q.off := hp.off_le
    refine ⟨fun hs => ?_, fun n hs k e w ho hw => ?_⟩
    · have hc' : toks[p.off]? = some t := by
        simp only [current, hs] at hc
        split at hc
        · cases hc
        · next ho => rw [ho]; exact hc
      rw [slice_cons hle hc']
      exact .cons (.inl rfl) ih
    · simp only [current, hs, ho] at hc
      cases hx : split (.plain k e) n with
      | none => rw [hx] at hc; simp at hc
      | some x =>
        obtain ⟨h, r⟩ := x
        rw [hx] at hc
        obtain rfl : r = t := by simpa using hc
        obtain ⟨k', e', w', c, k1, k2, hk, hw', -, -, -, rfl, hk2, hne⟩ := split_symbol hx
        cases hk
        rw [hw] at hw'; cases hw'
        have hl := hlen _ (List.mem_of_getElem? ho) _ _ _ rfl hw
        have hd : (w.drop (n + 1)).length = w.length - (n + 1) := by simp
        have hpos : 0 < (w.drop (n + 1)).length := List.length_pos_iff.mpr hne
        exact ⟨[_], ts, rfl, ⟨k2, _, [], hk2, hne, by simp, by congr 2; omega, rfl⟩, hle, ih⟩
  | @part p q o h r ts ho hs hp ih =>
    obtain ⟨k, e, w, c, k1, k2, rfl, hw, rfl, hk1, hd, rfl, hk2, hne⟩ := split_symbol hs
    obtain ⟨ps, rest, rfl, ht, hlt, hr⟩ := (ih hq).2 _ rfl _ _ _ ho hw
    have hl := hlen _ (List.mem_of_getElem? ho) _ _ _ rfl hw
    refine ⟨fun hs => ?_, fun n hs k e w ho' hw' => ?_⟩
    · simp only [Pt.subw, hs] at *
      rw [slice_cons hlt ho, ← List.cons_append]
      exact .cons (.inr ⟨k, e, w, rfl, hw, hl, k1, [c], _, hk1, by simp, by simpa using hd, rfl, ht⟩) hr
    · simp only [Pt.subw, hs] at *
      rw [ho] at ho'; cases ho'
      rw [hw] at hw'; cases hw'
      exact ⟨_ :: ps, rest, rfl, ⟨k1, [c], _, hk1, by simp, by simpa using hd, rfl, ht⟩, hlt, hr⟩

end

theorem symbol_lengths {X : Xid} {cl : Bool} {code : Text} {ts : List Token} (h : lex X cl code = .ok ts) :
    ∀ t ∈ significant ts, ∀ k e w, t = .plain k e → symbolText k = some w → e.e = e.s + w.length := by
  rintro t ht k e w rfl hw
  obtain ⟨pre, post, -, rfl⟩ := symbol_extent (Props.yields_of_lex h (List.mem_filter.mp ht).1) hw
  have : blen w = w.length := by
    unfold symbolText at hw
    split at hw <;> cases hw <;> rfl
  simp [this]

/-! ## Whitespace -/

/-- The same without whitespace. -/
def _root_.Verif.Spec.Job.bare : Job → Job
  | .one m v => .one m v.bare
  | .form e items vs => .form e items (bareL vs)
  | .rep pre m post vs => .rep pre m post (bareL vs)
  | .sep loose k m vs => .sep loose k m (bareL vs)
  | .ended loose ends k vs => .ended loose ends k (bareL vs)

/-- What terminates a value does not depend on whitespace. -/
def _root_.Verif.Spec.Job.even : Job → Prop
  | .ended _ ends _ _ => ∀ v, ends v.bare = true → ends v = true
  | _ => True

theorem bareL_eq_append {vs xs ys : List V} (h : bareL vs = xs ++ ys) : ∃ a b, vs = a ++ b ∧ bareL a = xs ∧ bareL b = ys := by
  induction xs generalizing vs with
  | nil => exact ⟨[], vs, rfl, rfl, h⟩
  | cons x xs ih =>
    obtain ⟨v, ws, rfl, h1, h2⟩ := bareL_eq_cons h
    obtain ⟨a, b, rfl, h3, h4⟩ := ih h2
    exact ⟨v :: a, b, rfl, by simp [bareL, h1, h3], h4⟩

theorem V.bare_eq_ext {v : V} {e : Extent} (h : v.bare = .ext e) : v = .ext e := by
  cases v <;> simp [V.bare] at h
  rw [h]

theorem V.bare_eq_bool {v : V} {b : Bool} (h : v.bare = .bool b) : v = .bool b := by
  cases v <;> simp [V.bare] at h
  rw [h]

theorem bareL_getElem? {vs : List V} {i : Nat} {x : V} (h : (bareL vs)[i]? = some x) : ∃ v, vs[i]? = some v ∧ v.bare = x := by
  rw [bareL_map, List.getElem?_map] at h
  cases hv : vs[i]? with
  | none => rw [hv] at h; cases h
  | some v => rw [hv] at h; exact ⟨v, rfl, by simpa using h⟩

theorem bare_maybeExt {v : V} {e : Option Extent} (h : v.bare = maybeExt e) : v = maybeExt e := by
  obtain ⟨vs, rfl, h1⟩ := V.bare_eq_list h
  cases e with
  | none => rw [bareL_eq_nil h1]; rfl
  | some e =>
    obtain ⟨v, rfl, h2⟩ := bareL_eq_one h1
    rw [V.bare_eq_ext h2]; rfl

theorem selfTerminated_bare (v : V) (h : selfTerminated v.bare = true) : selfTerminated v = true := by
  unfold selfTerminated at h
  split at h
  · next heq => obtain ⟨vs, rfl, -⟩ := V.bare_eq_enm heq; rfl
  · next t vs heq =>
    obtain ⟨vs', rfl, h1⟩ := V.bare_eq_enm heq
    obtain ⟨v, rfl, h2⟩ := bareL_eq_one h1
    obtain ⟨ws, fs, rfl, h3⟩ := V.bare_eq_node h2
    obtain ⟨a, fs, rfl, -, h4⟩ := bareL_eq_cons h3
    obtain ⟨b, rfl, h5⟩ := bareL_eq_one h4
    obtain ⟨us, rfl, h6⟩ := V.bare_eq_enm h5
    unfold selfTerminated
    simp only [Bool.or_eq_true] at h ⊢
    refine h.imp id fun h => ?_
    split at h
    · obtain ⟨_, rfl, h7⟩ := bareL_eq_one h6
      obtain ⟨_, _, rfl, h8⟩ := V.bare_eq_node h7
      obtain ⟨_, _, rfl, -, h9⟩ := bareL_eq_cons h8
      obtain ⟨_, _, rfl, -, h10⟩ := bareL_eq_cons h9
      obtain ⟨_, rfl, h11⟩ := bareL_eq_one h10
      obtain ⟨_, rfl, h12⟩ := V.bare_eq_enm h11
      rfl
    · cases h
  · cases h

theorem armTerminated_bare (v : V) (h : armTerminated v.bare = true) : armTerminated v = true := by
  unfold armTerminated at h
  split at h
  · next heq =>
    obtain ⟨ws, fs, rfl, h3⟩ := V.bare_eq_node heq
    obtain ⟨a, fs, rfl, -, h4⟩ := bareL_eq_cons h3
    obtain ⟨b, fs, rfl, -, h4⟩ := bareL_eq_cons h4
    obtain ⟨b, fs, rfl, -, h4⟩ := bareL_eq_cons h4
    obtain ⟨b, rfl, h5⟩ := bareL_eq_one h4
    obtain ⟨us, rfl, h6⟩ := V.bare_eq_enm h5
    rfl
  · cases h

theorem isVariable_bare {name value : V} (h : isVariable name.bare value.bare) : isVariable name value := by
  unfold isVariable at h
  split at h
  · next heq =>
    obtain ⟨e, ws, ws', h1, rfl, rfl, rfl, rfl, rfl⟩ := h
    obtain ⟨_, _, rfl, g1⟩ := V.bare_eq_node h1
    cases bareL_eq_nil g1
    obtain ⟨_, _, rfl, h2⟩ := V.bare_eq_node heq
    obtain ⟨_, _, rfl, g2, h3⟩ := bareL_eq_cons h2
    obtain ⟨_, rfl, g3⟩ := V.bare_eq_list g2
    cases bareL_eq_nil g3
    obtain ⟨_, rfl, h4⟩ := bareL_eq_one h3
    obtain ⟨_, rfl, h5⟩ := V.bare_eq_enm h4
    obtain ⟨_, rfl, h6⟩ := bareL_eq_one h5
    obtain ⟨_, _, rfl, h7⟩ := V.bare_eq_node h6
    obtain ⟨_, _, rfl, g4, h8⟩ := bareL_eq_cons h7
    obtain ⟨_, rfl, h9⟩ := bareL_eq_one h8
    obtain ⟨_, rfl, h10⟩ := V.bare_eq_list h9
    cases bareL_eq_nil h10
    obtain ⟨_, _, rfl, k1⟩ := V.bare_eq_node g4
    obtain ⟨_, rfl, k2⟩ := bareL_eq_one k1
    obtain ⟨_, rfl, k3⟩ := V.bare_eq_list k2
    obtain ⟨_, rfl, k4⟩ := bareL_eq_one k3
    obtain ⟨_, _, rfl, k5⟩ := V.bare_eq_node k4
    obtain ⟨_, _, rfl, k6, k7⟩ := bareL_eq_cons k5
    obtain ⟨_, rfl, k8⟩ := bareL_eq_one k7
    obtain ⟨_, rfl, k9⟩ := V.bare_eq_list k8
    cases bareL_eq_nil k9
    obtain ⟨_, _, rfl, k10⟩ := V.bare_eq_node k6
    cases bareL_eq_nil k10
    exact ⟨_, _, _, rfl, rfl, rfl, rfl, rfl, rfl⟩
  · cases h

theorem Job.bare_one {j : Job} {m : Mode} {x : V} (h : j.bare = .one m x) : ∃ v, j = .one m v ∧ v.bare = x := by
  cases j <;> simp [Job.bare] at h
  obtain ⟨rfl, h⟩ := h; exact ⟨_, rfl, h⟩
theorem Job.bare_form {j : Job} {e : Extent} {items : Form Nat} {xs : List V} (h : j.bare = .form e items xs) :
    ∃ vs, j = .form e items vs ∧ bareL vs = xs := by
  cases j <;> simp [Job.bare] at h
  obtain ⟨rfl, rfl, h⟩ := h; exact ⟨_, rfl, h⟩
theorem Job.bare_rep {j : Job} {pre : List TK} {m : Mode} {post : List TK} {xs : List V} (h : j.bare = .rep pre m post xs) :
    ∃ vs, j = .rep pre m post vs ∧ bareL vs = xs := by
  cases j <;> simp [Job.bare] at h
  obtain ⟨rfl, rfl, rfl, h⟩ := h; exact ⟨_, rfl, h⟩
theorem Job.bare_sep {j : Job} {l : Bool} {k : TK} {m : Mode} {xs : List V} (h : j.bare = .sep l k m xs) :
    ∃ vs, j = .sep l k m vs ∧ bareL vs = xs := by
  cases j <;> simp [Job.bare] at h
  obtain ⟨rfl, rfl, rfl, h⟩ := h; exact ⟨_, rfl, h⟩
theorem Job.bare_ended {j : Job} {l : Bool} {ends : V → Bool} {k : TK} {xs : List V} (h : j.bare = .ended l ends k xs) :
    ∃ vs, j = .ended l ends k vs ∧ bareL vs = xs := by
  cases j <;> simp [Job.bare] at h
  obtain ⟨rfl, rfl, rfl, h⟩ := h; exact ⟨_, rfl, h⟩

/-- Whitespace that is put into a tree changes nothing. -/
theorem _root_.Verif.Spec.Spells.unbare {toks : List Token} {j : Job} {ts : List Token} (h : Spells toks j ts) :
    ∀ j' : Job, Job.bare j' = j → Job.even j' → Spells toks j' ts := by
  induction h with
  | node hf _ hx ih =>
    intro j' hj he
    obtain ⟨v, rfl, h1⟩ := Job.bare_one hj
    obtain ⟨_, _, rfl, h2⟩ := V.bare_eq_node h1
    exact .node hf (ih (.form _ _ _) (by rw [Job.bare, h2]) trivial) hx
  | enm hf _ ih =>
    intro j' hj he
    obtain ⟨v, rfl, h1⟩ := Job.bare_one hj
    obtain ⟨_, rfl, h2⟩ := V.bare_eq_enm h1
    exact .enm hf (ih (.form _ _ _) (by rw [Job.bare, h2]) trivial)
  | number =>
    intro j' hj he
    obtain ⟨v, rfl, h1⟩ := Job.bare_one hj
    obtain ⟨_, _, rfl, h2⟩ := V.bare_eq_node h1
    obtain ⟨_, _, rfl, g2, h3⟩ := bareL_eq_cons h2
    obtain ⟨_, rfl, g3⟩ := V.bare_eq_list g2
    cases bareL_eq_nil g3
    obtain ⟨_, rfl, h4⟩ := bareL_eq_one h3
    obtain ⟨_, rfl, h5⟩ := V.bare_eq_enm h4
    obtain ⟨_, rfl, h6⟩ := bareL_eq_one h5
    obtain ⟨_, _, rfl, h7⟩ := V.bare_eq_node h6
    obtain ⟨_, _, rfl, k1, h8⟩ := bareL_eq_cons h7
    obtain ⟨_, _, rfl, k2, h9⟩ := bareL_eq_cons h8
    obtain ⟨_, _, rfl, k3, h10⟩ := bareL_eq_cons h9
    obtain ⟨_, rfl, k4⟩ := bareL_eq_one h10
    rw [V.bare_eq_ext k1, bare_maybeExt k2, bare_maybeExt k3, bare_maybeExt k4]
    exact .number
  | variant _ ih =>
    intro j' hj he
    obtain ⟨v, rfl, h1⟩ := Job.bare_one hj
    obtain ⟨_, rfl, h2⟩ := V.bare_eq_enm h1
    exact .variant (ih (.one _ _) (by rw [Job.bare, V.bare, h2]) trivial)
  | tok hk =>
    intro j' hj he
    obtain ⟨v, rfl, h1⟩ := Job.bare_one hj
    rw [V.bare_eq_ext h1]; exact .tok hk
  | here =>
    intro j' hj he
    obtain ⟨v, rfl, h1⟩ := Job.bare_one hj
    rw [V.bare_eq_ext h1]; exact .here
  | yes =>
    intro j' hj he
    obtain ⟨v, rfl, h1⟩ := Job.bare_one hj
    rw [V.bare_eq_bool h1]; exact .yes
  | no =>
    intro j' hj he
    obtain ⟨v, rfl, h1⟩ := Job.bare_one hj
    rw [V.bare_eq_bool h1]; exact .no
  | simple a b c d e =>
    intro j' hj he
    obtain ⟨v, rfl, h1⟩ := Job.bare_one hj
    rw [V.bare_eq_ext h1]; exact .simple a b c d e
  | text hc =>
    intro j' hj he
    obtain ⟨v, rfl, h1⟩ := Job.bare_one hj
    rw [V.bare_eq_ext h1]; exact .text hc
  | none =>
    intro j' hj he
    obtain ⟨v, rfl, h1⟩ := Job.bare_one hj
    obtain ⟨_, rfl, h2⟩ := V.bare_eq_list h1
    rw [bareL_eq_nil h2]; exact .none
  | some _ ih =>
    intro j' hj he
    obtain ⟨v, rfl, h1⟩ := Job.bare_one hj
    obtain ⟨_, rfl, h2⟩ := V.bare_eq_list h1
    obtain ⟨_, rfl, h3⟩ := bareL_eq_one h2
    exact .some (ih (.one _ _) (by rw [Job.bare, h3]) trivial)
  | absent =>
    intro j' hj he
    obtain ⟨v, rfl, h1⟩ := Job.bare_one hj
    obtain ⟨_, rfl, h2⟩ := V.bare_eq_list h1
    rw [bareL_eq_nil h2]; exact .absent
  | present ha _ hc ih =>
    intro j' hj he
    obtain ⟨v, rfl, h1⟩ := Job.bare_one hj
    obtain ⟨_, rfl, h2⟩ := V.bare_eq_list h1
    obtain ⟨_, rfl, h3⟩ := bareL_eq_one h2
    exact .present ha (ih (.one _ _) (by rw [Job.bare, h3]) trivial) hc
  | noGroup =>
    intro j' hj he
    obtain ⟨v, rfl, h1⟩ := Job.bare_one hj
    obtain ⟨_, rfl, h2⟩ := V.bare_eq_list h1
    rw [bareL_eq_nil h2]; exact .noGroup
  | group ha _ hc ih =>
    intro j' hj he
    obtain ⟨v, rfl, h1⟩ := Job.bare_one hj
    obtain ⟨_, rfl, h2⟩ := V.bare_eq_list h1
    exact .group ha (ih (.one _ _) (by rw [Job.bare, V.bare, h2]) trivial) hc
  | many _ ih =>
    intro j' hj he
    obtain ⟨v, rfl, h1⟩ := Job.bare_one hj
    obtain ⟨_, rfl, h2⟩ := V.bare_eq_list h1
    exact .many (ih (.rep _ _ _ _) (by rw [Job.bare, h2]) trivial)
  | repNil =>
    intro j' hj he
    obtain ⟨vs, rfl, h1⟩ := Job.bare_rep hj
    rw [bareL_eq_nil h1]; exact .repNil
  | repCons ha _ hc _ ih ih' =>
    intro j' hj he
    obtain ⟨vs, rfl, h1⟩ := Job.bare_rep hj
    obtain ⟨_, _, rfl, h2, h3⟩ := bareL_eq_cons h1
    exact .repCons ha (ih (.one _ _) (by rw [Job.bare, h2]) trivial) hc (ih' (.rep _ _ _ _) (by rw [Job.bare, h3]) trivial)
  | sep _ ih =>
    intro j' hj he
    obtain ⟨v, rfl, h1⟩ := Job.bare_one hj
    obtain ⟨_, rfl, h2⟩ := V.bare_eq_list h1
    exact .sep (ih (.sep _ _ _ _) (by rw [Job.bare, h2]) trivial)
  | sep1 hn _ ih =>
    intro j' hj he
    obtain ⟨v, rfl, h1⟩ := Job.bare_one hj
    obtain ⟨_, rfl, h2⟩ := V.bare_eq_list h1
    exact .sep1 (by rintro rfl; exact hn h2.symm) (ih (.sep _ _ _ _) (by rw [Job.bare, h2]) trivial)
  | noMore =>
    intro j' hj he
    obtain ⟨v, rfl, h1⟩ := Job.bare_one hj
    obtain ⟨_, rfl, h2⟩ := V.bare_eq_list h1
    rw [bareL_eq_nil h2]; exact .noMore
  | more hn _ ih =>
    intro j' hj he
    obtain ⟨v, rfl, h1⟩ := Job.bare_one hj
    obtain ⟨_, rfl, h2⟩ := V.bare_eq_list h1
    exact .more (by rintro rfl; exact hn h2.symm) (ih (.sep _ _ _ _) (by rw [Job.bare, h2]) trivial)
  | sepEnd hl =>
    intro j' hj he
    obtain ⟨vs, rfl, h1⟩ := Job.bare_sep hj
    rw [bareL_eq_nil h1]; exact .sepEnd hl
  | sepLast _ ih =>
    intro j' hj he
    obtain ⟨vs, rfl, h1⟩ := Job.bare_sep hj
    obtain ⟨_, rfl, h3⟩ := bareL_eq_one h1
    exact .sepLast (ih (.one _ _) (by rw [Job.bare, h3]) trivial)
  | sepCons _ _ ih ih' =>
    intro j' hj he
    obtain ⟨vs, rfl, h1⟩ := Job.bare_sep hj
    obtain ⟨_, _, rfl, h2, h3⟩ := bareL_eq_cons h1
    exact .sepCons (ih (.one _ _) (by rw [Job.bare, h2]) trivial) (ih' (.sep _ _ _ _) (by rw [Job.bare, h3]) trivial)
  | both _ _ ih ih' =>
    intro j' hj he
    obtain ⟨v, rfl, h1⟩ := Job.bare_one hj
    obtain ⟨_, rfl, h2⟩ := V.bare_eq_list h1
    obtain ⟨a, b, rfl, h3, h4⟩ := bareL_eq_append h2
    exact .both (ih (.one _ _) (by rw [Job.bare, V.bare, h3]) trivial) (ih' (.one _ _) (by rw [Job.bare, V.bare, h4]) trivial)
  | arms _ ih =>
    intro j' hj he
    obtain ⟨v, rfl, h1⟩ := Job.bare_one hj
    obtain ⟨_, rfl, h2⟩ := V.bare_eq_list h1
    exact .arms (ih (.ended _ _ _ _) (by rw [Job.bare, h2]) armTerminated_bare)
  | endedEnd hl =>
    intro j' hj he
    obtain ⟨vs, rfl, h1⟩ := Job.bare_ended hj
    rw [bareL_eq_nil h1]; exact .endedEnd hl
  | endedLast _ ih =>
    intro j' hj he
    obtain ⟨vs, rfl, h1⟩ := Job.bare_ended hj
    obtain ⟨_, rfl, h3⟩ := bareL_eq_one h1
    exact .endedLast (ih (.one _ _) (by rw [Job.bare, h3]) trivial)
  | endedSelf hv _ _ ih ih' =>
    intro j' hj he
    obtain ⟨vs, rfl, h1⟩ := Job.bare_ended hj
    obtain ⟨_, _, rfl, h2, h3⟩ := bareL_eq_cons h1
    exact .endedSelf (he _ (by rw [h2]; exact hv)) (ih (.one _ _) (by rw [Job.bare, h2]) trivial)
      (ih' (.ended _ _ _ _) (by rw [Job.bare, h3]) he)
  | endedCons _ _ ih ih' =>
    intro j' hj he
    obtain ⟨vs, rfl, h1⟩ := Job.bare_ended hj
    obtain ⟨_, _, rfl, h2, h3⟩ := bareL_eq_cons h1
    exact .endedCons (ih (.one _ _) (by rw [Job.bare, h2]) trivial) (ih' (.ended _ _ _ _) (by rw [Job.bare, h3]) he)
  | done =>
    intro j' hj he
    obtain ⟨vs, rfl, h1⟩ := Job.bare_form hj
    exact .done
  | t _ ih =>
    intro j' hj he
    obtain ⟨vs, rfl, h1⟩ := Job.bare_form hj
    exact .t (ih (.form _ _ _) (by rw [Job.bare, h1]) trivial)
  | without _ ih =>
    intro j' hj he
    obtain ⟨vs, rfl, h1⟩ := Job.bare_form hj
    exact .without (ih (.form _ _ _) (by rw [Job.bare, h1]) trivial)
  | «with» _ ih =>
    intro j' hj he
    obtain ⟨vs, rfl, h1⟩ := Job.bare_form hj
    exact .with (ih (.form _ _ _) (by rw [Job.bare, h1]) trivial)
  | self hk _ ih =>
    intro j' hj he
    obtain ⟨vs, rfl, h1⟩ := Job.bare_form hj
    exact .self hk (ih (.form _ _ _) (by rw [Job.bare, h1]) trivial)
  | f hv _ _ ih ih' =>
    intro j' hj he
    obtain ⟨vs, rfl, h1⟩ := Job.bare_form hj
    rw [← h1] at hv
    obtain ⟨v, h2, h3⟩ := bareL_getElem? hv
    exact .f h2 (ih (.one _ _) (by rw [Job.bare, h3]) trivial) (ih' (.form _ _ _) (by rw [Job.bare, h1]) trivial)
  | body hv hv' hl _ _ ih ih' =>
    intro j' hj he
    obtain ⟨vs, rfl, h1⟩ := Job.bare_form hj
    rw [← h1] at hv hv'
    obtain ⟨v, h2, h3⟩ := bareL_getElem? hv
    obtain ⟨v', h4, h5⟩ := bareL_getElem? hv'
    obtain ⟨ss, rfl, h6⟩ := V.bare_eq_list h3
    obtain ⟨es, rfl, h7⟩ := V.bare_eq_list h5
    refine .body h2 h4 ?_ (ih (.ended _ _ _ _) ?_ selfTerminated_bare) (ih' (.form _ _ _) (by rw [Job.bare, h1]) trivial)
    · rw [← h7, bareL_length] at hl; exact hl
    · rw [Job.bare, bareL_append, h6, ← h7, bareL_map, bareL_map]
      simp [V.bare, bareL]
  | shorthand hv hv' hi _ _ ih ih' =>
    intro j' hj he
    obtain ⟨vs, rfl, h1⟩ := Job.bare_form hj
    rw [← h1] at hv hv'
    obtain ⟨v, h2, rfl⟩ := bareL_getElem? hv
    obtain ⟨v', h4, rfl⟩ := bareL_getElem? hv'
    exact .shorthand h2 h4 (isVariable_bare hi) (ih (.one _ _) rfl trivial) (ih' (.form _ _ _) (by rw [Job.bare, h1]) trivial)

/-! ## Files -/

theorem _root_.Verif.Spec.Spells.rep_snoc {toks : List Token} {m : Mode} {vs : List V} {v : V} {a b : List Token}
    (h : Spells toks (.rep [] m [] vs) a) (h' : Spells toks (.one m v) b) : Spells toks (.rep [] m [] (vs ++ [v])) (a ++ b) := by
  induction vs generalizing a with
  | nil =>
    cases h
    have := Spells.repCons (pre := []) (post := []) (a := []) (c := []) (d := []) rfl h' rfl .repNil
    simpa using this
  | cons x vs ih =>
    cases h with
    | repCons ha hb hc hd =>
      have := Spells.repCons ha hb hc (ih hd)
      simpa [List.append_assoc] using this

theorem item_forms : itemG.forms NT.forms = some [[.f 0 (.val .plain)]] ∧ (itemG.sty NT.sty).map List.length = some 1 := by
  decide +kernel

theorem ItemsR.spells {toks : List Token} {Φ : NT → Rel} (hΦ : ∀ nt am p q vs, Φ nt am p q vs → Spelled toks nt am p q vs)
    {a : Amb} {p q : Pt} {vs : List V} (h : ItemsR toks Φ a p q vs) :
    ∃ ts, Path toks p q ts ∧ Spells toks (.rep [] (.val .plain) [] vs) ts := by
  induction h with
  | nil => exact ⟨[], .nil, .repNil⟩
  | snoc _ _ _ hd ih =>
    obtain ⟨ts, hp, hs⟩ := ih
    cases hsty : itemG.sty NT.sty with
    | none => have := item_forms.2; rw [hsty] at this; cases this
    | some ss =>
      have hty := fun nt am p q vs (h : Known Φ nt am p q vs) => (hΦ nt am p q vs h.2.2).1
      have hl := hasS_length (den_sty hty itemG ss hsty _ _ _ _ hd)
      have := item_forms.2; rw [hsty] at this
      obtain ⟨x, rfl⟩ := List.length_eq_one_iff.mp (hl.trans (by simpa using this))
      have hw := den_forms hty (fun nt am p q vs h => (hΦ nt am p q vs h.2.2).2) itemG ss hsty _ item_forms.1 _ _ _ _ hd
      obtain ⟨us, hp', hs'⟩ := hw.mode
      exact ⟨_, hp.append hp', hs.rep_snoc hs'⟩

/-- A file that was parsed is written as its tree says. -/
theorem Parsed.spells {X : Xid} {cl : Bool} {code : Text} {f : File} {ts : List Token} {items : List V} {q : Pt}
    (h : Parsed X cl code (fun toks => Spelled toks) f ts items q) :
    ∃ pieces, Refines ((significant ts).take q.off) pieces ∧ Spells (significant ts) (.rep [] (.val .plain) [] f.items) pieces := by
  obtain ⟨ps, hp, hs⟩ := h.run.spells (fun nt am p q vs h => h.2.1)
  have := (hp.refines (symbol_lengths h.lexed) h.whole).1 rfl
  exact ⟨ps, by simpa [Pt.zero] using this, hs.unbare (.rep _ _ _ _) (by rw [Job.bare, h.bare]) trivial⟩

end Verif
