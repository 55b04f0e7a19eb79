import Verif.Proofs.WsMove
import Verif.Proofs.WsBounds
import Verif.Proofs.WsJoin
import Verif.Props.Join
/-!
# Where the nodes and the whitespace of an accepted text are
-/

namespace Verif
open Verif.Spec

/-- All the structs of these values lie from `lo` to `hi`; those without any text may stand further on. -/
def Between (vs : List V) (lo hi : Nat) : Prop :=
  ∀ k e ws fs, V.node k e ws fs ∈ subsL vs → lo ≤ e.s ∧ (e.e ≤ e.s ∨ e.e ≤ hi)

theorem Between.misses {vs : List V} {lo hi : Nat} (h : Between vs lo hi) {m : List Ws} (hm : ∀ w ∈ m, w.extent.s < lo ∨ hi ≤ w.extent.s) :
    Misses vs m := by
  intro k e ws fs hx w hw hh
  have := h k e ws fs hx
  have := hm w hw
  unfold Extent.holds at hh
  omega

theorem Between.mono {vs : List V} {lo hi lo' hi' : Nat} (h : Between vs lo hi) (hl : lo' ≤ lo) (hh : hi ≤ hi') : Between vs lo' hi' := by
  intro k e ws fs hx
  have := h k e ws fs hx
  omega

mutual
theorem subs_moved (d : Nat) : ∀ v : V, (moved d v).subs = v.subs.map (moved d)
  | .ext e => by simp [moved]
  | .bool _ => by simp [moved]
  | .list vs => by simp [moved, subsL_moveds d vs]
  | .enm _ vs => by simp [moved, subsL_moveds d vs]
  | .node k e ws vs => by simp [moved, subsL_moveds d vs]
theorem subsL_moveds (d : Nat) : ∀ vs : List V, subsL (moveds d vs) = (subsL vs).map (moved d)
  | [] => by simp [moveds]
  | v :: vs => by simp [moveds, subs_moved d v, subsL_moveds d vs]
end

theorem Between.moved {vs : List V} {lo hi : Nat} (h : Between vs lo hi) (d : Nat) : Between (moveds d vs) (lo + d) (hi + d) := by
  intro k e ws fs hx
  rw [subsL_moveds] at hx
  obtain ⟨v, hv, he⟩ := List.mem_map.mp hx
  cases v with
  | node k' e' ws' fs' =>
    have := h k' e' ws' fs' hv
    simp [Spec.moved] at he
    obtain ⟨-, rfl, -⟩ := he
    simp [Extent.moved]
    omega
  | _ => simp [Spec.moved] at he

theorem Token.trivia_moved (d : Nat) (t : Token) : (t.moved d).trivia? = t.trivia?.map (·.moved d) := by
  cases t with
  | number => rfl
  | plain k e => cases k <;> rfl

theorem trivias_moved (d : Nat) (ts : List Token) : (ts.map (·.moved d)).filterMap Token.trivia? = (ts.filterMap Token.trivia?).map (·.moved d) := by
  induction ts with
  | nil => rfl
  | cons t ts ih =>
    simp only [List.map_cons, List.filterMap_cons, Token.trivia_moved, ih]
    cases t.trivia? <;> rfl

theorem Token.trivia_extent {t : Token} {w : Ws} (h : t.trivia? = some w) : w.extent = t.extent ∧ t.kind? ≠ some .EndOfFile := by
  cases t with
  | number => cases h
  | plain k e => cases k <;> simp [Token.trivia?] at h <;> subst h <;> exact ⟨rfl, by simp [Token.kind?]⟩

/-- The tokens lie in the text. -/
theorem spelled_within {X : Xid} (hX : Sane X) {o : Nat} {ts : List Token} {s : Text} (h : Spelled X o ts s) :
    ∀ t ∈ ts, o ≤ t.extent.s ∧ t.extent.e ≤ o + blen s ∧ (t.kind? ≠ some .EndOfFile → t.extent.s < t.extent.e) := by
  induction h with
  | done => intro t ht; simp at ht; subst ht; simp [Token.extent, Token.kind?]
  | @token o t body post ts hs _ ih =>
    obtain ⟨h1, h2, h3⟩ := spelling_ext hX hs
    have h4 := blen_pos h1
    intro u hu
    rw [blen_append]
    rcases List.mem_cons.mp hu with rfl | hu
    · rw [h2]; simp; omega
    · have := ih u hu; exact ⟨by omega, by omega, this.2.2⟩

theorem spelled_le {X : Xid} (hX : Sane X) {o : Nat} {ts : List Token} {s : Text} (h : Spelled X o ts s) : ∀ t ∈ ts, t.extent.s ≤ t.extent.e := by
  induction h with
  | done => intro t ht; simp at ht; subst ht; simp [Token.extent]
  | @token o t body post ts hs _ ih =>
    intro u hu
    rcases List.mem_cons.mp hu with rfl | hu
    · rw [(spelling_ext hX hs).2.1]; simp
    · exact ih u hu

theorem spelled_order {X : Xid} (hX : Sane X) : ∀ {A : List Token} {o : Nat} {t : Token} {B : List Token} {s : Text}, Spelled X o (A ++ t :: B) s →
    (∀ x ∈ A, x.extent.e ≤ t.extent.s) ∧ ∀ y ∈ B, t.extent.e ≤ y.extent.s := by
  intro A
  induction A with
  | nil =>
    intro o t B s h
    refine ⟨by simp, ?_⟩
    rw [List.nil_append] at h
    cases h with
    | done => simp
    | token hs h1 =>
      intro y hy
      rw [(spelling_ext hX hs).2.1]
      exact (spelled_within hX h1 y hy).1
  | cons x A ih =>
    intro o t B s h
    generalize hz : x :: A ++ t :: B = z at h
    cases h with
    | done => simp at hz
    | token hs h1 =>
      simp at hz
      obtain ⟨rfl, rfl⟩ := hz
      obtain ⟨h2, h3⟩ := ih h1
      refine ⟨?_, h3⟩
      intro y hy
      rcases List.mem_cons.mp hy with rfl | hy
      · rw [(spelling_ext hX hs).2.1]
        exact (spelled_within hX h1 t (by simp)).1
      · exact h2 y hy

theorem spelled_trivia {X : Xid} (hX : Sane X) {o : Nat} {ts : List Token} {s : Text} (h : Spelled X o ts s) :
    ∀ w ∈ ts.filterMap Token.trivia?, o ≤ w.extent.s ∧ w.extent.s < o + blen s := by
  intro w hw
  obtain ⟨t, ht, hw⟩ := List.mem_filterMap.mp hw
  obtain ⟨h1, h2⟩ := Token.trivia_extent hw
  have := spelled_within hX h t ht
  rw [h1]
  have := this.2.2 h2
  omega

/-- An accepted text: its tokens, and how its whitespace has come into its tree. -/
structure Made (X : Xid) (code : Text) (f : File) (ts : List Token) : Prop where
  spelled : Spelled X 0 ts code
  whole : apportionL (bareL f.items) (ts.filterMap Token.trivia?) = some (f.items, f.whitespace)
  ordered : Ordered (bareL f.items)
  noWs : NoWs (bareL f.items)
  between : ∀ lo hi, (∀ t ∈ ts, t.trivia? = none → t.isEOF = false → lo ≤ t.extent.s ∧ t.extent.e ≤ hi) → Between (bareL f.items) lo hi

theorem made_of_ok {X : Xid} (hX : Sane X) {cl cp : Bool} {code : Text} {f : File} (hok : parseRustFile X cl cp code = .ok f) :
    ∃ ts, lex X cl code = .ok ts ∧ Made X code f ts := by
  obtain ⟨ts, items, q, hp⟩ := parseRustFile_ok hok (Ψ := Fits) (fun _ hs => fits_inductive hs)
  refine ⟨ts, hp.lexed, (lex_spelled hX cl _ _).mp hp.lexed, ?_, ?_, ?_, ?_⟩
  · rw [hp.bare]; exact hp.apportioned
  · rw [hp.bare]
    exact fun k e ws fs hx => (hp.exts e (List.mem_filterMap.mpr ⟨_, hx, rfl⟩)).1
  · rw [hp.bare]; exact hp.orig.noWs
  · intro lo hi h k e ws fs hx
    rw [hp.bare] at hx
    have key : ∀ t ∈ significant ts, t.isEOF = false → lo ≤ t.extent.s ∧ t.extent.e ≤ hi := by
      intro t ht he
      refine h t ?_ (hp.src.sig t ht) he
      rw [Props.significant_eq] at ht
      exact (List.mem_filter.mp ht).1
    obtain ⟨⟨t, ht, h1, h2⟩, h3⟩ := node_bounds hp.src hp.run k e ws fs hx
    refine ⟨by have := key t ht h1; omega, ?_⟩
    rcases h3 with h3 | ⟨u, hu, h4, h5⟩
    · exact .inl h3
    · right; have := key u hu h4; omega

/-- The whitespace in front and behind is left. -/
theorem Made.inner {X : Xid} {code : Text} {f : File} {ts : List Token} (h : Made X code f ts) {a m c : List Ws}
    (e : ts.filterMap Token.trivia? = a ++ m ++ c) (ha : Misses (bareL f.items) a) (hc : Misses (bareL f.items) c) :
    ∃ m', apportionL (bareL f.items) m = some (f.items, m') ∧ f.whitespace = a ++ m' ++ c ∧ m'.Sublist m := by
  obtain ⟨⟨x, m'⟩, h1⟩ := apportionL_some _ m h.ordered
  have h2 := apportionL_frame _ _ _ _ h1 ha hc
  rw [← e, h.whole] at h2
  simp only [Option.some.injEq, Prod.mk.injEq] at h2
  obtain ⟨rfl, h3⟩ := h2
  exact ⟨m', h1, h3, (apportionL_took _ _ _ _ h1 h.noWs).sub⟩

end Verif
