import Verif.Proofs.Shift
import Verif.Proofs.Loop
/-!
# The items of a file that follows another one
-/

namespace Verif
open Spec

/-- The failures of the second file, and those of both files: the same ones, further along, or none in the second file yet. -/
def FailsUp (N : Nat) (f f' : PFailures) : Prop := f' = ⟨f.point.up N, f.kinds⟩ ∨ (f = .new ∧ f'.point.off < N)

theorem FailsUp.add' {N : Nat} {f f' : PFailures} (h : FailsUp N f f') (p : Pt) (e : PErr) :
    f'.add (p.up N) e = ⟨(f.add p e).point.up N, (f.add p e).kinds⟩ := by
  rcases h with rfl | ⟨rfl, h⟩
  · unfold PFailures.add
    simp only [up_lt]
    split
    · rfl
    · split <;> rfl
  · obtain ⟨off, sub⟩ := p
    unfold PFailures.add PFailures.new
    have h1 : ¬ (Pt.up N ⟨off, sub⟩).lt f'.point := by simp [Pt.lt]; omega
    have h2 : f'.point.lt (Pt.up N ⟨off, sub⟩) := by simp [Pt.lt]; omega
    have h3 : ¬ (⟨off, sub⟩ : Pt).lt .zero := by simp [Pt.lt, Pt.zero, Pt.subw]
    rw [if_neg h1, if_pos h2]
    simp only [if_neg h3]
    split
    · rfl
    · rename_i h4
      cases sub with
      | none =>
        have : off = 0 := by simp [Pt.lt, Pt.zero, Pt.subw] at h4; omega
        subst this; rfl
      | some x =>
        exact absurd (by simp [Pt.lt, Pt.zero, Pt.subw]; omega) h4

theorem FailsUp.addAll {N : Nat} {l : Log} : ∀ {f f' : PFailures}, FailsUp N f f' → FailsUp N (f.addAll l) (f'.addAll (Log.up N l)) := by
  induction l with
  | nil => intro f f' h; exact h
  | cons x l ih => intro f f' h; exact ih (.inl (h.add' x.1 x.2))

theorem FailsUp.new (N : Nat) : FailsUp N .new .new := by
  rcases Nat.eq_zero_or_pos N with rfl | h
  · exact .inl rfl
  · exact .inr ⟨rfl, h⟩

/-- What parsing leads to, with these items in front. -/
def ParseResult.after (its : List V) : ParseResult (List V) → ParseResult (List V)
  | .ok more => .ok (its ++ more)
  | .err l es => .err l es
  | .panic => .panic
  | .hang => .hang

theorem up_get? (A toks : List Token) (i : Nat) : (A ++ toks)[i + A.length]? = toks[i]? := by
  rw [List.getElem?_append_right (by omega)]; congr 1; omega

/-- The loop over the items, after more tokens. -/
theorem parseItems_up (A : List Token) {toks : List Token} (ht : EofLast toks) (clear : Bool) (its : List V) (k : Nat) :
    ∀ k' f f' pt items, ValidPt toks pt → pt.sub = none → FailsUp A.length f f' →
      toks.length < k + pt.off → toks.length < k' + pt.off →
      parseItems (A ++ toks) clear k' f' .Unambiguous (pt.up A.length) (its ++ items) =
        (parseItems toks clear k f .Unambiguous pt items).after its := by
  induction k with
  | zero => intro k' f f' pt items hv _ _ h _; have := hv.off_lt; omega
  | succ k ih =>
    intro k' f f' pt items hv hs hf hk hk'
    have hlt := hv.off_lt
    cases k' with
    | zero => omega
    | succ k' =>
      unfold parseItems
      obtain ⟨t, h1, -⟩ := id hv
      rw [up_off, up_get?, h1]
      dsimp only
      split
      · rfl
      · have hm := parseItem_up A toks .Unambiguous pt (parseItem_alive ht hv)
        have hd := parseItem_alive ht hv
        rw [hm]
        rcases hp : parseItem toks .Unambiguous pt with ⟨⟨q, vs⟩ | ⟨q, e⟩ | _ | _, a', l⟩
        · obtain ⟨rfl, h2, h3, h4, -⟩ := parseItem_end ht hv hs hp
          simp only [up_ok]
          rw [if_pos h4, if_pos (show pt.off + A.length < (q.up A.length).off from Nat.add_lt_add_right h4 _), List.append_assoc]
          refine ih k' _ _ q _ h2 h3 ?_ (by omega) (by omega)
          split
          · exact .new _
          · exact hf.addAll
        · simp only [up_fail]
          rw [hf.addAll.add' q e]
          simp only [up_off, up_get?]
          split <;> rfl
        · rw [hp] at hd; simp at hd
        · rw [hp] at hd; simp at hd

/-- The items of one file and then those of another one. -/
theorem parseTokens_append {A B : List Token} {t : Token} {clear clear' : Bool} {its : List V} (hb : Matched A) (ht : t.isEOF)
    (hA : ∀ u ∈ A, u.isEOF = false) (hB : EofLast B) (h : parseTokens (A ++ [t]) clear = .ok its) :
    parseTokens (A ++ B) clear' = (parseTokens B clear').after its := by
  have hc := Ctx.of hb ht hA
  have hl : EofLast (A ++ [t]) := ⟨A, t, rfl, ht, by simpa using hA⟩
  have hAB : EofLast (A ++ B) := by
    obtain ⟨i, u, rfl, h1, h2⟩ := hB
    refine ⟨A ++ i, u, by simp, h1, ?_⟩
    intro x hx
    rcases List.mem_append.mp hx with hx | hx
    · simp [hA x hx]
    · exact h2 x hx
  have hne : ∀ {l : List Token}, EofLast l → ValidPt l .zero := fun h => ValidPt.of_none h.pos
  unfold parseTokens at h
  obtain ⟨k'', f'', h1, h2, h3, h4⟩ := parseItems_prefix (clear' := clear') hc hl (by simp) hAB
    (fun i hi => by rw [List.getElem?_append_left hi, List.getElem?_append_left hi]) _ ((A ++ B).length + 1) .new .new .zero [] its
    (hne hl) rfl (by simp [PFailures.new, Pt.zero]) (fun _ => rfl) (by omega) h
  conv => lhs; unfold parseTokens
  rw [h4]
  have h5 := parseItems_up A hB clear' its (B.length + 1) k'' .new f'' .zero [] (hne hB) rfl ?_ (by omega)
    (by simp [Pt.zero] at h1 ⊢; omega)
  · simpa [Pt.up, Pt.zero, parseTokens] using h5
  · rcases Nat.lt_or_eq_of_le h2 with h5 | h5
    · exact .inr ⟨rfl, h5⟩
    · rw [h3 h5]
      exact FailsUp.new _

end Verif
