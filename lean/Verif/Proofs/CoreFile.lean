import Verif.Proofs.CoreRead
import Verif.Props.Shape
/-!
# What is written by the grammar is read by the parser: files
-/

namespace Verif
open Verif.Spec Verif.Spec.Core CoreP

section
variable {toks : List Token}

theorem At.eof {pt : Pt} (h : At toks pt []) (hs : pt.sub = none) : ∃ t, toks[pt.off]? = some t ∧ t.isEOF = true := by
  obtain ⟨⟨t, ht, -⟩, hp⟩ := h
  refine ⟨t, ht, ?_⟩
  obtain ⟨n, s⟩ := pt
  dsimp only at hs ht
  subst hs
  rw [peeks_none ht] at hp
  simp only [List.cons.injEq] at hp
  cases t with
  | plain k e => have := hp.1; simp [Token.kind?] at this; subst this; rfl
  | number n => have := hp.1; simp [Token.kind?] at this

theorem At.notEof {pt : Pt} {xs : List Lexeme} (h : At toks pt xs) (hs : pt.sub = none)
    (ha : Verif.ahead (fun k => !([some TK.EndOfFile] : List (Option TK)).contains k) xs = true) :
    ∃ t, toks[pt.off]? = some t ∧ t.isEOF = false := by
  obtain ⟨t, ht, -⟩ := h.valid
  refine ⟨t, ht, ?_⟩
  have h1 := h.ahead ha t.kind?
  obtain ⟨n, s⟩ := pt
  dsimp only at hs ht
  subst hs
  rw [peeks_none ht] at h1
  have h2 := h1 (by simp)
  cases t with
  | plain k e =>
    cases hk : Token.isEOF (.plain k e) with
    | false => rfl
    | true =>
      unfold Token.isEOF at hk
      split at hk
      · next heq => cases heq; simp [Token.kind?] at h2
      · cases hk
  | number n => rfl

theorem parseItems_complete (ht : EofLast toks) (clear : Bool) {xs : List Lexeme} {vs : List V}
    (h : ManyR (Sem toks .free .attrItem) xs vs) : ∀ n fails pt acc, At toks pt xs → pt.sub = none → toks.length < n + pt.off →
      ∃ ws, parseItems toks clear n fails .Unambiguous pt acc = .ok ws ∧ Likes ws (acc ++ vs) := by
  induction h with
  | nil =>
    intro n fails pt acc ha hs hn
    obtain ⟨t, h1, h2⟩ := ha.eof hs
    cases n with
    | zero => have := ha.valid.off_lt; omega
    | succ n =>
      unfold parseItems
      rw [h1]
      dsimp only
      rw [if_pos h2]
      exact ⟨_, rfl, by simp [Likes]⟩
  | @cons xs v ys vs h _ ih =>
    intro n fails pt acc ha hs hn
    have hc := Sem.chunk .attrItem (by rfl) h
    have hx : ahead (fun k => !([some TK.EndOfFile] : List (Option TK)).contains k) (xs ++ ys) = true := by
      cases xs with
      | nil => exact absurd hc.heads (by simp [Heads, chunk, nullOf])
      | cons x xs => exact clear_ahead (first := firstOf .attrItem) (by decide +kernel) hc.heads
    obtain ⟨t, h1, h2⟩ := ha.notEof hs hx
    obtain ⟨q, hq, hb, hy⟩ := hc.parses _ rfl ys (by cases ys <;> simp [chunk, badOf, ahead]) (by simp [chunk, needsOf]) pt ha
    cases n with
    | zero => have := ha.valid.off_lt; omega
    | succ n =>
      unfold parseItems
      rw [h1]
      dsimp only
      rw [if_neg (by simp [h2])]
      have h3 : (parseItem toks .Unambiguous pt).Ok .Unambiguous q (fun ws => Likes ws [v]) := hy (evalFuel toks)
      have h4 := parseItem_noHang ht .Unambiguous pt ha.valid
      have h5 := parseItem_run (Φ := fun _ _ _ _ _ => True) ht (fun _ _ _ _ _ _ _ => trivial) .Unambiguous pt ha.valid
      generalize parseItem toks .Unambiguous pt = r at h3 h4 h5
      obtain ⟨out, a, l⟩ := r
      rcases h3 with h3 | ⟨h3, w, h6, h7⟩
      · dsimp only at h3; subst h3; exact h4.elim
      · dsimp only at h3 h6
        subst h3 h6
        obtain ⟨-, -, -, -, h8⟩ := h5
        obtain ⟨h9, h10⟩ := item_end hs h8
        dsimp only
        rw [if_pos h10]
        obtain ⟨ws, h11, h12⟩ := ih n (if clear then .new else fails.addAll l) q (acc ++ w) hq h9 (by omega)
        refine ⟨ws, h11, h12.trans ?_⟩
        rw [List.append_assoc]
        exact (Likes.refl acc).append (h7.append (Likes.refl vs))

end

end Verif
