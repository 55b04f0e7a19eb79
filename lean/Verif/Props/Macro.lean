import Verif.Spec.Macro
import Verif.Proofs.Nodes
import Verif.Props.Comb
/-!
# Macro arguments

C34.
-/

namespace Verif.Props
open Verif.Spec

/-! ## The loop -/

theorem nestedLen_le (opn cls : Token → Bool) (ts : List Token) (d : Nat) : nestedLen opn cls d ts ≤ ts.length := by
  induction ts generalizing d with
  | nil => simp [nestedLen]
  | cons t ts ih =>
    simp only [nestedLen]
    split
    · simp
    · split
      · have := ih (d + 1); simp; omega
      · split
        · split
          · simp
          · rename_i d'; have := ih d'; simp; omega
        · have := ih d; simp; omega

theorem count_cons (k : TK) (t : Token) (ts : List Token) : count k (t :: ts) = count k ts + if isTK k t then 1 else 0 := by
  simp [count, List.countP_cons, isTK]

theorem count_nil (k : TK) : count k [] = 0 := rfl

theorem nested_body {o c : TK} (hoc : o ≠ c) (hc : c ≠ .EndOfFile) (ts : List Token) (d : Nat) :
    (∀ t ∈ ts.take (nestedLen (isTK o) (isTK c) d ts), t.isEOF = false) ∧
    (∀ n, count c ((ts.take (nestedLen (isTK o) (isTK c) d ts)).take n) ≤
      d + count o ((ts.take (nestedLen (isTK o) (isTK c) d ts)).take n)) ∧
    (∀ t, ts[nestedLen (isTK o) (isTK c) d ts]? = some t → isTK c t = true →
      count c (ts.take (nestedLen (isTK o) (isTK c) d ts)) = d + count o (ts.take (nestedLen (isTK o) (isTK c) d ts))) := by
  induction ts generalizing d with
  | nil => simp [nestedLen, count]
  | cons t ts ih =>
    have hx : isTK o t = true → isTK c t = false := by
      simp only [isTK, beq_iff_eq, beq_eq_false_iff_ne]
      rintro h h'
      rw [h] at h'; simp at h'; exact hoc h'
    have heof : t.isEOF = true → isTK c t = false := by
      intro h
      cases t with
      | number => simp [Token.isEOF] at h
      | plain k x =>
        cases k <;> simp [Token.isEOF] at h
        simpa [isTK, Token.kind?] using Ne.symm hc
    simp only [nestedLen]
    split
    · next h =>
      refine ⟨by simp, by simp [count], ?_⟩
      intro u hu hcu
      simp at hu; subst hu
      rw [heof h] at hcu; cases hcu
    · next hne =>
      have hne : t.isEOF = false := by simpa using hne
      split
      · next ho =>
        obtain ⟨h1, h2, h3⟩ := ih (d + 1)
        have hct := hx ho
        refine ⟨by simpa [hne] using h1, ?_, ?_⟩
        · intro n
          cases n with
          | zero => simp [count]
          | succ n => have := h2 n; simp [count_cons, hct, ho]; omega
        · intro u hu hcu
          have := h3 u (by simpa using hu) hcu
          simp [count_cons, hct, ho]; omega
      · next ho =>
        have ho : isTK o t = false := by simpa using ho
        split
        · next hct =>
          split
          · exact ⟨by simp, by simp [count], by simp [count]⟩
          · next d =>
            obtain ⟨h1, h2, h3⟩ := ih d
            refine ⟨by simpa [hne] using h1, ?_, ?_⟩
            · intro n
              cases n with
              | zero => simp [count]
              | succ n => have := h2 n; simp [count_cons, hct, ho]; omega
            · intro u hu hcu
              have := h3 u (by simpa using hu) hcu
              simp [count_cons, hct, ho]; omega
        · next hct =>
          have hct : isTK c t = false := by simpa using hct
          obtain ⟨h1, h2, h3⟩ := ih d
          refine ⟨by simpa [hne] using h1, ?_, ?_⟩
          · intro n
            cases n with
            | zero => simp [count]
            | succ n => have := h2 n; simp [count_cons, hct, ho]; omega
          · intro u hu hcu
            have := h3 u (by simpa using hu) hcu
            simp [count_cons, hct, ho]; omega

/-! ## The tokens of a point -/

/-- Tokens that are no part of other tokens. -/
def wholeKinds : List TK := [.LeftParen, .RightParen, .LeftSquare, .RightSquare, .LeftCurly, .RightCurly, .Bang, .Hash]

/-- A bracket is a whole token. -/
theorem bracket_step {toks : List Token} {k : TK} {p q : Pt} {e : Extent}
    (hk : k ∈ wholeKinds)
    (h : TokStep toks (convTK k) p q e) : toks[p.off]? = some (.plain k e) ∧ q = ⟨p.off + 1, none⟩ := by
  cases h with
  | whole h1 h2 =>
    rename_i t
    refine ⟨?_, rfl⟩
    have ht : t = .plain k e := by
      cases t <;> simp [convTK] at h2
      obtain ⟨rfl, rfl⟩ := h2; rfl
    subst ht
    unfold current at h1
    split at h1
    · cases h1
    · next t ht =>
      split at h1
      · next n hn =>
        exfalso
        simp only [Option.map_eq_some_iff] at h1
        obtain ⟨⟨a, b⟩, h1, h3⟩ := h1
        simp only at h3; subst h3
        unfold split at h1
        split at h1 <;> simp at h1 <;> obtain ⟨-, ⟨rfl, -⟩⟩ := h1 <;> simp [wholeKinds] at hk
      · rw [ht]; exact h1
  | part h1 h2 h3 h4 h5 =>
    exfalso
    unfold split at h4
    split at h4 <;> simp at h4 <;> obtain ⟨rfl, -⟩ := h4 <;> simp [convTK] at h5 <;> obtain ⟨rfl, -⟩ := h5 <;>
      simp [wholeKinds] at hk

/-- Macro arguments between two tokens. -/
def RunAt (toks : List Token) (o c : TK) (a : Extent) (i j : Nat) : Prop :=
  ∃ eo ec, i < j ∧ toks[i]? = some (.plain o eo) ∧ toks[j]? = some (.plain c ec) ∧
    BracketsBalanced o c ((toks.take j).drop (i + 1)) ∧ (∀ t ∈ (toks.take j).drop (i + 1), t.isEOF = false) ∧
    a = spanOf ((toks.take j).drop (i + 1)) ec.s

/-- What is known of the parser functions for macro arguments. -/
def MacroArgs (toks : List Token) (nt : NT) (_ : Amb) (p q : Pt) (vs : List V) : Prop :=
  match nt with
  | .item_macro_call_paren | .expr_macro_call_paren =>
    ∃ a i j, vs = [.ext a] ∧ RunAt toks .LeftParen .RightParen a i j ∧ p.off ≤ i ∧ j < q.off
  | .item_macro_call_square | .expr_macro_call_square =>
    ∃ a i j, vs = [.ext a] ∧ RunAt toks .LeftSquare .RightSquare a i j ∧ p.off ≤ i ∧ j < q.off
  | .item_macro_call_curly | .expr_macro_call_curly =>
    ∃ a i j, vs = [.ext a] ∧ RunAt toks .LeftCurly .RightCurly a i j ∧ p.off ≤ i ∧ j < q.off
  | .item_macro_call_args | .expr_macro_call_args =>
    ∃ t a i j o c, vs = [.enm t [.ext a]] ∧ bracketsOf t = some (o, c) ∧ RunAt toks o c a i j ∧ p.off ≤ i ∧ j < q.off
  | _ => True

theorem spanOf_ex {toks : List Token} {i j : Nat} {a : Extent} {u : Token} (hij : i < j) (hj : toks[j]? = some u)
    (h : ex toks ⟨i + 1, none⟩ ⟨j, none⟩ = some a) : a = spanOf ((toks.take j).drop (i + 1)) u.extent.s := by
  have hl : j < toks.length := (List.getElem?_eq_some_iff.mp hj).1
  unfold ex at h
  by_cases h1 : i + 1 < j
  · have h2 : i + 1 < toks.length := by omega
    have h3 : j - 1 < toks.length := by omega
    simp [List.getElem?_eq_getElem h2, List.getElem?_eq_getElem h3, h1, Pt.subw] at h
    subst h
    have h4 : ((toks.take j).drop (i + 1)).head? = some toks[i + 1] := by
      rw [List.head?_drop, List.getElem?_take_of_lt (by omega), List.getElem?_eq_getElem h2]
    have h5 : ((toks.take j).drop (i + 1)).getLast? = some toks[j - 1] := by
      rw [List.getLast?_drop]
      simp only [List.length_take]
      rw [if_neg (by omega), List.getLast?_take]
      rw [if_neg (by omega), List.getElem?_eq_getElem h3]; rfl
    simp [spanOf, h4, h5]
  · have h2 : i + 1 = j := by omega
    subst h2
    simp [hj, Pt.subw] at h
    subst h
    have h4 : (toks.take (i + 1)).drop (i + 1) = [] := List.drop_eq_nil_of_le (by simp; omega)
    simp [spanOf, h4]

section
variable {toks : List Token} {Φ : NT → Rel}

theorem nested_run {o c : TK} (ho : o ∈ wholeKinds)
    (hc : c ∈ wholeKinds) (hoc : o ≠ c)
    {am am' p m q vs ws} (h : den toks Φ (.nested o c) am p m vs) (h' : den toks Φ (.drop (.tok c)) am' m q ws) :
    ws = [] ∧ ∃ a i j, vs = [.ext a] ∧ RunAt toks o c a i j ∧ p.off ≤ i ∧ q = ⟨j + 1, none⟩ := by
  obtain ⟨m', e0, a, -, h1, -, h2, h3, rfl⟩ := h
  obtain ⟨_, ⟨-, e1, h4, rfl⟩, rfl⟩ := h'
  obtain ⟨h5, rfl⟩ := bracket_step ho h1
  obtain ⟨h6, rfl⟩ := bracket_step hc h4
  have hle := nestedLen_le (isTK o) (isTK c) (toks.drop (p.off + 1)) 0
  obtain ⟨h7, h8, h9⟩ := nested_body hoc (by rintro rfl; simp [wholeKinds] at hc) (toks.drop (p.off + 1)) 0
  simp only [Pt.advanceBy] at h2
  generalize hn : nestedLen (isTK o) (isTK c) 0 (toks.drop (p.off + 1)) = n at h2 hle h7 h8 h9
  subst h2
  have hb : (toks.take (p.off + 1 + n)).drop (p.off + 1) = (toks.drop (p.off + 1)).take n := by
    rw [List.drop_take]; congr 1; omega
  refine ⟨rfl, a, p.off, p.off + 1 + n, rfl, ⟨e0, e1, by omega, h5, h6, ?_, ?_, ?_⟩, Nat.le_refl _, rfl⟩
  · rw [hb]
    refine ⟨fun k => by simpa using h8 k, ?_⟩
    have := h9 (.plain c e1) (by rw [List.getElem?_drop]; exact h6) (by simp [isTK, Token.kind?])
    simpa using this
  · rw [hb]; exact h7
  · exact spanOf_ex (i := p.off) (j := p.off + 1 + n) (by omega) h6 h3

theorem macroArgs_inductive : Inductive toks (MacroArgs toks) := by
  intro nt am p q vs _ h
  have hsemi : ∀ {am p q vs}, den toks (Known (MacroArgs toks)) (.drop (.tok .Semicolon)) am p q vs → p.off ≤ q.off ∧ vs = [] := by
    rintro am p q vs ⟨_, ⟨hb, -⟩, rfl⟩
    have hk := hb.2.2
    have := hb.1.subw_le; have := hb.2.1.subw_le
    unfold Pt.key at hk
    exact ⟨by omega, rfl⟩
  cases nt <;> try trivial
  case item_macro_call_paren | item_macro_call_square =>
    obtain ⟨m, v, w, h1, ⟨m', v', w', h2, h3, rfl⟩, rfl⟩ := h
    obtain ⟨rfl, a, i, j, rfl, h4, h5, rfl⟩ := nested_run (by decide) (by decide) (by decide) h1 h2
    obtain ⟨h6, rfl⟩ := hsemi h3
    exact ⟨a, i, j, rfl, h4, h5, h6⟩
  case item_macro_call_curly | expr_macro_call_paren | expr_macro_call_square | expr_macro_call_curly =>
    obtain ⟨m, v, w, h1, h2, rfl⟩ := h
    obtain ⟨rfl, a, i, j, rfl, h4, h5, rfl⟩ := nested_run (by decide) (by decide) (by decide) h1 h2
    exact ⟨a, i, j, rfl, h4, h5, Nat.lt_succ_self _⟩
  case item_macro_call_args | expr_macro_call_args =>
    rcases h with (h | h) | h <;> obtain ⟨_, ⟨-, -, -, a, i, j, rfl, h4, h5, h6⟩, rfl⟩ := h <;>
      exact ⟨_, a, i, j, _, _, rfl, rfl, h4, h5, h6⟩

end

/-- The grammar expressions that build a macro call. -/
theorem macroCall_parts {g : G} (h : .build (.node .MacroCall) g ∈ allParts) :
    ∃ nt, (nt = .item_macro_call_args ∨ nt = .expr_macro_call_args) ∧
      g = G.seq (.r .pathed_ident) (.seq (.drop (.tok .Bang)) (.seq (.opt (.r .ident)) (.r nt))) := by
  have hall : allParts.all (fun
    | .build (.node .MacroCall) g => [NT.item_macro_call_args, .expr_macro_call_args].any fun nt =>
        g = G.seq (.r .pathed_ident) (.seq (.drop (.tok .Bang)) (.seq (.opt (.r .ident)) (.r nt)))
    | _ => true) = true := by decide +kernel
  have := List.all_eq_true.mp hall _ h
  simp only [List.any_cons, List.any_nil, Bool.or_false, Bool.or_eq_true, decide_eq_true_eq] at this
  rcases this with h | h
  · exact ⟨_, .inl rfl, h⟩
  · exact ⟨_, .inr rfl, h⟩

theorem off_le {toks : List Token} {p q : Pt} (h : Btw toks p q) : p.off ≤ q.off := by
  have hk := h.2.2
  have := h.1.subw_le; have := h.2.1.subw_le
  unfold Pt.key at hk
  omega

/-- A stretch ends no earlier than the tokens in it. -/
theorem ex_covers {code : Text} {toks : List Token} (hs : Src code toks) {p q : Pt} {e : Extent} {j : Nat} {t : Token}
    (he : ex toks p q = some e) (hp : p.off ≤ j) (hj : j < q.off) (ht : toks[j]? = some t) : t.extent.e ≤ e.e := by
  unfold ex at he
  split at he
  · cases he
  · dsimp only at he
    rw [if_pos (by omega)] at he
    split at he
    · cases he
    · next u hu =>
      cases he
      dsimp only
      rcases Nat.lt_or_ge j (q.off - 1) with h | h
      · have := hs.le_of_lt ht hu h
        have := hs.self_le (List.mem_of_getElem? hu)
        omega
      · have : j = q.off - 1 := by omega
        subst this
        rw [ht] at hu; cases hu
        omega

theorem RunAt.delimited {code : Text} {toks : List Token} (hs : Src code toks) {p q : Pt} {e a : Extent} {o c : TK} {i j : Nat}
    (h : RunAt toks o c a i j) (hb : Btw toks p q) (he : ex toks p q = some e) (hi : p.off ≤ i) (hj : j < q.off)
    (hp : p.off = i → p.sub = none) : Delimited toks e o c a := by
  obtain ⟨eo, ec, hij, h1, h2, h3, h4, h5⟩ := h
  obtain ⟨hi', h1'⟩ := List.getElem?_eq_some_iff.mp h1
  obtain ⟨hj', h2'⟩ := List.getElem?_eq_some_iff.mp h2
  refine ⟨toks.take i, .plain o eo, (toks.take j).drop (i + 1), .plain c ec, toks.drop (j + 1), ?_, rfl, rfl, h3, h4, h5, ?_,
    ex_covers hs he (by omega) hj h2⟩
  · have e1 : toks.drop j = .plain c ec :: toks.drop (j + 1) := by rw [← h2']; exact List.drop_eq_getElem_cons hj'
    have e2 : toks.drop i = .plain o eo :: toks.drop (i + 1) := by rw [← h1']; exact List.drop_eq_getElem_cons hi'
    have e3 : toks.drop (i + 1) = (toks.take j).drop (i + 1) ++ toks.drop j := by
      rw [List.drop_take]
      have : toks.drop j = (toks.drop (i + 1)).drop (j - (i + 1)) := by rw [List.drop_drop]; congr 1; omega
      rw [this, List.take_append_drop]
    rw [← e1, ← e3, ← e2, List.take_append_drop]
  · rw [(hs.ex_range hb he).1]
    obtain ⟨t, ht, -⟩ := id hb.1
    rcases Nat.lt_or_ge p.off i with h | h
    · have := (hs.pos_le hb.1 ht).2
      have := hs.le_of_lt ht h1 h
      omega
    · have hpi : p.off = i := by omega
      rw [Pt.pos_eq (hpi ▸ h1)]
      simp [Pt.subw, hp hpi]

/-- C34: the arguments of every macro call in a file that is parsed are the tokens between an opening bracket and a closing bracket of
the same kind; the brackets of this kind are balanced among them, and the end of the file is not among them. -/
theorem C34_macro_arguments (X : Xid) (cl cp : Bool) (code : Text) (f : File) (h : parseRustFile X cl cp code = .ok f) :
    ∃ ts, lex X cl code = .ok ts ∧ ∀ e ws fs, V.node .MacroCall e ws fs ∈ subsL f.items →
      ∃ name arg t a o c, fs = [name, arg, .enm t [.ext a]] ∧ bracketsOf t = some (o, c) ∧
        Delimited (ts.filter (fun t => !isTrivia t)) e o c a := by
  obtain ⟨ts, items, q, hp⟩ := parseRustFile_ok h (Ψ := fun toks nt am p q vs => MacroArgs toks nt am p q vs ∧
    hasS vs nt.sty = true) (fun toks _ => macroArgs_inductive.and typed_inductive)
  refine ⟨ts, hp.lexed, ?_⟩
  rw [← significant_eq]
  intro e ws fs hx
  obtain ⟨g, am, p, q, hg, hd, he⟩ := (hp.node hx).plain (by decide +kernel)
  have hb := den_btw _ _ _ _ _ hd
  obtain ⟨nt, hnt, rfl⟩ := macroCall_parts hg
  obtain ⟨m1, v1, w1, h1, ⟨m2, v2, w2, h2, ⟨m3, v3, w3, h3, h4, rfl⟩, rfl⟩, hvs⟩ := hd
  have h1' := h1.2.2.2.2
  rw [show NT.sty .pathed_ident = [.ty (.node .PathedIdent)] from by decide +kernel] at h1'
  obtain ⟨name, rfl, -⟩ := hasS_one h1'
  obtain ⟨arg, rfl⟩ : ∃ arg, v3 = [arg] := by
    rcases h3 with ⟨_, -, rfl⟩ | ⟨-, -, rfl⟩ <;> exact ⟨_, rfl⟩
  have hb3 := off_le (den_btw _ _ _ _ _ h3)
  have hb1 := off_le (den_btw _ _ _ _ _ h1)
  obtain ⟨_, ⟨-, _, h2, rfl⟩, rfl⟩ := h2
  obtain ⟨-, rfl⟩ := bracket_step (by decide) h2
  have h4' : ∃ t a i j o c, w3 = [.enm t [.ext a]] ∧ bracketsOf t = some (o, c) ∧ RunAt (significant ts) o c a i j ∧
      m3.off ≤ i ∧ j < q.off := by
    rcases hnt with rfl | rfl <;> exact h4.2.2.2.1
  obtain ⟨t, a, i, j, o, c, rfl, ht, hr, hi, hj⟩ := h4'
  simp only [List.cons_append, List.nil_append] at hvs
  obtain ⟨fa, fb, rfl, rfl, hf1⟩ := bareL_eq_cons hvs
  obtain ⟨fc, fd, rfl, rfl, hf2⟩ := bareL_eq_cons hf1
  obtain ⟨fe, rfl, hf3⟩ := bareL_eq_one hf2
  obtain ⟨xs, rfl, hf4⟩ := V.bare_eq_enm hf3
  obtain ⟨x, rfl, hfs⟩ := bareL_eq_one hf4
  have hx : x = .ext a := by cases x <;> simp [V.bare] at hfs; rw [hfs]
  subst hx
  simp only at hb3
  exact ⟨_, _, t, a, o, c, rfl, ht, hr.delimited hp.src hb he (by omega) hj (by intro; omega)⟩

/-- The macro calls of a file: the form of their arguments and the extent of these. -/
def macroCalls (f : File) : List (Tag × Extent) :=
  (subsL f.items).filterMap fun
    | .node .MacroCall _ _ [_, _, .enm t [.ext e]] => some (t, e)
    | _ => none

/-- C34 is about files with macro calls; brackets of the other kinds need not be balanced. -/
example : ∃ f, parseRustFile asciiXid true true c!"m!({ (a) ); fn f() { m![[x], )]; n!{} }" = .ok f ∧
    decide (macroCalls f = [(.MacroCallArgs_Paren, ⟨3, 8⟩), (.MacroCallArgs_Square, ⟨24, 30⟩), (.MacroCallArgs_Curly, ⟨36, 36⟩)]) =
      true :=
  FileResult.of_okWith (by decide +kernel)

/-! ## Attributes -/

/-- The grammar expressions that build a literal attribute. -/
theorem attribute_parts {g : G} {k : K} (hk : k = .AttributeLiteral ∨ k = .AttributeContainingLiteral)
    (h : .build (.node k) g ∈ allParts) :
    g = .seq (.drop (.tok .Hash)) (.seq (.nested .LeftSquare .RightSquare) (.drop (.tok .RightSquare))) ∨
    g = .seq (.drop (.tok .Hash)) (.seq (.drop (.tok .Bang)) (.seq (.nested .LeftSquare .RightSquare) (.drop (.tok .RightSquare)))) := by
  have hall : allParts.all (fun
    | .build (.node k) g => if k = .AttributeLiteral ∨ k = .AttributeContainingLiteral then
        g = .seq (.drop (.tok .Hash)) (.seq (.nested .LeftSquare .RightSquare) (.drop (.tok .RightSquare))) ∨
        g = .seq (.drop (.tok .Hash)) (.seq (.drop (.tok .Bang)) (.seq (.nested .LeftSquare .RightSquare)
          (.drop (.tok .RightSquare)))) else true
    | _ => true) = true := by decide +kernel
  have := List.all_eq_true.mp hall _ h
  simpa [hk] using this

/-- C34 for attributes: the text of every attribute `#[…]` or `#![…]` in a file that is parsed is likewise what is between two
square brackets, balanced. -/
theorem C34_attribute_text (X : Xid) (cl cp : Bool) (code : Text) (f : File) (h : parseRustFile X cl cp code = .ok f) :
    ∃ ts, lex X cl code = .ok ts ∧ ∀ k e ws fs, V.node k e ws fs ∈ subsL f.items →
      k = .AttributeLiteral ∨ k = .AttributeContainingLiteral →
      ∃ a, fs = [.ext a] ∧ Delimited (ts.filter (fun t => !isTrivia t)) e .LeftSquare .RightSquare a := by
  obtain ⟨ts, items, q, hp⟩ := parseRustFile_ok h (Ψ := fun toks nt am p q vs => True) (fun toks _ => true_inductive)
  refine ⟨ts, hp.lexed, ?_⟩
  rw [← significant_eq]
  intro k e ws fs hx hk
  obtain ⟨g, am, p, q, hg, hd, he⟩ := (hp.node hx).plain (by rcases hk with rfl | rfl <;> decide +kernel)
  have hb := den_btw _ _ _ _ _ hd
  have key : ∀ {am am' p' m q vs ws}, den (significant ts) (Known (fun _ _ _ _ _ => True)) (.nested .LeftSquare .RightSquare) am p' m vs →
      den (significant ts) (Known (fun _ _ _ _ _ => True)) (.drop (.tok .RightSquare)) am' m q ws → p.off < p'.off →
      bareL fs = vs ++ ws → Btw (significant ts) p q → ex (significant ts) p q = some e →
      ∃ a, fs = [.ext a] ∧ Delimited (significant ts) e .LeftSquare .RightSquare a := by
    intro am am' p' m q vs ws h1 h2 hlt hfs hb he
    obtain ⟨rfl, a, i, j, rfl, h4, h5, rfl⟩ := nested_run (by decide) (by decide) (by decide) h1 h2
    obtain ⟨x, hx1, hx2⟩ := bareL_eq_one hfs
    have hx3 : x = .ext a := by cases x <;> simp [V.bare] at hx2; rw [hx2]
    subst hx3
    subst hx1
    exact ⟨a, rfl, h4.delimited hp.src hb he (by omega) (Nat.lt_succ_self _) (by intro; omega)⟩
  rcases attribute_parts hk hg with rfl | rfl
  · obtain ⟨m1, v1, w1, ⟨_, ⟨-, _, h1, rfl⟩, rfl⟩, ⟨m2, v2, w2, h2, h3, rfl⟩, hvs⟩ := hd
    obtain ⟨-, rfl⟩ := bracket_step (by decide) h1
    exact key h2 h3 (Nat.lt_succ_self _) (by simpa using hvs) hb he
  · obtain ⟨m1, v1, w1, ⟨_, ⟨-, _, h1, rfl⟩, rfl⟩, ⟨m2, v2, w2, ⟨_, ⟨-, _, h2, rfl⟩, rfl⟩, ⟨m3, v3, w3, h3, h4, rfl⟩, rfl⟩, hvs⟩ := hd
    obtain ⟨-, rfl⟩ := bracket_step (by decide) h1
    obtain ⟨-, rfl⟩ := bracket_step (by decide) h2
    exact key h3 h4 (by simp; omega) (by simpa using hvs) hb he

/-- The literal attributes of a file: the extents of their texts. -/
def attributeTexts (f : File) : List Extent :=
  (subsL f.items).filterMap fun
    | .node .AttributeLiteral _ _ [.ext e] => some e
    | .node .AttributeContainingLiteral _ _ [.ext e] => some e
    | _ => none

example : ∃ f, parseRustFile asciiXid true true c!"#![a] #[b[c](] fn f() {}" = .ok f ∧
    decide (attributeTexts f = [⟨3, 4⟩, ⟨8, 13⟩]) = true :=
  FileResult.of_okWith (by decide +kernel)

end Verif.Props
