import Verif.Spec.Stats
import Verif.Spec.Schema
import Verif.Proofs.Visit
/-!
# Counting statements
-/

namespace Verif
open Verif.Spec

/-- Is it a value of the enum `Statement`? -/
def V.isStmt : V → Bool
  | .enm t _ => t.en == .Statement
  | _ => false

mutual
/-- The statements that a value of a type is, or is a list of. -/
def direct : Ty → V → Nat
  | .enm n, _ => if n = .Statement then 1 else 0
  | .vec t, .list vs => directL t vs
  | .opt t, .list vs => directL t vs
  | _, _ => 0
/-- The same for a list. -/
def directL : Ty → List V → Nat
  | _, [] => 0
  | t, v :: vs => direct t v + directL t vs
end

/-- The same for several types. -/
def directs : List Ty → List V → Nat
  | t :: ts, v :: vs => direct t v + directs ts vs
  | _, _ => 0

/-- Does the type mention statements? -/
def Ty.noStmt : Ty → Bool
  | .enm n => n != .Statement
  | .vec t => t.noStmt
  | .opt t => t.noStmt
  | _ => true

mutual
theorem direct_noStmt (t : Ty) (h : t.noStmt = true) : ∀ v : V, direct t v = 0 := by
  intro v
  cases t with
  | enm n => simp [Ty.noStmt] at h; simp [direct, h]
  | vec t => cases v with
    | list vs => rw [direct]; exact directL_noStmt t h vs
    | _ => simp [direct]
  | opt t => cases v with
    | list vs => rw [direct]; exact directL_noStmt t h vs
    | _ => simp [direct]
  | _ => simp [direct]
theorem directL_noStmt (t : Ty) (h : t.noStmt = true) : ∀ vs : List V, directL t vs = 0
  | [] => by rw [directL]
  | v :: vs => by rw [directL, direct_noStmt t h v, directL_noStmt t h vs]
end

theorem directs_noStmt : ∀ (ts : List Ty) (_ : ts.all Ty.noStmt = true) (vs : List V), directs ts vs = 0
  | [], _, _ => by rw [directs]; simp
  | _ :: _, _, [] => by rw [directs]; simp
  | t :: ts, h, v :: vs => by
    rw [List.all_cons, Bool.and_eq_true] at h
    rw [directs, direct_noStmt t h.1, directs_noStmt ts h.2]

theorem payload_noStmt (g : Tag) : g.payload.all Ty.noStmt = true := by cases g <;> rfl
theorem fields_noStmt (k : K) (h : k ≠ .Block) : (k.fields.map (·.ty)).all Ty.noStmt = true := by
  cases k <;> first | rfl | exact absurd rfl h

theorem directL_statements : ∀ vs : List V, directL (.enm .Statement) vs = vs.length
  | [] => by rw [directL]; rfl
  | v :: vs => by rw [directL, directL_statements vs, direct, if_pos rfl, List.length_cons]; omega

theorem directs_fields (k : K) (e : Extent) (ws : List Ws) (vs : List V) (h : hasTys vs (k.fields.map (·.ty)) = true) :
    directs (k.fields.map (·.ty)) vs = statementsOf (.node k e ws vs) := by
  by_cases hk : k = .Block
  · subst hk
    match vs, h with
    | [.list ss, x], h =>
      show direct (.vec (.enm .Statement)) (.list ss) + (direct (.opt (.node .AttributedExpression)) x + 0) = ss.length
      rw [direct, directL_statements, direct_noStmt _ rfl x]; rfl
    | [], h => cases h
    | .ext _ :: _, h => simp [K.fields, hasTys, V.hasTy] at h
    | .bool _ :: _, h => simp [K.fields, hasTys, V.hasTy] at h
    | .enm _ _ :: _, h => simp [K.fields, hasTys, V.hasTy] at h
    | .node _ _ _ _ :: _, h => simp [K.fields, hasTys, V.hasTy] at h
    | [.list ss], h => simp [K.fields, hasTys, V.hasTy] at h
    | .list ss :: x :: y :: r, h => simp [K.fields, hasTys, V.hasTy] at h
  · rw [directs_noStmt _ (fields_noStmt k hk)]
    unfold statementsOf
    split
    · rename_i heq; cases heq; exact absurd rfl hk
    · rfl

theorem blockStatements_cons (v : V) (vs : List V) : blockStatements (v :: vs) = statementsOf v + blockStatements vs := by
  simp [blockStatements]
theorem blockStatements_append (vs ws : List V) : blockStatements (vs ++ ws) = blockStatements vs + blockStatements ws := by
  simp [blockStatements]

mutual
theorem subs_statements : ∀ (v : V) (t : Ty), v.hasTy t = true →
    v.subs.countP V.isStmt = blockStatements v.subs + direct t v
  | .ext _, t, h => by cases t <;> simp [V.hasTy] at h; rfl
  | .bool _, t, h => by cases t <;> simp [V.hasTy] at h; rfl
  | .list vs, t, h => by
    cases t with
    | vec t =>
      rw [V.hasTy] at h
      have := subsL_statements vs t h
      rw [V.subs, blockStatements_cons, List.countP_cons, direct, this]; simp [statementsOf, V.isStmt]
    | opt t =>
      rw [V.hasTy, Bool.and_eq_true] at h
      have := subsL_statements vs t h.2
      rw [V.subs, blockStatements_cons, List.countP_cons, direct, this]; simp [statementsOf, V.isStmt]
    | _ => simp [V.hasTy] at h
  | .enm g vs, t, h => by
    cases t with
    | enm n =>
      rw [V.hasTy, Bool.and_eq_true] at h
      have := subsL_statementss vs _ h.2
      rw [directs_noStmt _ (payload_noStmt g)] at this
      have hn : g.en = n := by simpa using h.1
      rw [V.subs, blockStatements_cons, List.countP_cons, direct, this]
      simp [statementsOf, V.isStmt, hn]
    | _ => simp [V.hasTy] at h
  | .node k e ws vs, t, h => by
    cases t with
    | node k' =>
      rw [V.hasTy, Bool.and_eq_true] at h
      have := subsL_statementss vs _ h.2
      rw [directs_fields k e ws vs h.2] at this
      rw [V.subs, blockStatements_cons, List.countP_cons, direct, this]
      · simp [V.isStmt]; omega
      all_goals intros; simp_all
    | _ => simp [V.hasTy] at h
theorem subsL_statements : ∀ (vs : List V) (t : Ty), allTy vs t = true →
    (subsL vs).countP V.isStmt = blockStatements (subsL vs) + directL t vs
  | [], t, _ => by rw [subsL, directL]; rfl
  | v :: vs, t, h => by
    rw [allTy, Bool.and_eq_true] at h
    rw [subsL, List.countP_append, blockStatements_append, directL, subs_statements v t h.1, subsL_statements vs t h.2]; omega
theorem subsL_statementss : ∀ (vs : List V) (ts : List Ty), hasTys vs ts = true →
    (subsL vs).countP V.isStmt = blockStatements (subsL vs) + directs ts vs
  | [], ts, _ => by rw [subsL, directs]; rfl; simp
  | v :: vs, [], h => by simp [hasTys] at h
  | v :: vs, t :: ts, h => by
    rw [hasTys, Bool.and_eq_true] at h
    rw [subsL, List.countP_append, blockStatements_append, directs, subs_statements v t h.1, subsL_statementss vs ts h.2]; omega
end

/-! ## Fields that are not visited -/

/-- The types of the fields that are not visited, and what is in them. -/
def Ty.plain : Ty → Bool
  | .ext | .bool => true
  | .node k => k == .Path || k == .Ident
  | .enm n => n == .TypePointerKind || n == .UnaryOp || n == .BinaryOp || n == .RangeInclusiveOperator || n == .VisibilityPublicQualifier
  | .opt t | .vec t => t.plain

theorem plain_noStmt : ∀ t : Ty, t.plain = true → t.noStmt = true
  | .ext, _ => rfl
  | .bool, _ => rfl
  | .node _, _ => rfl
  | .enm n, h => by cases n <;> first | rfl | cases h
  | .opt t, h => plain_noStmt t h
  | .vec t, h => plain_noStmt t h

theorem plain_payload (g : Tag) (h : (Ty.enm g.en).plain = true) : g.payload.all Ty.plain = true := by
  cases g <;> first | rfl | cases h
theorem plain_fields (k : K) (h : (Ty.node k).plain = true) : (k.fields.map (·.ty)).all Ty.plain = true := by
  cases k <;> first | rfl | cases h
theorem ignored_plain (k : K) : (k.fields.filter (!·.visited)).all (·.ty.plain) = true := by cases k <;> rfl

mutual
theorem plain_subs : ∀ (v : V) (t : Ty), t.plain = true → v.hasTy t = true → v.subs.countP V.isStmt = 0
  | .ext _, t, _, h => rfl
  | .bool _, t, _, h => rfl
  | .list vs, t, hp, h => by
    cases t with
    | vec t => rw [V.hasTy] at h; rw [V.subs, List.countP_cons, plain_subsL vs t hp h]; rfl
    | opt t => rw [V.hasTy, Bool.and_eq_true] at h; rw [V.subs, List.countP_cons, plain_subsL vs t hp h.2]; rfl
    | _ => simp [V.hasTy] at h
  | .enm g vs, t, hp, h => by
    cases t with
    | enm n =>
      rw [V.hasTy, Bool.and_eq_true] at h
      have hn : g.en = n := by simpa using h.1
      subst hn
      have hs := plain_noStmt _ hp
      rw [V.subs, List.countP_cons, plain_subsLs vs _ (plain_payload g hp) h.2]
      simp [Ty.noStmt] at hs
      simp [V.isStmt, hs]
    | _ => simp [V.hasTy] at h
  | .node k e ws vs, t, hp, h => by
    cases t with
    | node k' =>
      rw [V.hasTy, Bool.and_eq_true] at h
      have hn : k = k' := by simpa using h.1
      subst hn
      rw [V.subs, List.countP_cons, plain_subsLs vs _ (plain_fields k hp) h.2]; rfl
    | _ => simp [V.hasTy] at h
theorem plain_subsL : ∀ (vs : List V) (t : Ty), t.plain = true → allTy vs t = true → (subsL vs).countP V.isStmt = 0
  | [], _, _, _ => rfl
  | v :: vs, t, hp, h => by
    rw [allTy, Bool.and_eq_true] at h
    rw [subsL, List.countP_append, plain_subs v t hp h.1, plain_subsL vs t hp h.2]
theorem plain_subsLs : ∀ (vs : List V) (ts : List Ty), ts.all Ty.plain = true → hasTys vs ts = true → (subsL vs).countP V.isStmt = 0
  | [], _, _, _ => rfl
  | _ :: _, [], _, h => by simp [hasTys] at h
  | v :: vs, t :: ts, hp, h => by
    rw [hasTys, Bool.and_eq_true] at h
    rw [List.all_cons, Bool.and_eq_true] at hp
    rw [subsL, List.countP_append, plain_subs v t hp.1 h.1, plain_subsLs vs ts hp.2 h.2]
end

mutual
theorem reached_statements : ∀ (v : V) (t : Ty), v.hasTy t = true → v.reached.countP V.isStmt = v.subs.countP V.isStmt
  | .ext _, _, _ => rfl
  | .bool _, _, _ => rfl
  | .list vs, t, h => by
    have : ∃ t, allTy vs t = true := by
      cases t with
      | vec t => rw [V.hasTy] at h; exact ⟨t, h⟩
      | opt t => rw [V.hasTy, Bool.and_eq_true] at h; exact ⟨t, h.2⟩
      | _ => simp [V.hasTy] at h
    obtain ⟨t, h⟩ := this
    rw [V.reached, V.subs, List.countP_cons, reachedL_statements vs t h]; rfl
  | .enm g vs, t, h => by
    cases t with
    | enm n =>
      rw [V.hasTy, Bool.and_eq_true] at h
      rw [V.reached, V.subs, List.countP_cons, List.countP_cons, reachedLs_statements vs _ h.2]
    | _ => simp [V.hasTy] at h
  | .node k e ws vs, t, h => by
    cases t with
    | node k' =>
      rw [V.hasTy, Bool.and_eq_true] at h
      rw [V.reached, V.subs, List.countP_cons, List.countP_cons, reachedF_statements vs k.fields (ignored_plain k) h.2]
    | _ => simp [V.hasTy] at h
theorem reachedL_statements : ∀ (vs : List V) (t : Ty), allTy vs t = true → (reachedL vs).countP V.isStmt = (subsL vs).countP V.isStmt
  | [], _, _ => rfl
  | v :: vs, t, h => by
    rw [allTy, Bool.and_eq_true] at h
    rw [subsL, reachedL, List.countP_append, List.countP_append, reached_statements v t h.1, reachedL_statements vs t h.2]
theorem reachedLs_statements : ∀ (vs : List V) (ts : List Ty), hasTys vs ts = true → (reachedL vs).countP V.isStmt = (subsL vs).countP V.isStmt
  | [], _, _ => rfl
  | _ :: _, [], h => by simp [hasTys] at h
  | v :: vs, t :: ts, h => by
    rw [hasTys, Bool.and_eq_true] at h
    rw [subsL, reachedL, List.countP_append, List.countP_append, reached_statements v t h.1, reachedLs_statements vs ts h.2]
theorem reachedF_statements : ∀ (vs : List V) (fs : List Fld), (fs.filter (!·.visited)).all (·.ty.plain) = true →
    hasTys vs (fs.map (·.ty)) = true → (reachedF fs vs).countP V.isStmt = (subsL vs).countP V.isStmt
  | [], fs, _, h => by
    cases fs with
    | nil => rfl
    | cons => simp [hasTys] at h
  | _ :: _, [], _, h => by simp [hasTys] at h
  | v :: vs, f :: fs, hp, h => by
    rw [List.map_cons, hasTys, Bool.and_eq_true] at h
    have hp' : (fs.filter (!·.visited)).all (·.ty.plain) = true := by
      rw [List.filter_cons] at hp
      split at hp
      · rw [List.all_cons, Bool.and_eq_true] at hp; exact hp.2
      · exact hp
    rw [subsL, reachedF, List.countP_append, List.countP_append, reachedF_statements vs fs hp' h.2]
    congr 1
    cases hv : f.visited with
    | true => rw [if_pos rfl]; exact reached_statements v _ h.1
    | false =>
      rw [List.filter_cons, hv, if_pos (by rfl), List.all_cons, Bool.and_eq_true] at hp
      rw [if_neg (by simp), plain_subs v _ hp.1 h.1]; rfl
end

/-! ## The visitor -/

theorem replay_stats : ∀ (l : List Ev) (n : Nat), replay statsVisitor l n = n + (exits l).countP Callee.isStatement
  | [], n => rfl
  | .enter c :: l, n => by rw [replay]; exact replay_stats l n
  | .exit c :: l, n => by
    have h : exits (.exit c :: l) = c :: exits l := rfl
    rw [replay, replay_stats l, h, List.countP_cons]
    simp only [statsVisitor]
    split <;> omega

theorem countP_values : ∀ l : List Callee, l.countP Callee.isStatement = (values l).countP V.isStmt
  | [] => rfl
  | .value v :: l => by
    rw [values_value, List.countP_cons, List.countP_cons, countP_values l]
    congr 1
    cases v <;> rfl
  | .whitespace _ :: l => by rw [List.countP_cons, countP_values l]; rfl
  | .comment _ :: l => by rw [List.countP_cons, countP_values l]; rfl
  | .file _ :: l => by rw [List.countP_cons, countP_values l]; rfl

/-! ## The lines of `tokenizer` -/

theorem tokenLines_of_slices {code : Text} : ∀ {ts : List Token} {texts : List Text} (i : Nat),
    ts.map (fun t => sliceText code t.extent) = texts.map some →
    ∃ ls, tokenLines code i ts = some ls ∧ ls.map (·.1) = List.range' i ts.length ∧ ls.map (·.2.1) = ts ∧ ls.map (·.2.2) = texts
  | [], texts, i, h => by
    cases texts with
    | nil => exact ⟨[], rfl, rfl, rfl, rfl⟩
    | cons => simp at h
  | t :: ts, texts, i, h => by
    cases texts with
    | nil => simp at h
    | cons x xs =>
      rw [List.map_cons, List.map_cons, List.cons.injEq] at h
      obtain ⟨ls, h1, h2, h3, h4⟩ := tokenLines_of_slices (i + 1) h.2
      refine ⟨(i, t, x) :: ls, ?_, ?_, ?_, ?_⟩
      · rw [tokenLines, h.1]; simp [h1]
      · simp [h2, List.range'_succ]
      · simp [h3]
      · simp [h4]

end Verif
