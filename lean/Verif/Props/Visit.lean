import Verif.Proofs.VisitAny
import Verif.Props.Parse
/-!
# Property theorems about visitors (C38, C39, C43)
-/

namespace Verif.Props
open Verif Verif.Spec

/-! ## C38 -/

/-- Whatever a visitor decides, its methods are called nested like parentheses; what visiting does to the state of the visitor
is what these calls do. -/
theorem C38_well_nested {σ : Type} (vis : Visitor σ) (d : Callee → Control) (hd : ∀ c s, (vis.visit c s).1 = d c) (f : File) :
    ∃ calls, (recorder d).visitFile f [] = calls ∧ Balanced calls ∧ (enters calls).Perm (exits calls) ∧
      ∀ s, vis.visitFile f s = replay vis calls s := by
  have h := visitFile_calls (recorder_decides d) f []
  rw [replay_recorder, List.nil_append] at h
  have hb : Balanced (fileCalls d f) := wrap_balanced ((callsL_balanced _).append (wss_balanced _))
  exact ⟨_, h, hb, hb.perm, visitFile_calls hd f⟩

/-- A visitor that always continues gets to every struct and enum exactly once, parents before children, children in the order
of the fields. -/
theorem C38_each_once (f : File) :
    enters ((recorder always).visitFile f []) = filePre always f ∧
    values (enters ((recorder always).visitFile f [])) = reachedL f.items := by
  have h := visitFile_calls (recorder_decides always) f []
  rw [replay_recorder, List.nil_append] at h
  rw [h, enters_file (fun _ _ _ _ _ => rfl)]
  refine ⟨rfl, ?_⟩
  show values (preL always f.items ++ f.whitespace.flatMap (wsPre always)) = _
  rw [values_append, values_L, values_wss, List.append_nil]

/-- The names of the callees, for the examples. -/
def Callee.name : Callee → Option K
  | .value (.node k _ _ _) => some k
  | _ => none

example : ∃ f, parseRustFile asciiXid true true c!"struct S<'a> {}" = .ok f ∧
    decide ((values (enters ((recorder always).visitFile f []))).filterMap (fun v => Callee.name (.value v)) =
      [.AttributedItem, .Struct, .Ident, .GenericDeclarations, .AttributedGenericDeclarationLifetime,
        .GenericDeclarationLifetime, .Lifetime, .Ident, .StructDefinitionBodyBrace]) = true :=
  FileResult.of_okWith (by decide +kernel)

/-! ## C39 -/

/-- `Break` skips the children of a node and nothing else.  What is missing: this is not so for the attributed nodes, so the
visitor must not say `Break` for them. -/
theorem C39_break_partial {σ : Type} (vis : Visitor σ) (d : Callee → Control) (hd : ∀ c s, (vis.visit c s).1 = d c)
    (ha : ∀ k e ws vs, k.isAttributed = true → d (.value (.node k e ws vs)) = .Continue) (f : File) :
    ∃ calls, (∀ s, vis.visitFile f s = replay vis calls s) ∧ Balanced calls ∧ enters calls = filePre d f :=
  ⟨_, visitFile_calls hd f, wrap_balanced ((callsL_balanced _).append (wss_balanced _)), enters_file ha f⟩

/-- What happens for any visitor: it is as if it had said `Continue` for the attributed nodes. -/
theorem C39_attributed_ignored {σ : Type} (vis : Visitor σ) (d : Callee → Control) (hd : ∀ c s, (vis.visit c s).1 = d c)
    (f : File) :
    ∃ calls, (∀ s, vis.visitFile f s = replay vis calls s) ∧ Balanced calls ∧ enters calls = filePre (obeyed d) f :=
  ⟨_, visitFile_calls hd f, wrap_balanced ((callsL_balanced _).append (wss_balanced _)), by
    rw [← fileCalls_obeyed]; exact enters_file (obeyed_noAttrBreak d) f⟩

/-- The same for visitors whose decisions depend on what they have seen before, or on anything else in their state: the methods are called
nested like parentheses, and the nodes met are those of the walk through the file that the answers give (`Spec.fileWalk`), with all answers
used. -/
theorem C39_any_visitor {σ : Type} (vis : Visitor σ) (f : File) (s : σ) :
    ∃ calls, vis.visitFile f s = replay vis calls s ∧ Balanced calls ∧
      fileWalk f (answers vis calls s) = (enters calls, []) := by
  obtain ⟨calls, h1, h2, h3⟩ := visitFile_walks (vis := vis) f s
  refine ⟨calls, h1, h2, ?_⟩
  have := h3 []
  rwa [List.append_nil] at this

/-- A visitor that goes into the first function only, and writes down what it meets. -/
def firstFunction : Visitor (List K) where
  visit c l := match Callee.name c with
    | some k => (if k = .Function ∧ k ∈ l then .Break else .Continue, l ++ [k])
    | none => (.Continue, l)
  exit _ l := l

example : ∃ f, parseRustFile asciiXid true true c!"fn f() {} fn g() {}" = .ok f ∧
    decide (firstFunction.visitFile f [] = [.AttributedItem, .Function, .FunctionHeader, .FunctionQualifiers, .Ident, .Block,
      .AttributedItem, .Function]) = true :=
  FileResult.of_okWith (by decide +kernel)

/-- A visitor that stops at every node of some kind. -/
def stopAt (k : K) (c : Callee) : Control := if Callee.name c = some k then .Break else .Continue

/-- The negation: a visitor that says `Break` for attributed items still gets to what is in them. -/
theorem C39_false : ∃ f, parseRustFile asciiXid true true c!"fn f() {}" = .ok f ∧
    decide ((enters ((recorder (stopAt .AttributedItem)).visitFile f [])).filterMap Callee.name ≠
      (filePre (stopAt .AttributedItem) f).filterMap Callee.name) = true :=
  FileResult.of_okWith (by decide +kernel)

example : (∀ k e ws vs, k.isAttributed = true → stopAt .Function (.value (.node k e ws vs)) = .Continue) ∧
    ∃ f, parseRustFile asciiXid true true c!"fn f() {} struct S;" = .ok f ∧
    decide ((enters ((recorder (stopAt .Function)).visitFile f [])).filterMap Callee.name =
      [.AttributedItem, .Function, .AttributedItem, .Struct, .Ident]) = true :=
  ⟨by intro k e ws vs h; cases k <;> first | (cases h; done) | rfl, FileResult.of_okWith (by decide +kernel)⟩

/-! ## C43 -/

/-- A visitor sees every piece of whitespace and every comment of a file exactly once.  What is missing: those that are attached
to an attributed node are not visited. -/
theorem C43_whitespace_visited_partial (X : Xid) (cl cp : Bool) (code : Text) (f : File)
    (h : parseRustFile X cl cp code = .ok f) :
    ∃ ts, lex X cl code = .ok ts ∧
      ((whites (enters ((recorder always).visitFile f [])) ++ (reachedL f.items).flatMap V.attrWs).map Ws.token).Perm
        (ts.filter isTrivia) := by
  obtain ⟨ts, items, q, hp⟩ := parseRustFile_ok h (Ψ := fun _ _ _ _ _ _ => True) (fun _ _ => true_inductive)
  have h1 := hp.took.perm
  rw [wsL_noWs hp.orig.noWs, List.nil_append] at h1
  refine ⟨ts, hp.lexed, ?_⟩
  rw [← trivia?_token]
  refine List.Perm.map _ (List.Perm.trans ?_ h1)
  rw [(C38_each_once f).1, apportionL_ws _ _ _ _ hp.apportioned hp.orig.noWs]
  show (whites (preL always f.items ++ f.whitespace.flatMap (wsPre always)) ++ _).Perm _
  rw [whites_append, whites_wss]
  have h2 := (reached_split (reachedL f.items)).append_right f.whitespace
  refine List.Perm.trans ?_ h2.symm
  rw [List.append_assoc, List.append_assoc]
  exact (whites_L f.items).append List.perm_append_comm

/-- The negation: the comment after an attribute is not visited. -/
theorem C43_false : ∃ f, parseRustFile asciiXid true true c!"#[a]/*c*/fn f(){}" = .ok f ∧
    decide (whites (enters ((recorder always).visitFile f [])) = [.whitespace ⟨11, 12⟩] ∧
      Ws.commentBlock ⟨4, 9⟩ ∈ wsL f.items) = true :=
  FileResult.of_okWith (by decide +kernel)

example : ∃ f, parseRustFile asciiXid true true c!"fn f ( ) { /* c */ } " = .ok f ∧
    decide ((whites (enters ((recorder always).visitFile f []))).length = 8) = true :=
  FileResult.of_okWith (by decide +kernel)

end Verif.Props
