import Verif.Proofs.Message
import Verif.Props.Expect
/-!
# Property theorems about the message for an error (C57)
-/

namespace Verif.Props
open Verif Verif.Spec

/-- The message for an error at the place after `cur`: the part of the program it comes from, the number of the line, the distance
from the start of the line, the line itself, a caret, and what could have come there, one to a line.  The new line before a line
other than the first is shown and counted (that is C40). -/
def messageAt (word pre cur rest : Text) (expected : List Text) : Text :=
  let start := if pre = [] then [] else c!"\n"
  c!"Unable to " ++ word ++ c!" text (line " ++ Nat.toDigits 10 (pre.count '\n' + 1) ++
  c!", column " ++ Nat.toDigits 10 (blen cur + start.length) ++ c!")\n" ++
  start ++ cur ++ rest ++ c!"\n" ++
  List.replicate (blen cur + start.length - 1) ' ' ++ c!"^\n" ++
  c!"Expected:\n" ++ (expected.map fun e => c!"  " ++ e ++ c!"\n").flatten

theorem message_at {text : Text} {loc : Nat} {pre cur rest post : Text} (h : OnLine text loc pre cur rest post) :
    ∃ hu, Human.new text loc = some hu ∧ hu.line = pre.count '\n' + 1 ∧ ∀ word es, hu.message word es = messageAt word pre cur rest es := by
  obtain ⟨hu, h1, h2, h3, h4, h5⟩ := C40_line_and_column_partial _ _ _ _ _ _ h
  refine ⟨hu, h1, h2, fun word es => ?_⟩
  unfold Human.message messageAt decimal Human.caret Human.shown
  by_cases hp : pre = []
  · rw [h2, h3, (h4 hp).1, (h4 hp).2]
    simp [hp, List.flatMap]
  · rw [h2, h3, (h5 hp).1, (h5 hp).2]
    simp [hp, List.flatMap]

/-- The message for an error of the parser names the place, and under `Expected:` it has exactly the errors of the failure, each
once, by name, in the order in which they are declared; and every error of the failure is one of those declared. -/
theorem C57_parse_message (X : Xid) (cl cp : Bool) (code : Text) (loc : Nat) (errs : List PErr)
    (h : parseRustFile X cl cp code = .parseErr loc errs) :
    (∀ e ∈ errs, ∃ name, (e, name) ∈ PErr.variants) ∧
    ∃ pre cur rest post, OnLine code loc pre cur rest post ∧
      (parseRustFile X cl cp code).message code =
        some (messageAt c!"parse" pre cur rest ((PErr.variants.filter fun v : PErr × Text => decide (v.1 ∈ errs)).map (·.2))) := by
  have hd : ∀ e ∈ errs, e.declared = true := by
    rcases parseRustFile_cases X cl cp code (Ψ := fun _ _ _ _ _ _ => True) (fun _ _ => true_inductive) with
      ⟨d, -, h'⟩ | ⟨us, loc', errs', -, hp, h'⟩ | ⟨f, us, items, q, h', -, -⟩
    · rw [h] at h'; cases h'
    · rw [h] at h'; cases h'
      exact parseTokens_declared hp
    · rw [h] at h'; cases h'
  refine ⟨fun e he => ?_, ?_⟩
  · obtain ⟨v, hv, rfl⟩ := List.mem_map.mp (PErr.declared_iff.mp (hd e he))
    exact ⟨v.2, hv⟩
  · obtain ⟨-, ts, -, -, -, hb, -⟩ := C36_error_location X cl cp code loc errs h
    obtain ⟨pre, cur, rest, post, ho⟩ := onLine_exists hb
    obtain ⟨hu, h1, -, h2⟩ := message_at ho
    refine ⟨pre, cur, rest, post, ho, ?_⟩
    rw [h]
    simp only [FileResult.message, h1, Option.map_some, h2, PErr.shown hd]

theorem lexErr_boundary {X : Xid} {cl cp : Bool} {code : Text} {d : LErrorDetail} (h : parseRustFile X cl cp code = .lexErr d) :
    IsBoundary code d.location := by
  rcases parseRustFile_cases X cl cp code (Ψ := fun _ _ _ _ _ _ => True) (fun _ _ => true_inductive) with
    ⟨d', hl, h'⟩ | ⟨ts, loc', errs', -, -, h'⟩ | ⟨f, ts, items, q, h', -, -⟩
  · rw [h] at h'; cases h'
    exact (C04_error_location X cl code d hl).1
  · rw [h] at h'; cases h'
  · rw [h] at h'; cases h'

/-- The message for an error of the tokenizer names the place, and under `Expected:` it has exactly the errors of the failure, each
once, in their order: first the literals, by their text, then the others as they are declared. -/
theorem C57_lex_message (X : Xid) (cl cp : Bool) (code : Text) (d : LErrorDetail)
    (h : parseRustFile X cl cp code = .lexErr d) :
    ∃ (pre cur rest post : Text) (shown : List LErr), OnLine code d.location pre cur rest post ∧ (∀ e, e ∈ shown ↔ e ∈ d.errors) ∧
      shown.Pairwise (fun x y => compare x.key y.key = .lt) ∧
      (parseRustFile X cl cp code).message code = some (messageAt c!"tokenize" pre cur rest (shown.map LErr.debug)) := by
  obtain ⟨pre, cur, rest, post, ho⟩ := onLine_exists (lexErr_boundary h)
  obtain ⟨hu, h1, -, h2⟩ := message_at ho
  refine ⟨pre, cur, rest, post, btree LErr.key d.errors, ho, fun e => mem_btree fun _ _ _ _ => LErr.key_inj, (btree_spec _).1, ?_⟩
  rw [h]
  simp only [FileResult.message, h1, Option.map_some, h2]

/-- Asking for the message never panics. -/
theorem C57_no_panic (X : Xid) (cl cp : Bool) (code : Text) : ((parseRustFile X cl cp code).message code).isSome = true := by
  have h := C40_no_panic X cl cp code
  rcases hr : parseRustFile X cl cp code with f | d | ⟨loc, errs⟩ | _ | _
  · rfl
  · simpa [FileResult.message] using h.1 d hr
  · simpa [FileResult.message] using h.2 loc errs hr
  · rfl
  · rfl

/-- What a failure says: which part of the program it is from, what it expected, and where. -/
inductive Failure : FileResult → Prop where
  | lex d : Failure (.lexErr d)
  | parse loc errs : Failure (.parseErr loc errs)

/-- Two failures say the same of the same place of the same line. -/
def SameReport (code code' : Text) : FileResult → FileResult → Prop
  | .lexErr d, .lexErr d' => (∀ e, e ∈ d.errors ↔ e ∈ d'.errors) ∧ ∃ pre cur rest post pre' cur' rest' post',
      OnLine code d.location pre cur rest post ∧ OnLine code' d'.location pre' cur' rest' post' ∧
      pre.count '\n' = pre'.count '\n' ∧ cur = cur' ∧ rest = rest'
  | .parseErr loc errs, .parseErr loc' errs' => (∀ e, e ∈ errs ↔ e ∈ errs') ∧ ∃ pre cur rest post pre' cur' rest' post',
      OnLine code loc pre cur rest post ∧ OnLine code' loc' pre' cur' rest' post' ∧
      pre.count '\n' = pre'.count '\n' ∧ cur = cur' ∧ rest = rest'
  | _, _ => False

theorem same_place {text text' : Text} {loc loc' : Nat} {pre cur rest post pre' cur' rest' post' : Text}
    (h : OnLine text loc pre cur rest post) (h' : OnLine text' loc' pre' cur' rest' post') {w w' : Text} {es es' : List Text}
    (hw : ' ' ∉ w) (hw' : ' ' ∉ w') (hes : ∀ e ∈ es, '\n' ∉ e) (hes' : ∀ e ∈ es', '\n' ∉ e)
    (hm : messageAt w pre cur rest es = messageAt w' pre' cur' rest' es') :
    w = w' ∧ pre.count '\n' = pre'.count '\n' ∧ cur = cur' ∧ rest = rest' ∧ es = es' := by
  obtain ⟨hu, h1, h2, h3, h4, h5⟩ := C40_line_and_column_partial _ _ _ _ _ _ h
  obtain ⟨hu', h1', h2', h3', h4', h5'⟩ := C40_line_and_column_partial _ _ _ _ _ _ h'
  obtain ⟨hv, g1, g2, g3⟩ := message_at h
  obtain ⟨hv', g1', g2', g3'⟩ := message_at h'
  rw [h1] at g1
  cases g1
  rw [h1'] at g1'
  cases g1'
  rw [← g3, ← g3'] at hm
  obtain ⟨rfl, e1, e2, e3, e4⟩ := Human.message_inj (Human.plain_of_line h h1) (Human.plain_of_line h' h1') hw hw' hes hes' hm
  have hc : pre.count '\n' = pre'.count '\n' := by omega
  have hz : ∀ {t : Text} {l : Nat} {p c r q : Text}, OnLine t l p c r q → (p = [] ↔ p.count '\n' = 0) := by
    intro t l p c r q ho
    rcases ho.before with rfl | ⟨x, rfl⟩ <;> simp
  have hp : pre = [] ↔ pre' = [] := by rw [hz h, hz h', hc]
  unfold Human.shown at e3
  have key : cur ++ rest = cur' ++ rest' ∧ blen cur = blen cur' := by
    by_cases hn : pre = []
    · have hn' := hp.mp hn
      rw [(h4 hn).1, (h4' hn').1, h3, h3'] at e3
      rw [(h4 hn).2, (h4' hn').2] at e2
      exact ⟨e3, e2⟩
    · have hn' : pre' ≠ [] := fun e => hn (hp.mpr e)
      rw [(h5 hn).1, (h5' hn').1, h3, h3'] at e3
      rw [(h5 hn).2, (h5' hn').2] at e2
      simp at e3
      exact ⟨e3, by omega⟩
  have hs := splitAtByte_blen cur rest
  rw [key.1, key.2, splitAtByte_blen] at hs
  cases hs
  exact ⟨rfl, hc, rfl, rfl, e4⟩

section
attribute [local irreducible] PErr.variants parseRustFile messageAt

/-- A message loses nothing: two texts with the same message failed in the same part of the program, in the same place of lines with
the same number and text, with the same errors. -/
theorem C57_tells (X X' : Xid) (cl cp cl' cp' : Bool) (code code' : Text)
    (hf : Failure (parseRustFile X cl cp code)) (hf' : Failure (parseRustFile X' cl' cp' code'))
    (hm : (parseRustFile X cl cp code).message code = (parseRustFile X' cl' cp' code').message code') :
    SameReport code code' (parseRustFile X cl cp code) (parseRustFile X' cl' cp' code') := by
  have hle : ∀ {shown : List LErr}, ∀ e ∈ shown.map LErr.debug, '\n' ∉ e := by
    intro shown e he
    obtain ⟨x, -, rfl⟩ := List.mem_map.mp he
    exact x.debug_newline
  have hpe : ∀ {errs : List PErr}, ∀ e ∈ (PErr.variants.filter fun v : PErr × Text => decide (v.1 ∈ errs)).map (·.2), '\n' ∉ e := by
    intro errs e he
    obtain ⟨v, hv, rfl⟩ := List.mem_map.mp he
    obtain ⟨i, hi⟩ := List.mem_iff_getElem?.mp (List.mem_filter.mp hv).1
    exact (PErr.row hi).2.2
  rcases hr : parseRustFile X cl cp code with f | d | ⟨loc, errs⟩ | _ | _
  · rw [hr] at hf; cases hf
  · obtain ⟨pre, cur, rest, post, shown, ho, h1, -, h2⟩ := C57_lex_message X cl cp code d hr
    rcases hr' : parseRustFile X' cl' cp' code' with f | d' | ⟨loc', errs'⟩ | _ | _
    · rw [hr'] at hf'; cases hf'
    · obtain ⟨pre', cur', rest', post', shown', ho', h1', -, h2'⟩ := C57_lex_message X' cl' cp' code' d' hr'
      rw [h2, h2'] at hm
      obtain ⟨-, e1, e2, e3, e4⟩ := same_place ho ho' (by decide) (by decide) hle hle (Option.some.inj hm)
      have e5 : shown = shown' := (List.map_inj_right fun a b => LErr.debug_inj).mp e4
      exact ⟨fun e => by rw [← h1, ← h1', e5], pre, cur, rest, post, pre', cur', rest', post', ho, ho', e1, e2, e3⟩
    · obtain ⟨-, pre', cur', rest', post', ho', h2'⟩ := C57_parse_message X' cl' cp' code' loc' errs' hr'
      rw [h2, h2'] at hm
      obtain ⟨e0, -⟩ := same_place ho ho' (by decide) (by decide) hle hpe (Option.some.inj hm)
      exact absurd e0 (by decide)
    · rw [hr'] at hf'; cases hf'
    · rw [hr'] at hf'; cases hf'
  · obtain ⟨hd, pre, cur, rest, post, ho, h2⟩ := C57_parse_message X cl cp code loc errs hr
    rcases hr' : parseRustFile X' cl' cp' code' with f | d' | ⟨loc', errs'⟩ | _ | _
    · rw [hr'] at hf'; cases hf'
    · obtain ⟨pre', cur', rest', post', shown', ho', h1', -, h2'⟩ := C57_lex_message X' cl' cp' code' d' hr'
      rw [h2, h2'] at hm
      obtain ⟨e0, -⟩ := same_place ho ho' (by decide) (by decide) hpe hle (Option.some.inj hm)
      exact absurd e0 (by decide)
    · obtain ⟨hd', pre', cur', rest', post', ho', h2'⟩ := C57_parse_message X' cl' cp' code' loc' errs' hr'
      rw [h2, h2'] at hm
      obtain ⟨-, e1, e2, e3, e4⟩ := same_place ho ho' (by decide) (by decide) hpe hpe (Option.some.inj hm)
      have sub : ∀ {a b : List PErr}, (∀ e ∈ a, ∃ n, (e, n) ∈ PErr.variants) →
          (PErr.variants.filter fun v : PErr × Text => decide (v.1 ∈ a)).map (·.2) =
          (PErr.variants.filter fun v : PErr × Text => decide (v.1 ∈ b)).map (·.2) → ∀ e ∈ a, e ∈ b := by
        intro a b ha hab e he
        obtain ⟨n, hn⟩ := ha e he
        have : n ∈ (PErr.variants.filter fun v : PErr × Text => decide (v.1 ∈ b)).map (·.2) := by
          rw [← hab]
          exact List.mem_map.mpr ⟨(e, n), List.mem_filter.mpr ⟨hn, by simpa using he⟩, rfl⟩
        obtain ⟨v, hv, hvn⟩ := List.mem_map.mp this
        obtain ⟨hv1, hv2⟩ := List.mem_filter.mp hv
        obtain ⟨i, hi⟩ := List.mem_iff_getElem?.mp hn
        obtain ⟨j, hj⟩ := List.mem_iff_getElem?.mp hv1
        have : e = v.1 := PErr.debug_inj (PErr.declared_iff.mpr (List.mem_map.mpr ⟨_, hn, rfl⟩))
          (PErr.declared_iff.mpr (List.mem_map.mpr ⟨_, hv1, rfl⟩)) (by rw [(PErr.row hj).2.1, hvn]; exact (PErr.row hi).2.1)
        rw [this]
        simpa using hv2
      exact ⟨fun e => ⟨sub hd e4 e, sub hd' e4.symm e⟩, pre, cur, rest, post, pre', cur', rest', post', ho, ho', e1, e2, e3⟩
    · rw [hr'] at hf'; cases hf'
    · rw [hr'] at hf'; cases hf'
  · rw [hr] at hf; cases hf
  · rw [hr] at hf; cases hf

end

/-! ## Examples -/

/-- The example of the documentation (`src/lib.rs` 99-126): a missing parenthesis.  The message begins as shown there. -/
example : (parseRustFile asciiXid true true c!"\n    fn main( { let the_variable_name = 1 + 1; }\n    ").message
      c!"\n    fn main( { let the_variable_name = 1 + 1; }\n    " =
    some c!"Unable to parse text (line 2, column 14)\n\n    fn main( { let the_variable_name = 1 + 1; }\n             ^\nExpected:\n  ExpectedAmpersand\n  ExpectedBox\n  ExpectedByte\n  ExpectedByteString\n  ExpectedByteStringRaw\n  ExpectedCharacter\n  ExpectedCrate\n  ExpectedDefault\n  ExpectedDyn\n  ExpectedDoubleColon\n  ExpectedIdent\n  ExpectedLeftParen\n  ExpectedLeftSquare\n  ExpectedMinus\n  ExpectedMut\n  ExpectedNumber\n  ExpectedRef\n  ExpectedRightParen\n  ExpectedSelfIdent\n  ExpectedString\n  ExpectedStringRaw\n  ExpectedUnion\n" := by
  decide +kernel

/-- The names are not in the order of the alphabet. -/
example : (.Expected .Dyn, c!"ExpectedDyn") ∈ PErr.variants ∧
    PErr.key (.Expected .Dyn) < PErr.key (.Expected .DoubleColon) := by decide +kernel

/-- A string without an end. -/
example : (parseRustFile asciiXid true true c!"fn f() {\n  \"").message c!"fn f() {\n  \"" =
    some c!"Unable to tokenize text (line 2, column 4)\n\n  \"\n   ^\nExpected:\n  Literal(\"\\\"\")\n" := by decide +kernel

/-- Texts with the same message that are not the same: what is on other lines does not matter. -/
example : (parseRustFile asciiXid true true c!"\na b").message c!"\na b" = (parseRustFile asciiXid true true c!" \na b\nc").message c!" \na b\nc" ∧
    ((parseRustFile asciiXid true true c!"\na b").message c!"\na b" =
      some c!"Unable to parse text (line 2, column 3)\n\na b\n  ^\nExpected:\n  ExpectedBang\n  ExpectedDoubleColon\n") := by decide +kernel

end Verif.Props
