import Verif.Proofs.SyntaxSub
import Verif.Props.Parse
/-!
# The tree and its tokens

C45, C51.
-/

namespace Verif.Props
open Verif.Spec

/-- The tables leave no field out and mention none twice: in each way to write a struct or a variant, each field has one
place. -/
theorem C45_fields_once (s : Style) :
    (∀ k form, form ∈ forms s k → (mentions form).length = k.fields.length ∧
      ∀ i < k.fields.length, (mentions form).count i = 1) ∧
    (∀ t form, form ∈ variantSyntax s t → (mentions form).length = t.payload.length ∧
      ∀ i < t.payload.length, (mentions form).count i = 1) := by
  have key : ∀ n form, complete n form = true → (mentions form).length = n ∧ ∀ i < n, (mentions form).count i = 1 := by
    intro n form h
    simpa only [complete, Bool.and_eq_true, beq_iff_eq, List.all_eq_true, List.mem_range] using h
  exact ⟨fun k form h => key _ _ (List.all_eq_true.mp (forms_complete s k) _ h),
    fun t form h => key _ _ (List.all_eq_true.mp (variants_complete s t) _ h)⟩

/-- C45: the significant tokens of a file that is parsed, in order and each once, with some operators cut into shorter ones,
spell its items as the concrete syntax says; and every struct in the tree is spelt by some of them in a row. -/
theorem C45_concrete_syntax (X : Xid) (cl cp : Bool) (code : Text) (f : File) (h : parseRustFile X cl cp code = .ok f) :
    ∃ ts toks pieces, lex X cl code = .ok ts ∧
      ts.filter (fun t => !isTrivia t) = toks ++ [.plain .EndOfFile ⟨blen code, blen code⟩] ∧
      Refines toks pieces ∧
      Spells (ts.filter (fun t => !isTrivia t)) (.rep [] (.val .plain) [] f.items) pieces ∧
      ∀ k e ws fs, V.node k e ws fs ∈ subsL f.items → isNumberPart k = false →
        ∃ s run, run <:+: pieces ∧ Spells (ts.filter (fun t => !isTrivia t)) (.one (.val s) (.node k e ws fs)) run := by
  obtain ⟨ts, items, q, hp⟩ := parseRustFile_ok h (Ψ := fun toks => Spelled toks) (fun _ _ => spelled_inductive)
  obtain ⟨pieces, h1, h2⟩ := hp.spells
  obtain ⟨init, t, h3, h4, -⟩ := hp.src.eof
  have h5 := hp.all
  have h6 : init.length = q.off := by rw [h3] at h5; simpa using h5.symm
  rw [h3, List.take_append_of_le_length (by omega), List.take_of_length_le (by omega)] at h1
  have h7 : t = .plain .EndOfFile ⟨blen code, blen code⟩ := by
    have := hp.src.eofAt t (by rw [h3]; simp) h4
    cases t with
    | plain k e =>
      have hk : k = .EndOfFile := by
        unfold Token.isEOF at h4
        split at h4
        · next heq => cases heq; rfl
        · cases h4
      subst hk
      simpa [Token.extent] using this
    | number => simp [Token.isEOF] at h4
  refine ⟨ts, init, pieces, hp.lexed, by rw [← significant_eq, ← h7, ← h3], h1, by rw [← significant_eq]; exact h2, ?_⟩
  intro k e ws fs hx hk
  have hz : Sized f.items := by
    intro x hx
    obtain ⟨v, hv, hx⟩ := mem_subsL.mp hx
    exact V.hasTy_sized v _ (C44_conforms X cl cp code f h v hv) x hx
  rw [← significant_eq]
  exact h2.sub hz rfl hk hx

/-- A file where tokens are cut, with many kinds of structs. -/
example : ∃ f, parseRustFile asciiXid true true c!"/// d\nextern \"C\" fn f(x: Vec<Vec<u8>>) -> u8 { if a >= 0o7 { g(&&x) }; x.y + 1 }" = .ok f ∧
    decide ((subsL f.items).length > 100) = true :=
  FileResult.of_okWith (by decide +kernel)

/-- C51, the part that holds: every struct in the tree, apart from those of a few kinds, is spelt by some of the tokens in a row,
and its extent is from the start of the first to the end of the last.  The end is only wrong if the last is the front of a longer
token that was cut.  (What holds for the other kinds is in `Extends`, which is part of `Spells`.) -/
theorem C51_exact_extents_partial (X : Xid) (cl cp : Bool) (code : Text) (f : File) (h : parseRustFile X cl cp code = .ok f) :
    ∃ ts toks pieces, lex X cl code = .ok ts ∧
      ts.filter (fun t => !isTrivia t) = toks ++ [.plain .EndOfFile ⟨blen code, blen code⟩] ∧
      Refines toks pieces ∧
      ∀ k e ws fs, V.node k e ws fs ∈ subsL f.items → isNumberPart k = false →
        ∃ s run, run <:+: pieces ∧ Spells (ts.filter (fun t => !isTrivia t)) (.one (.val s) (.node k e ws fs)) run ∧
          (exactExtent k = true → Spans (ts.filter (fun t => !isTrivia t)) e run) ∧
          (exactExtent k = true → (∀ b, run.getLast? = some b → ∃ t ∈ toks, t.extent.e = b.extent.e) → Covers e run) ∧
          (emptyExtent k = true → e.s = e.e) := by
  obtain ⟨ts, toks, pieces, h1, h2, h3, -, h4⟩ := C45_concrete_syntax X cl cp code f h
  refine ⟨ts, toks, pieces, h1, h2, h3, fun k e ws fs hx hk => ?_⟩
  obtain ⟨s, run, hr, hs⟩ := h4 k e ws fs hx hk
  refine ⟨s, run, hr, hs, fun hk => hs.exact hk, fun hk hb => ?_, fun hk => ?_⟩
  · refine (hs.exact hk).covers (fun b hb' hc => ?_)
    obtain ⟨t, ht, hte⟩ := hb b hb'
    rw [← hte] at hc
    rw [← significant_eq] at hc h2
    exact not_endsCut h1 (by rw [h2]; simp [ht]) hc
  · cases hs with
    | node _ _ hx => unfold Extends at hx; rw [if_pos hk] at hx; exact hx.1
    | number => cases hk

/-- The structs of the file with their texts. -/
def texts (code : Text) (f : File) : List (K × Option Text) :=
  (subsL f.items).filterMap fun
    | .node k e _ _ => some (k, sliceText code e)
    | _ => none

/-- Most structs have the text that one expects: here of a type that ends with one half of `>>`, of an operator and its operands, of
a call. -/
example : ∃ f, parseRustFile asciiXid true true c!"fn f(a: Vec<Vec<u8>>) { g (-1 + x) . y ; }" = .ok f ∧
    decide ((.Type, some c!"Vec<Vec<u8>>") ∈ texts c!"fn f(a: Vec<Vec<u8>>) { g (-1 + x) . y ; }" f ∧
      (.Type, some c!"Vec<u8>") ∈ texts c!"fn f(a: Vec<Vec<u8>>) { g (-1 + x) . y ; }" f ∧
      (.Binary, some c!"-1 + x") ∈ texts c!"fn f(a: Vec<Vec<u8>>) { g (-1 + x) . y ; }" f ∧
      (.Unary, some c!"-1") ∈ texts c!"fn f(a: Vec<Vec<u8>>) { g (-1 + x) . y ; }" f ∧
      (.Call, some c!"g (-1 + x)") ∈ texts c!"fn f(a: Vec<Vec<u8>>) { g (-1 + x) . y ; }" f ∧
      (.FieldAccess, some c!"g (-1 + x) . y") ∈ texts c!"fn f(a: Vec<Vec<u8>>) { g (-1 + x) . y ; }" f) = true :=
  FileResult.of_okWith (by decide +kernel)

/-- C51 is false of the names of patterns and the fields of struct literals: their extent is always empty. -/
theorem C51_false_empty : ∃ f, parseRustFile asciiXid true true c!"fn f(a @ _: u8) { S { b: a } }" = .ok f ∧
    decide ((.PatternName, some []) ∈ texts c!"fn f(a @ _: u8) { S { b: a } }" f ∧
      (.StructLiteralField, some []) ∈ texts c!"fn f(a @ _: u8) { S { b: a } }" f) = true :=
  FileResult.of_okWith (by decide +kernel)

/-- It is false of the fields of a tuple struct: their extent includes the `where` and the semicolon. -/
theorem C51_false_tuple : ∃ f, parseRustFile asciiXid true true c!"struct S(u8) where u8: T;" = .ok f ∧
    decide ((.StructDefinitionBodyTuple, some c!"(u8) where u8: T;") ∈ texts c!"struct S(u8) where u8: T;" f) = true :=
  FileResult.of_okWith (by decide +kernel)

/-- It is false of prefix operators with attributes. -/
theorem C51_false_prefix : ∃ f, parseRustFile asciiXid true true c!"fn f() { #[a] -x; }" = .ok f ∧
    decide ((.Unary, some c!"#[a] -x") ∈ texts c!"fn f() { #[a] -x; }" f) = true :=
  FileResult.of_okWith (by decide +kernel)

/-- It is false of what ends inside of a token after whitespace: the last character is missing. -/
theorem C51_false_cut : ∃ f, parseRustFile asciiXid true true c!"fn f(a: Vec<Vec<u8 >>) {}" = .ok f ∧
    decide ((.TypeNamed, some c!"Vec<u8 ") ∈ texts c!"fn f(a: Vec<Vec<u8 >>) {}" f) = true :=
  FileResult.of_okWith (by decide +kernel)

/-- The syntax tells operators apart. -/
example (s : Style) (t : Tag) (toks : List Token) (e : Extent) (h : Spells toks (.one (.val s) (.enm t [])) [.plain .Minus e]) :
    t ≠ .BinaryOp_Add := by
  rintro rfl
  cases h with
  | enm hf hs =>
    simp [variantSyntax] at hf
    subst hf
    cases hs

end Verif.Props
