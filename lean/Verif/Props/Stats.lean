import Verif.Proofs.Stats
import Verif.Props.Visit
import Verif.Props.Tree
import Verif.Props.Human
import Verif.Props.Shape
/-!
# Property theorems about the programs `stats` and `tokenizer` (C54, C55)
-/

namespace Verif.Props
open Verif Verif.Spec

/-! ## C54 -/

/-- The number that the visitor of `stats` counts is the number of statements in all blocks of the tree, wherever they are. -/
theorem C54_counts (X : Xid) (cl cp : Bool) (code : Text) (f : File) (h : parseRustFile X cl cp code = .ok f) :
    statsVisitor.visitFile f 0 = blockStatements (subsL f.items) := by
  obtain ⟨calls, h1, -, h3, h4⟩ := C38_well_nested statsVisitor always (fun _ _ => rfl) f
  have h5 := (C38_each_once f).2
  rw [h1] at h5
  have h6 := allTy_mem.mpr (C44_conforms X cl cp code f h)
  rw [h4, replay_stats, Nat.zero_add, ← h3.countP_eq, countP_values, h5, reachedL_statements _ _ h6, subsL_statements _ _ h6,
    directL_noStmt _ rfl]
  rfl

/-- The statements of a function, of one in it, and of a block in an expression.  The expression `b` that is all of a block is not counted,
the expressions `d` and `x` at the end of a block are, because the parser takes them for statements (see `C31_false`). -/
example : ∃ f, parseRustFile asciiXid true true c!"fn f() { a; fn g() { b } let x = { c; d }; x }" = .ok f ∧
    decide (statsVisitor.visitFile f 0 = 6) = true :=
  FileResult.of_okWith (by decide +kernel)

/-- With `--keep-going` the program says something about every file, and does not panic. -/
theorem C54_keep_going (X : Xid) (cl cp checkOnly : Bool) (files : List (Text × Text)) :
    ∃ outs, outs.length = files.length ∧ (∀ p ∈ files.zip outs, Says X cl cp checkOnly p.1 p.2) ∧
      stats X cl cp checkOnly true files = ⟨outs.flatten, false⟩ := by
  induction files with
  | nil => exact ⟨[], rfl, by simp, rfl⟩
  | cons file files ih =>
    obtain ⟨outs, h1, h2, h3⟩ := ih
    obtain ⟨name, code⟩ := file
    have key : ∃ out, Says X cl cp checkOnly (name, code) out ∧
        stats X cl cp checkOnly true ((name, code) :: files) = ⟨out ++ outs.flatten, false⟩ := by
      rw [stats, h3]
      rcases C20_C21_total X cl cp code with ⟨f, h⟩ | ⟨d, h⟩ | ⟨loc, errs, h⟩
      · rw [h]
        cases hc : checkOnly with
        | true => exact ⟨[], .nothing h rfl, rfl⟩
        | false => exact ⟨_, .statements h rfl, by simp [C54_counts X cl cp code f h]⟩
      · obtain ⟨hu, hh⟩ := Option.isSome_iff_exists.mp ((C40_no_panic X cl cp code).1 d h)
        rw [h]
        exact ⟨_, .lexErr h hh, by simp [statsError, hh]⟩
      · obtain ⟨hu, hh⟩ := Option.isSome_iff_exists.mp ((C40_no_panic X cl cp code).2 loc errs h)
        rw [h]
        exact ⟨_, .parseErr h hh, by simp [statsError, hh]⟩
    obtain ⟨out, h4, h5⟩ := key
    refine ⟨out :: outs, by simp [h1], ?_, by simpa using h5⟩
    intro p hp
    rw [List.zip_cons_cons, List.mem_cons] at hp
    rcases hp with rfl | hp
    · exact h4
    · exact h2 p hp

/-- Without it the program does the same if all files are accepted. -/
theorem C54_all_accepted (X : Xid) (cl cp checkOnly : Bool) (files : List (Text × Text)) (h : ∀ f ∈ files, Accepts X cl cp f) :
    stats X cl cp checkOnly false files = stats X cl cp checkOnly true files := by
  induction files with
  | nil => rfl
  | cons file files ih =>
    obtain ⟨f, hf⟩ := h file (by simp)
    rw [stats, stats, hf, ih fun f hf => h f (by simp [hf])]

/-- Otherwise it stops after what it says about the first file that is not, and panics. -/
theorem C54_stops (X : Xid) (cl cp checkOnly : Bool) (files more : List (Text × Text)) (file : Text × Text)
    (h : ∀ f ∈ files, Accepts X cl cp f) (hf : ¬ Accepts X cl cp file) :
    stats X cl cp checkOnly false (files ++ file :: more) = ⟨(stats X cl cp checkOnly true (files ++ [file])).lines, true⟩ := by
  induction files with
  | nil =>
    show stats X cl cp checkOnly false (file :: more) = ⟨(stats X cl cp checkOnly true [file]).lines, true⟩
    rw [stats, stats]
    rcases C20_C21_total X cl cp file.2 with ⟨f, h⟩ | ⟨d, h⟩ | ⟨loc, errs, h⟩
    · exact absurd ⟨f, h⟩ hf
    · obtain ⟨hu, hh⟩ := Option.isSome_iff_exists.mp ((C40_no_panic X cl cp file.2).1 d h)
      simp [h, statsError, hh, stats]
    · obtain ⟨hu, hh⟩ := Option.isSome_iff_exists.mp ((C40_no_panic X cl cp file.2).2 loc errs h)
      simp [h, statsError, hh, stats]
  | cons file' files ih =>
    obtain ⟨f, hf'⟩ := h file' (by simp)
    rw [List.cons_append, List.cons_append, stats, stats, hf', ih fun f hf => h f (by simp [hf])]
    cases checkOnly <;> rfl

/-- Three files, the second of which is not accepted. -/
def threeFiles : List (Text × Text) := [(c!"a", c!"fn f() { g(); }"), (c!"b", c!"fn\nfn"), (c!"c", c!"")]

example : stats asciiXid true true false true threeFiles =
    ⟨[.statements c!"a" 1, .unableToParse c!"b" ⟨c!"\n", c!"fn", 2, 1⟩, .statements c!"c" 0], false⟩ := by decide +kernel
example : stats asciiXid true true false false threeFiles =
    ⟨[.statements c!"a" 1, .unableToParse c!"b" ⟨c!"\n", c!"fn", 2, 1⟩], true⟩ := by decide +kernel

/-! ## C55 -/

/-- The program `tokenizer` does not panic on the tokens of a file; it prints them all, numbered from 0, and the texts that it prints with them
are the text of the file. -/
theorem C55_tokenizer_prints_the_file (X : Xid) (cl : Bool) (code : Text) (ts : List Token) (h : lex X cl code = .ok ts) :
    ∃ ls, tokenLines code 0 ts = some ls ∧ ls.map (·.1) = List.range ts.length ∧ ls.map (·.2.1) = ts ∧
      (ls.map (·.2.2)).flatten = code := by
  obtain ⟨body, texts, h1, -, h2, h3⟩ := C01_tokens_tile X cl code ts h
  have hs : sliceText code ⟨blen code, blen code⟩ = some [] := by
    have h := splitAtByte_blen code []
    rw [List.append_nil] at h
    simp [sliceText, h, splitAtByte]
  have h4 : ts.map (fun t => sliceText code t.extent) = (texts ++ [[]]).map some := by
    rw [h1, List.map_append, List.map_append, h2]
    simp [Token.extent, hs]
  obtain ⟨ls, h5, h6, h7, h8⟩ := tokenLines_of_slices 0 h4
  exact ⟨ls, h5, by rw [h6, List.range_eq_range'], h7, by rw [h8]; simp [h3]⟩

example : LexResult.okWith (lex asciiXid true c!"a + 1") (fun ts => decide (((tokenLines c!"a + 1" 0 ts).map (·.map (·.2.2))) =
    some [c!"a", c!" ", c!"+", c!" ", c!"1", []])) = true := by decide +kernel

end Verif.Props
