import Verif.Spec.Lex
/-!
# The tables of the tokenizer spell keywords and symbols as the specification does
-/

namespace Verif
open Spec

theorem keywordTable_text : ∀ r ∈ keywordTable, keywordText r.2 = some r.1 := by decide

theorem keywordText_table (k : TK) (w : Text) (h : keywordText k = some w) : (w, k) ∈ keywordTable := by
  cases k <;> simp [keywordText] at h <;> subst h <;> decide

theorem symbolTable_text : ∀ r ∈ symbolTable, symbolText r.2 = some r.1 := by decide

theorem symbolText_table (k : TK) (w : Text) (h : symbolText k = some w) : (w, k) ∈ symbolTable := by
  cases k <;> simp [symbolText] at h <;> subst h <;> decide

end Verif
