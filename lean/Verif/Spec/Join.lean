import Verif.Spec.Lex
/-!
# Texts that end where they seem to
-/

namespace Verif.Spec
open Verif

/-- The text `code`, whose tokens are `ts`, leaves nothing open that the tokenizer puts up with: every block comment is closed, and no
raw byte string is left open (which is read as the word `br`, hashes, and an ordinary string). -/
structure Finished (code : Text) (ts : List Token) : Prop where
  comments : ∀ t ∈ ts, ∀ k op, t.kind? = some k → blockOpener k = some op →
    ∃ inner, sliceText code t.extent = some (op ++ inner ++ c!"*/")
  rawBytes : ∀ pre n post, code = pre ++ c!"br" ++ List.replicate n '#' ++ c!"\"" ++ post →
    .plain .Ident ⟨blen pre, blen pre + 2⟩ ∉ ts

end Verif.Spec
