#!/usr/bin/env python3
"""Writes MANIFEST.json.  One row per property: status, theorem names (without the namespace Verif.Props), note."""
import json, os

P, A, N = "proved", "partial", "not_applicable"
C = {
 "C01": (P, ["C01_tokens_tile"], ""),
 "C02": (P, ["C02_terminates", "C02_no_panic", "C02_progress"], ""),
 "C03": (P, ["C03_token_extents_slice"], ""),
 "C04": (P, ["C04_error_location"], ""),
 "C05": (A, ["C05_finite_partial", "C05_false"],
   "False of the code: after an error the iterator repeats it for ever (C05_false, for every failing text). "
   "Proved part: after end-of-file it yields None for ever."),
 "C06": (P, ["C06_words"], ""),
 "C07": (P, ["C07_longest_symbol"], ""),
 "C08": (P, ["C08_strings", "C08_string_read", "C08_byte_string_read"], ""),
 "C09": (P, ["C09_raw_strings", "C09_raw_string_read", "C09_raw_byte_string_read"], ""),
 "C10": (A, ["C10_comment_end_partial", "C10_false"],
   "False of the code: block comments do not nest (C10_false) and unterminated ones run to the end of the text. "
   "Proved part: the actual rule (first */ or end of text; line comments to end of line)."),
 "C11": (P, ["C11_classified", "C11_only_comments"], ""),
 "C12": (P, ["C12_number_parts"], ""),
 "C13": (P, ["C13_into_simple"], ""),
 "C14": (P, ["C14_character", "C14_lifetime"], ""),
 "C15": (P, ["C15_partition", "C15_doc_comments_kept"], ""),
 "C16": (P, ["C16_split_tiles"], ""),
 "C17": (P, ["C17_resume", "C17_start"], ""),
 "C18": (P, ["C18_extents", "C18_file_extents"], ""),
 "C19": (A, ["C19_slices_partial", "C19_false"],
   "False of the code: when multi-byte white space (such as U+200E) precedes a token that is split, an extent can end inside a "
   "character (C19_false). Proved part: all extents of the tree can be sliced when all white space is ASCII."),
 "C20": (P, ["C20_terminates", "C20_C21_total", "C20_depth"], ""),
 "C21": (P, ["C21_no_panic", "C20_C21_total"], ""),
 "C22": (A, ["C22_children_inside_partial", "C22_false_empty", "C22_false_bounds"],
   "False of the code as stated. Pattern names and struct-literal fields have an empty extent (C22_false_empty). "
   "An empty list of bounds may lie after the end of its parent (C22_false_bounds). "
   "Proved: for every other node, every extent below it other than that of an empty list of bounds lies inside its extent."),
 "C23": (P, ["C23_items_cover"], ""),
 "C24": (P, ["C24_all_attached"], ""),
 "C25": (A, ["C25_innermost_partial", "C25_unhandled", "C25_false_unhandled", "C25_false_ignored"],
   "False of the code for six node kinds that the apportioner has no method for (C25_unhandled lists them all, "
   "C25_false_unhandled is a witness) and for the path in a visibility qualifier, which visitors do not reach "
   "(C25_false_ignored). Proved part: every other node."),
 "C26": (P, ["C26_in_order"], ""),
 "C27": (P, ["C27_mode_restored"], ""),
 "C28": (P, ["C28_heads"], "A block or closure in a head does not lift the restriction in this code, so it does not in the theorem either."),
 "C29": (P, ["C29_left_to_right", "C29_operands"], ""),
 "C30": (P, ["C30_paren_or_tuple"], ""),
 "C31": (A, ["C31_block_partial", "C31_false"],
   "False of the code: in `{ a; b }` the last expression is not taken as the block's value (C31_false). "
   "Proved part: the exact rule the code follows, for every run of the block rule."),
 "C32": (A, ["C32_zero_or_more", "C32_one_or_more_partial", "C32_false", "C32_implicit_partial", "C32_false_implicit"],
   "zero_or_more_tailed_values is exact. one_or_more_tailed_values and zero_or_more_implicitly_tailed misreport the "
   "trailing separator (C32_false, C32_false_implicit); proved part: values, order and end point."),
 "C33": (A, ["C33_empty_list_partial", "C33_empty_implicit_partial", "C33_false"],
   "False of the code: an empty list result may have moved past a partly read element (C33_false: `fn f(a) {}` has no "
   "arguments). Proved part: when the list comes out empty, the point is where it was unless the element failed further on."),
 "C34": (P, ["C34_macro_arguments", "C34_attribute_text"], ""),
 "C35": (P, ["C35_peek", "C35_optional", "C35_zero_or_more"], ""),
 "C36": (P, ["C36_error_location"], ""),
 "C37": (P, ["C37_furthest_wins"], ""),
 "C38": (P, ["C38_well_nested", "C38_each_once"], ""),
 "C39": (A, ["C39_break_partial", "C39_any_visitor", "C39_attributed_ignored", "C39_false"],
   "False of the code for the attributed_* callbacks, whose result is ignored (C39_false). Proved part: visitors that do not "
   "say Break there; C39_any_visitor and "
   "C39_attributed_ignored say what happens for all visitors."),
 "C40": (A, ["C40_line_and_column_partial", "C40_false", "C40_no_panic", "C40_caret"],
   "False of the code on every line but the first: the newline before the line is shown and counted (C40_false). "
   "Proved part: the line number, the rest of the line, and exactly what column is reported."),
 "C44": (P, ["C44_conforms", "C44_structs"], ""),
 "C41": (P, ["C41_layout"],
   "Kinds of number tokens include the base and which parts there are, as the tree shows them. The outcome of rejected texts "
   "is the same too: same errors, at the same token."),
 "C42": (A, ["C42_attributes_first_partial", "C42_false"],
   "False of the code for attributes on prefix operators: the extent of the operator starts with the attributes (C42_false). "
   "Proved: order, place inside the extent and start of the extent for all attributed structs; before the value for all values "
   "but prefix operators, and before operand and rest of the operator for these."),
 "C43": (A, ["C43_whitespace_visited_partial", "C43_false"],
   "False of the code: whitespace and comments attached to an Attributed node are never visited (C43_false). "
   "Proved part: all others are visited exactly once."),
 "C45": (P, ["C45_concrete_syntax", "C45_fields_once"],
   "The syntax of each struct is a table in Spec/Syntax.lean, written with field names and token kinds. The tokens of macro bodies "
   "and attributes are not described further (see C34); lists in which the parser can skip tokens are marked loose there (see C33)."),
 "C46": (P, ["C46_statements_end"], ""),
 "C47": (P, ["C47_accepted", "C47_unambiguous"],
   "The grammar (Spec/Core.lean) has all items, types, generics, where clauses, patterns, statements, blocks and expressions. It leaves "
   "out some rare forms that the parser also reads: the name dyn, default and union as names of types, constants and parameters, the "
   "visibility crate, unnamed arguments of trait functions, patterns that begin with self, attributes on generics, and range or return "
   "without operand inside larger expressions."),
 "C48": (P, ["C48_lexical_grammar", "C48_rejected", "C48_unambiguous"],
   "Assumes (Spec.Sane) that the Unicode tables are the usual ones on ASCII and have no white space."),
 "C49": (P, ["C49_program"], "The parts of the grammar left out are those of C47."),
 "C50": (P, ["C50_one_per_line"], "Assumes Spec.Sane, like C48."),
 "C51": (A, ["C51_exact_extents_partial", "C51_false_empty", "C51_false_tuple", "C51_false_prefix", "C51_false_cut"],
   "False of the code in four ways, each with a witness. Proved for all kinds of structs but the two with empty extents, the body of "
   "tuple structs and the prefix operators (for those see Spec.Extends), and unless the struct ends in the middle of a split token."),
 "C52": (P, ["C52_rest_does_not_matter", "C52_error_not_before_change"],
   "If failures of complete items are forgotten (cp = true), the error has to be the furthest failure of all, as the statement says."),
 "C53": (P, ["C53_unchanged", "C53_edits", "C53_apportioner"],
   "The bound of the recursion is any number not less than the depth of the tree."),
 "C54": (P, ["C54_counts", "C54_keep_going", "C54_all_accepted", "C54_stops"],
   "Statements are those that the parser records; see C31 for the last expression of a block."),
 "C55": (P, ["C55_tokenizer_prints_the_file"], ""),
 "C56": (P, ["C56_expected_can_come", "C56_number_can_come", "C56_complete_false", "C56_compound_false"],
   "Stated for failures of complete items being kept (cp = false). The last two theorems are witnesses: the list is not complete, and the restriction about tokens that can be split is needed."),
 "C57": (P, ["C57_parse_message", "C57_lex_message", "C57_no_panic", "C57_tells"],
  "The text of the message is given exactly; Display and Debug as derived are modelled, with the escapes of str that the literals of the tokenizer need. Where the new line before a line is shown and counted is C40."),
 "C58": (P, ["C58_is", "C58_get", "C58_parsed_get", "C58_names_differ", "C58_extent", "C58_index"],
  "Which traits are derived for which enum and the names of variants are read off src/ast.rs by tools/mkderive.py. That indexing can panic otherwise is C19."),
 "C59": (P, ["C59_append", "C59_accepted_iff"],
  "Stated for three texts: the first, the second, and one whose tokens are of the kinds of those of the first and then the second. Which spelling of two texts side by side has these tokens is a question for the tokenizer (C48); C61 is about texts."),
 "C60": (P, ["C60_indent"],
  "The whitespace recorded in the nodes is left out of the comparison here; see C65. The set of lexical errors is compared if the parser toolkit drops the failures of earlier tokens (cl = true); the place is compared in any case."),
 "C61": (P, ["C61_join", "C61_open_comment", "C61_open_raw_bytes"],
  "The last two theorems are witnesses that the conditions on what is left open are needed. The set of lexical errors is compared if the parser toolkit drops the failures of earlier tokens (cl = true); the place is compared in any case. Whether matching brackets are needed is not known."),
 "C62": (P, ["C62_excerpt", "C62_item"],
  "For a range of items and for one item. The whitespace recorded in the trees is left aside here; see C65. The hypothesis that brackets match is used in the proof; no counterexample without it is known."),
 "C63": (P, ["C63_rearrange"],
  "By C62 for each item and C61 for putting them together; the conditions of C61 pass to the text of each item."),
 "C64": (P, ["C64_reported", "C64_rejected"],
  "Both directions, against the grammar of C48 and a list of the places where no token can be read (Spec/LexError): the place is exact and all that is missing is named; nothing else is named if the external parser toolkit drops the failures of the tokens before (cl = true, as it does to my knowledge)."),
 "C65": (P, ["C65_indent", "C65_join", "C65_excerpt", "C65_rearrange"],
  "C60 to C63 for the whole tree with the whitespace and comments recorded in it, and for those that are recorded in no struct."),
 "C66": (P, ["C66_replace"],
  "From C61, C62 and C65: the text before the items and the text after them are programs too, and are joined with the new text."),
 "C67": (P, ["C67_rename_tokens", "C67_rename", "C67_rename_places", "C67_rename_same_length"],
  "Assumes of the Unicode tables that a character that can start a word can continue one (true of XID_Start and XID_Continue)."),
 "C68": (P, ["C68_string_tokens", "C68_string", "C68_comment_tokens", "C68_comment"],
  "Comments of just two bytes (an empty line comment) are left out of C68_comment: the end of an extent may be taken two bytes behind what is before the comment (see C51)."),
 "C69": (P, ["C69_space_tokens", "C69_space", "C69_space_places", "C69_space_long"],
  "The tokens and the shape without a condition on what comes next; the places with the two conditions of the statement, which are needed because of the defect of C51 (an example shows it)."),
 "C70": (P, ["C70_layout_tokens", "C70_layout", "C70_space"],
  "The conditions are the structure Fits; examples show that those on numbers and on quotes are needed."),
 "C71": (P, ["C71_character_tokens", "C71_character", "C71_lifetime_tokens", "C71_lifetime"],
  "The double quote is left out because behind `br#` the tokenizer looks for the next quote anywhere (see C68). The last example shows that the condition on lifetimes is needed."),
 "C72": (P, ["C72_number_tokens", "C72_number", "C72_integer_tokens", "C72_integer", "C72_quoted_tokens", "C72_quoted", "C72_byte_tokens", "C72_byte"],
  "NumText (Spec/Spelling.lean) says what a number is in front of a text. An example shows that the condition on a number directly before is needed."),
 "C73": (P, ["C73_tokens", "C73_result", "C73_ascii"],
  "An example shows two tables that differ, and a text on which they do lead to different results."),
 "C74": (P, ["C74_raw_tokens", "C74_raw", "C74_keyword_tokens", "C74_name_tokens"],
  "Assumes, as C67 does, that what may start a word may also continue one (true of the Unicode tables)."),
 "C75": (P, ["C75_rename_all", "C75_renamed_exists"],
  "Assumes the same of the Unicode tables as C67. The function φ that says where the places are then is determined on the ends of tokens by the texts of the tokens, which the theorem gives."),
 "C76": (P, ["C76_relaid"],
  "The new text is described by Spec.Relaid. That the exceptions and the condition on quotes are needed is shown at C70."),
 "C77": (P, ["C77_keeping", "C77_accepted", "C77_tokenizer"],
  "Whether the master of `peresil` keeps recorded failures on success influences only the error messages. C77_tokenizer (the same place for lexical errors) is for Unicode tables that are sane on ASCII, the others for all tables."),
 "C78": (P, ["C78_line_ends", "C78_crlf", "C78_quoted"],
  "C78_crlf is the case of turning every line feed into a carriage return and a line feed. C78_quoted shows that the exception is needed. That both are rejected for the same reasons is for a master that forgets failures on success (cl = true). The place of a lexical error is not compared."),
 "C79": (P, ["C79_tiling", "C79_inside", "C79_text"],
  "C79_tiling also says that no piece is empty."),
 "C80": (P, ["C80_source_order", "C80_lists", "C80_begins", "C80_preorder", "C80_one_way_down", "C80_exceptions"],
  "C80_exceptions shows that each of the exceptions occurs."),
}

here = os.path.dirname(os.path.abspath(__file__))
ids = [json.loads(l)["id"] for l in open(os.path.join(here, "../properties.jsonl"))]
claims = []
for i in ids:
    if i in C:
        s, t, n = C[i]
        claims.append({"property": i, "status": s, "theorems": ["Verif.Props." + x for x in t], "note": n})
json.dump({"claims": claims}, open(os.path.join(here, "../MANIFEST.json"), "w"), indent=1)

# lean/Verif/Axioms.lean: the axioms of all theorems of the manifest
names = [t for c in claims for t in c["theorems"]]
names = list(dict.fromkeys(names))
props = sorted(f[:-5] for f in os.listdir(os.path.join(here, "../lean/Verif/Props")) if f.endswith(".lean"))
with open(os.path.join(here, "../lean/Verif/Axioms.lean"), "w") as f:
    f.write("import Lean.Elab.Command\nimport Lean.Util.CollectAxioms\n")
    f.writelines(f"import Verif.Props.{p}\n" for p in props)
    f.write("""/-!
# The axioms of the property theorems

Written by `tools/mkmanifest.py`.  The build fails when a theorem of `MANIFEST.json` does not exist or depends on any axiom but
`propext`, `Classical.choice` and `Quot.sound`.
-/

open Lean Elab Command in
run_cmd
  for n in [
""")
    f.write(",\n".join("      ``" + n for n in names))
    f.write("""] do
    for a in ← liftCoreM (collectAxioms n) do
      unless [``propext, ``Classical.choice, ``Quot.sound].contains a do
        throwError "{n} depends on the axiom {a}"
""")
