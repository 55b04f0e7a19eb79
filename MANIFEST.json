{
 "claims": [
  {
   "property": "C01",
   "status": "proved",
   "theorems": [
    "Verif.Props.C01_tokens_tile"
   ],
   "note": ""
  },
  {
   "property": "C02",
   "status": "proved",
   "theorems": [
    "Verif.Props.C02_terminates",
    "Verif.Props.C02_no_panic",
    "Verif.Props.C02_progress"
   ],
   "note": ""
  },
  {
   "property": "C03",
   "status": "proved",
   "theorems": [
    "Verif.Props.C03_token_extents_slice"
   ],
   "note": ""
  },
  {
   "property": "C04",
   "status": "proved",
   "theorems": [
    "Verif.Props.C04_error_location"
   ],
   "note": ""
  },
  {
   "property": "C05",
   "status": "partial",
   "theorems": [
    "Verif.Props.C05_finite_partial",
    "Verif.Props.C05_false"
   ],
   "note": "False of the code: after an error the iterator repeats it for ever (C05_false, for every failing text). Proved part: after end-of-file it yields None for ever."
  },
  {
   "property": "C06",
   "status": "proved",
   "theorems": [
    "Verif.Props.C06_words"
   ],
   "note": ""
  },
  {
   "property": "C07",
   "status": "proved",
   "theorems": [
    "Verif.Props.C07_longest_symbol"
   ],
   "note": ""
  },
  {
   "property": "C08",
   "status": "proved",
   "theorems": [
    "Verif.Props.C08_strings",
    "Verif.Props.C08_string_read",
    "Verif.Props.C08_byte_string_read"
   ],
   "note": ""
  },
  {
   "property": "C09",
   "status": "proved",
   "theorems": [
    "Verif.Props.C09_raw_strings",
    "Verif.Props.C09_raw_string_read",
    "Verif.Props.C09_raw_byte_string_read"
   ],
   "note": ""
  },
  {
   "property": "C10",
   "status": "partial",
   "theorems": [
    "Verif.Props.C10_comment_end_partial",
    "Verif.Props.C10_false"
   ],
   "note": "False of the code: block comments do not nest (C10_false) and unterminated ones run to the end of the text. Proved part: the actual rule (first */ or end of text; line comments to end of line)."
  },
  {
   "property": "C11",
   "status": "proved",
   "theorems": [
    "Verif.Props.C11_classified",
    "Verif.Props.C11_only_comments"
   ],
   "note": ""
  },
  {
   "property": "C12",
   "status": "proved",
   "theorems": [
    "Verif.Props.C12_number_parts"
   ],
   "note": ""
  },
  {
   "property": "C13",
   "status": "proved",
   "theorems": [
    "Verif.Props.C13_into_simple"
   ],
   "note": ""
  },
  {
   "property": "C14",
   "status": "proved",
   "theorems": [
    "Verif.Props.C14_character",
    "Verif.Props.C14_lifetime"
   ],
   "note": ""
  },
  {
   "property": "C15",
   "status": "proved",
   "theorems": [
    "Verif.Props.C15_partition",
    "Verif.Props.C15_doc_comments_kept"
   ],
   "note": ""
  },
  {
   "property": "C16",
   "status": "proved",
   "theorems": [
    "Verif.Props.C16_split_tiles"
   ],
   "note": ""
  },
  {
   "property": "C17",
   "status": "proved",
   "theorems": [
    "Verif.Props.C17_resume",
    "Verif.Props.C17_start"
   ],
   "note": ""
  },
  {
   "property": "C18",
   "status": "proved",
   "theorems": [
    "Verif.Props.C18_extents",
    "Verif.Props.C18_file_extents"
   ],
   "note": ""
  },
  {
   "property": "C19",
   "status": "partial",
   "theorems": [
    "Verif.Props.C19_slices_partial",
    "Verif.Props.C19_false"
   ],
   "note": "False of the code: when multi-byte white space (such as U+200E) precedes a token that is split, an extent can end inside a character (C19_false). Proved part: all extents of the tree can be sliced when all white space is ASCII."
  },
  {
   "property": "C20",
   "status": "proved",
   "theorems": [
    "Verif.Props.C20_terminates",
    "Verif.Props.C20_C21_total",
    "Verif.Props.C20_depth"
   ],
   "note": ""
  },
  {
   "property": "C21",
   "status": "proved",
   "theorems": [
    "Verif.Props.C21_no_panic",
    "Verif.Props.C20_C21_total"
   ],
   "note": ""
  },
  {
   "property": "C22",
   "status": "partial",
   "theorems": [
    "Verif.Props.C22_children_inside_partial",
    "Verif.Props.C22_false_empty",
    "Verif.Props.C22_false_bounds"
   ],
   "note": "False of the code as stated. Pattern names and struct-literal fields have an empty extent (C22_false_empty). An empty list of bounds may lie after the end of its parent (C22_false_bounds). Proved: for every other node, every extent below it other than that of an empty list of bounds lies inside its extent."
  },
  {
   "property": "C23",
   "status": "proved",
   "theorems": [
    "Verif.Props.C23_items_cover"
   ],
   "note": ""
  },
  {
   "property": "C24",
   "status": "proved",
   "theorems": [
    "Verif.Props.C24_all_attached"
   ],
   "note": ""
  },
  {
   "property": "C25",
   "status": "partial",
   "theorems": [
    "Verif.Props.C25_innermost_partial",
    "Verif.Props.C25_unhandled",
    "Verif.Props.C25_false_unhandled",
    "Verif.Props.C25_false_ignored"
   ],
   "note": "False of the code for six node kinds that the apportioner has no method for (C25_unhandled lists them all, C25_false_unhandled is a witness) and for the path in a visibility qualifier, which visitors do not reach (C25_false_ignored). Proved part: every other node."
  },
  {
   "property": "C26",
   "status": "proved",
   "theorems": [
    "Verif.Props.C26_in_order"
   ],
   "note": ""
  },
  {
   "property": "C27",
   "status": "proved",
   "theorems": [
    "Verif.Props.C27_mode_restored"
   ],
   "note": ""
  },
  {
   "property": "C28",
   "status": "proved",
   "theorems": [
    "Verif.Props.C28_heads"
   ],
   "note": "A block or closure in a head does not lift the restriction in this code, so it does not in the theorem either."
  },
  {
   "property": "C29",
   "status": "proved",
   "theorems": [
    "Verif.Props.C29_left_to_right",
    "Verif.Props.C29_operands"
   ],
   "note": ""
  },
  {
   "property": "C30",
   "status": "proved",
   "theorems": [
    "Verif.Props.C30_paren_or_tuple"
   ],
   "note": ""
  },
  {
   "property": "C31",
   "status": "partial",
   "theorems": [
    "Verif.Props.C31_block_partial",
    "Verif.Props.C31_false"
   ],
   "note": "False of the code: in `{ a; b }` the last expression is not taken as the block's value (C31_false). Proved part: the exact rule the code follows, for every run of the block rule."
  },
  {
   "property": "C32",
   "status": "partial",
   "theorems": [
    "Verif.Props.C32_zero_or_more",
    "Verif.Props.C32_one_or_more_partial",
    "Verif.Props.C32_false",
    "Verif.Props.C32_implicit_partial",
    "Verif.Props.C32_false_implicit"
   ],
   "note": "zero_or_more_tailed_values is exact. one_or_more_tailed_values and zero_or_more_implicitly_tailed misreport the trailing separator (C32_false, C32_false_implicit); proved part: values, order and end point."
  },
  {
   "property": "C33",
   "status": "partial",
   "theorems": [
    "Verif.Props.C33_empty_list_partial",
    "Verif.Props.C33_empty_implicit_partial",
    "Verif.Props.C33_false"
   ],
   "note": "False of the code: an empty list result may have moved past a partly read element (C33_false: `fn f(a) {}` has no arguments). Proved part: when the list comes out empty, the point is where it was unless the element failed further on."
  },
  {
   "property": "C34",
   "status": "proved",
   "theorems": [
    "Verif.Props.C34_macro_arguments",
    "Verif.Props.C34_attribute_text"
   ],
   "note": ""
  },
  {
   "property": "C35",
   "status": "proved",
   "theorems": [
    "Verif.Props.C35_peek",
    "Verif.Props.C35_optional",
    "Verif.Props.C35_zero_or_more"
   ],
   "note": ""
  },
  {
   "property": "C36",
   "status": "proved",
   "theorems": [
    "Verif.Props.C36_error_location"
   ],
   "note": ""
  },
  {
   "property": "C37",
   "status": "proved",
   "theorems": [
    "Verif.Props.C37_furthest_wins"
   ],
   "note": ""
  },
  {
   "property": "C38",
   "status": "proved",
   "theorems": [
    "Verif.Props.C38_well_nested",
    "Verif.Props.C38_each_once"
   ],
   "note": ""
  },
  {
   "property": "C39",
   "status": "partial",
   "theorems": [
    "Verif.Props.C39_break_partial",
    "Verif.Props.C39_any_visitor",
    "Verif.Props.C39_attributed_ignored",
    "Verif.Props.C39_false"
   ],
   "note": "False of the code for the attributed_* callbacks, whose result is ignored (C39_false). Proved part: visitors that do not say Break there; C39_any_visitor and C39_attributed_ignored say what happens for all visitors."
  },
  {
   "property": "C40",
   "status": "partial",
   "theorems": [
    "Verif.Props.C40_line_and_column_partial",
    "Verif.Props.C40_false",
    "Verif.Props.C40_no_panic",
    "Verif.Props.C40_caret"
   ],
   "note": "False of the code on every line but the first: the newline before the line is shown and counted (C40_false). Proved part: the line number, the rest of the line, and exactly what column is reported."
  },
  {
   "property": "C41",
   "status": "proved",
   "theorems": [
    "Verif.Props.C41_layout"
   ],
   "note": "Kinds of number tokens include the base and which parts there are, as the tree shows them. The outcome of rejected texts is the same too: same errors, at the same token."
  },
  {
   "property": "C42",
   "status": "partial",
   "theorems": [
    "Verif.Props.C42_attributes_first_partial",
    "Verif.Props.C42_false"
   ],
   "note": "False of the code for attributes on prefix operators: the extent of the operator starts with the attributes (C42_false). Proved: order, place inside the extent and start of the extent for all attributed structs; before the value for all values but prefix operators, and before operand and rest of the operator for these."
  },
  {
   "property": "C43",
   "status": "partial",
   "theorems": [
    "Verif.Props.C43_whitespace_visited_partial",
    "Verif.Props.C43_false"
   ],
   "note": "False of the code: whitespace and comments attached to an Attributed node are never visited (C43_false). Proved part: all others are visited exactly once."
  },
  {
   "property": "C44",
   "status": "proved",
   "theorems": [
    "Verif.Props.C44_conforms",
    "Verif.Props.C44_structs"
   ],
   "note": ""
  },
  {
   "property": "C45",
   "status": "proved",
   "theorems": [
    "Verif.Props.C45_concrete_syntax",
    "Verif.Props.C45_fields_once"
   ],
   "note": "The syntax of each struct is a table in Spec/Syntax.lean, written with field names and token kinds. The tokens of macro bodies and attributes are not described further (see C34); lists in which the parser can skip tokens are marked loose there (see C33)."
  },
  {
   "property": "C46",
   "status": "proved",
   "theorems": [
    "Verif.Props.C46_statements_end"
   ],
   "note": ""
  },
  {
   "property": "C47",
   "status": "proved",
   "theorems": [
    "Verif.Props.C47_accepted",
    "Verif.Props.C47_unambiguous"
   ],
   "note": "The grammar (Spec/Core.lean) has all items, types, generics, where clauses, patterns, statements, blocks and expressions. It leaves out some rare forms that the parser also reads: the name dyn, default and union as names of types, constants and parameters, the visibility crate, unnamed arguments of trait functions, patterns that begin with self, attributes on generics, and range or return without operand inside larger expressions."
  },
  {
   "property": "C48",
   "status": "proved",
   "theorems": [
    "Verif.Props.C48_lexical_grammar",
    "Verif.Props.C48_rejected",
    "Verif.Props.C48_unambiguous"
   ],
   "note": "Assumes (Spec.Sane) that the Unicode tables are the usual ones on ASCII and have no white space."
  },
  {
   "property": "C49",
   "status": "proved",
   "theorems": [
    "Verif.Props.C49_program"
   ],
   "note": "The parts of the grammar left out are those of C47."
  },
  {
   "property": "C50",
   "status": "proved",
   "theorems": [
    "Verif.Props.C50_one_per_line"
   ],
   "note": "Assumes Spec.Sane, like C48."
  },
  {
   "property": "C51",
   "status": "partial",
   "theorems": [
    "Verif.Props.C51_exact_extents_partial",
    "Verif.Props.C51_false_empty",
    "Verif.Props.C51_false_tuple",
    "Verif.Props.C51_false_prefix",
    "Verif.Props.C51_false_cut"
   ],
   "note": "False of the code in four ways, each with a witness. Proved for all kinds of structs but the two with empty extents, the body of tuple structs and the prefix operators (for those see Spec.Extends), and unless the struct ends in the middle of a split token."
  },
  {
   "property": "C52",
   "status": "proved",
   "theorems": [
    "Verif.Props.C52_rest_does_not_matter",
    "Verif.Props.C52_error_not_before_change"
   ],
   "note": "If failures of complete items are forgotten (cp = true), the error has to be the furthest failure of all, as the statement says."
  },
  {
   "property": "C53",
   "status": "proved",
   "theorems": [
    "Verif.Props.C53_unchanged",
    "Verif.Props.C53_edits",
    "Verif.Props.C53_apportioner"
   ],
   "note": "The bound of the recursion is any number not less than the depth of the tree."
  },
  {
   "property": "C54",
   "status": "proved",
   "theorems": [
    "Verif.Props.C54_counts",
    "Verif.Props.C54_keep_going",
    "Verif.Props.C54_all_accepted",
    "Verif.Props.C54_stops"
   ],
   "note": "Statements are those that the parser records; see C31 for the last expression of a block."
  },
  {
   "property": "C55",
   "status": "proved",
   "theorems": [
    "Verif.Props.C55_tokenizer_prints_the_file"
   ],
   "note": ""
  },
  {
   "property": "C56",
   "status": "proved",
   "theorems": [
    "Verif.Props.C56_expected_can_come",
    "Verif.Props.C56_number_can_come",
    "Verif.Props.C56_complete_false",
    "Verif.Props.C56_compound_false"
   ],
   "note": "Stated for failures of complete items being kept (cp = false). The last two theorems are witnesses: the list is not complete, and the restriction about tokens that can be split is needed."
  },
  {
   "property": "C57",
   "status": "proved",
   "theorems": [
    "Verif.Props.C57_parse_message",
    "Verif.Props.C57_lex_message",
    "Verif.Props.C57_no_panic",
    "Verif.Props.C57_tells"
   ],
   "note": "The text of the message is given exactly; Display and Debug as derived are modelled, with the escapes of str that the literals of the tokenizer need. Where the new line before a line is shown and counted is C40."
  },
  {
   "property": "C58",
   "status": "proved",
   "theorems": [
    "Verif.Props.C58_is",
    "Verif.Props.C58_get",
    "Verif.Props.C58_parsed_get",
    "Verif.Props.C58_names_differ",
    "Verif.Props.C58_extent",
    "Verif.Props.C58_index"
   ],
   "note": "Which traits are derived for which enum and the names of variants are read off src/ast.rs by tools/mkderive.py. That indexing can panic otherwise is C19."
  },
  {
   "property": "C59",
   "status": "proved",
   "theorems": [
    "Verif.Props.C59_append",
    "Verif.Props.C59_accepted_iff"
   ],
   "note": "Stated for three texts: the first, the second, and one whose tokens are of the kinds of those of the first and then the second. Which spelling of two texts side by side has these tokens is a question for the tokenizer (C48); C61 is about texts."
  },
  {
   "property": "C60",
   "status": "proved",
   "theorems": [
    "Verif.Props.C60_indent"
   ],
   "note": "The whitespace recorded in the nodes is left out of the comparison here; see C65. The set of lexical errors is compared if the parser toolkit drops the failures of earlier tokens (cl = true); the place is compared in any case."
  },
  {
   "property": "C61",
   "status": "proved",
   "theorems": [
    "Verif.Props.C61_join",
    "Verif.Props.C61_open_comment",
    "Verif.Props.C61_open_raw_bytes"
   ],
   "note": "The last two theorems are witnesses that the conditions on what is left open are needed. The set of lexical errors is compared if the parser toolkit drops the failures of earlier tokens (cl = true); the place is compared in any case. Whether matching brackets are needed is not known."
  },
  {
   "property": "C62",
   "status": "proved",
   "theorems": [
    "Verif.Props.C62_excerpt",
    "Verif.Props.C62_item"
   ],
   "note": "For a range of items and for one item. The whitespace recorded in the trees is left aside here; see C65. The hypothesis that brackets match is used in the proof; no counterexample without it is known."
  },
  {
   "property": "C63",
   "status": "proved",
   "theorems": [
    "Verif.Props.C63_rearrange"
   ],
   "note": "By C62 for each item and C61 for putting them together; the conditions of C61 pass to the text of each item."
  },
  {
   "property": "C64",
   "status": "proved",
   "theorems": [
    "Verif.Props.C64_reported",
    "Verif.Props.C64_rejected"
   ],
   "note": "Both directions, against the grammar of C48 and a list of the places where no token can be read (Spec/LexError): the place is exact and all that is missing is named; nothing else is named if the external parser toolkit drops the failures of the tokens before (cl = true, as it does to my knowledge)."
  },
  {
   "property": "C65",
   "status": "proved",
   "theorems": [
    "Verif.Props.C65_indent",
    "Verif.Props.C65_join",
    "Verif.Props.C65_excerpt",
    "Verif.Props.C65_rearrange"
   ],
   "note": "C60 to C63 for the whole tree with the whitespace and comments recorded in it, and for those that are recorded in no struct."
  },
  {
   "property": "C66",
   "status": "proved",
   "theorems": [
    "Verif.Props.C66_replace"
   ],
   "note": "From C61, C62 and C65: the text before the items and the text after them are programs too, and are joined with the new text."
  },
  {
   "property": "C67",
   "status": "proved",
   "theorems": [
    "Verif.Props.C67_rename_tokens",
    "Verif.Props.C67_rename",
    "Verif.Props.C67_rename_places",
    "Verif.Props.C67_rename_same_length"
   ],
   "note": "Assumes of the Unicode tables that a character that can start a word can continue one (true of XID_Start and XID_Continue)."
  },
  {
   "property": "C68",
   "status": "proved",
   "theorems": [
    "Verif.Props.C68_string_tokens",
    "Verif.Props.C68_string",
    "Verif.Props.C68_comment_tokens",
    "Verif.Props.C68_comment"
   ],
   "note": "Comments of just two bytes (an empty line comment) are left out of C68_comment: the end of an extent may be taken two bytes behind what is before the comment (see C51)."
  },
  {
   "property": "C69",
   "status": "proved",
   "theorems": [
    "Verif.Props.C69_space_tokens",
    "Verif.Props.C69_space",
    "Verif.Props.C69_space_places",
    "Verif.Props.C69_space_long"
   ],
   "note": "The tokens and the shape without a condition on what comes next; the places with the two conditions of the statement, which are needed because of the defect of C51 (an example shows it)."
  },
  {
   "property": "C70",
   "status": "proved",
   "theorems": [
    "Verif.Props.C70_layout_tokens",
    "Verif.Props.C70_layout",
    "Verif.Props.C70_space"
   ],
   "note": "The conditions are the structure Fits; examples show that those on numbers and on quotes are needed."
  },
  {
   "property": "C71",
   "status": "proved",
   "theorems": [
    "Verif.Props.C71_character_tokens",
    "Verif.Props.C71_character",
    "Verif.Props.C71_lifetime_tokens",
    "Verif.Props.C71_lifetime"
   ],
   "note": "The double quote is left out because behind `br#` the tokenizer looks for the next quote anywhere (see C68). The last example shows that the condition on lifetimes is needed."
  },
  {
   "property": "C72",
   "status": "proved",
   "theorems": [
    "Verif.Props.C72_number_tokens",
    "Verif.Props.C72_number",
    "Verif.Props.C72_integer_tokens",
    "Verif.Props.C72_integer",
    "Verif.Props.C72_quoted_tokens",
    "Verif.Props.C72_quoted",
    "Verif.Props.C72_byte_tokens",
    "Verif.Props.C72_byte"
   ],
   "note": "NumText (Spec/Spelling.lean) says what a number is in front of a text. An example shows that the condition on a number directly before is needed."
  },
  {
   "property": "C73",
   "status": "proved",
   "theorems": [
    "Verif.Props.C73_tokens",
    "Verif.Props.C73_result",
    "Verif.Props.C73_ascii"
   ],
   "note": "An example shows two tables that differ, and a text on which they do lead to different results."
  },
  {
   "property": "C74",
   "status": "proved",
   "theorems": [
    "Verif.Props.C74_raw_tokens",
    "Verif.Props.C74_raw",
    "Verif.Props.C74_keyword_tokens",
    "Verif.Props.C74_name_tokens"
   ],
   "note": "Assumes, as C67 does, that what may start a word may also continue one (true of the Unicode tables)."
  },
  {
   "property": "C75",
   "status": "proved",
   "theorems": [
    "Verif.Props.C75_rename_all",
    "Verif.Props.C75_renamed_exists"
   ],
   "note": "Assumes the same of the Unicode tables as C67. The function \u03c6 that says where the places are then is determined on the ends of tokens by the texts of the tokens, which the theorem gives."
  },
  {
   "property": "C76",
   "status": "proved",
   "theorems": [
    "Verif.Props.C76_relaid"
   ],
   "note": "The new text is described by Spec.Relaid. That the exceptions and the condition on quotes are needed is shown at C70."
  },
  {
   "property": "C77",
   "status": "proved",
   "theorems": [
    "Verif.Props.C77_keeping",
    "Verif.Props.C77_accepted",
    "Verif.Props.C77_tokenizer"
   ],
   "note": "Whether the master of `peresil` keeps recorded failures on success influences only the error messages. C77_tokenizer (the same place for lexical errors) is for Unicode tables that are sane on ASCII, the others for all tables."
  },
  {
   "property": "C78",
   "status": "proved",
   "theorems": [
    "Verif.Props.C78_line_ends",
    "Verif.Props.C78_crlf",
    "Verif.Props.C78_quoted"
   ],
   "note": "C78_crlf is the case of turning every line feed into a carriage return and a line feed. C78_quoted shows that the exception is needed. That both are rejected for the same reasons is for a master that forgets failures on success (cl = true). The place of a lexical error is not compared."
  },
  {
   "property": "C79",
   "status": "proved",
   "theorems": [
    "Verif.Props.C79_tiling",
    "Verif.Props.C79_inside",
    "Verif.Props.C79_text"
   ],
   "note": "C79_tiling also says that no piece is empty."
  },
  {
   "property": "C80",
   "status": "proved",
   "theorems": [
    "Verif.Props.C80_source_order",
    "Verif.Props.C80_lists",
    "Verif.Props.C80_begins",
    "Verif.Props.C80_preorder",
    "Verif.Props.C80_one_way_down",
    "Verif.Props.C80_exceptions"
   ],
   "note": "C80_exceptions shows that each of the exceptions occurs."
  }
 ]
}