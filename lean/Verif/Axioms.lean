import Lean.Elab.Command
import Lean.Util.CollectAxioms
import Verif.Props.Append
import Verif.Props.Attr
import Verif.Props.Comb
import Verif.Props.Contents
import Verif.Props.Core
import Verif.Props.Derive
import Verif.Props.Edit
import Verif.Props.Excerpt
import Verif.Props.Expect
import Verif.Props.Expr
import Verif.Props.Forget
import Verif.Props.Forms
import Verif.Props.Head
import Verif.Props.Human
import Verif.Props.Join
import Verif.Props.Layout
import Verif.Props.Lex
import Verif.Props.LexError
import Verif.Props.LineEnds
import Verif.Props.Literal
import Verif.Props.Local
import Verif.Props.Macro
import Verif.Props.Message
import Verif.Props.Nest
import Verif.Props.Number
import Verif.Props.Order
import Verif.Props.Parse
import Verif.Props.Pieces
import Verif.Props.Raw
import Verif.Props.Relaid
import Verif.Props.Rename
import Verif.Props.RenameAll
import Verif.Props.Shape
import Verif.Props.Slice
import Verif.Props.Space
import Verif.Props.Spelling
import Verif.Props.Statement
import Verif.Props.Stats
import Verif.Props.Syntax
import Verif.Props.Tables
import Verif.Props.Tree
import Verif.Props.Visit
import Verif.Props.VisitMut
import Verif.Props.Whitespace
/-!
# The axioms of the property theorems

Written by `tools/mkmanifest.py`.  The build fails when a theorem of `MANIFEST.json` does not exist or depends on any axiom but
`propext`, `Classical.choice` and `Quot.sound`.
-/

open Lean Elab Command in
run_cmd
  for n in [
      ``Verif.Props.C01_tokens_tile,
      ``Verif.Props.C02_terminates,
      ``Verif.Props.C02_no_panic,
      ``Verif.Props.C02_progress,
      ``Verif.Props.C03_token_extents_slice,
      ``Verif.Props.C04_error_location,
      ``Verif.Props.C05_finite_partial,
      ``Verif.Props.C05_false,
      ``Verif.Props.C06_words,
      ``Verif.Props.C07_longest_symbol,
      ``Verif.Props.C08_strings,
      ``Verif.Props.C08_string_read,
      ``Verif.Props.C08_byte_string_read,
      ``Verif.Props.C09_raw_strings,
      ``Verif.Props.C09_raw_string_read,
      ``Verif.Props.C09_raw_byte_string_read,
      ``Verif.Props.C10_comment_end_partial,
      ``Verif.Props.C10_false,
      ``Verif.Props.C11_classified,
      ``Verif.Props.C11_only_comments,
      ``Verif.Props.C12_number_parts,
      ``Verif.Props.C13_into_simple,
      ``Verif.Props.C14_character,
      ``Verif.Props.C14_lifetime,
      ``Verif.Props.C15_partition,
      ``Verif.Props.C15_doc_comments_kept,
      ``Verif.Props.C16_split_tiles,
      ``Verif.Props.C17_resume,
      ``Verif.Props.C17_start,
      ``Verif.Props.C18_extents,
      ``Verif.Props.C18_file_extents,
      ``Verif.Props.C19_slices_partial,
      ``Verif.Props.C19_false,
      ``Verif.Props.C20_terminates,
      ``Verif.Props.C20_C21_total,
      ``Verif.Props.C20_depth,
      ``Verif.Props.C21_no_panic,
      ``Verif.Props.C22_children_inside_partial,
      ``Verif.Props.C22_false_empty,
      ``Verif.Props.C22_false_bounds,
      ``Verif.Props.C23_items_cover,
      ``Verif.Props.C24_all_attached,
      ``Verif.Props.C25_innermost_partial,
      ``Verif.Props.C25_unhandled,
      ``Verif.Props.C25_false_unhandled,
      ``Verif.Props.C25_false_ignored,
      ``Verif.Props.C26_in_order,
      ``Verif.Props.C27_mode_restored,
      ``Verif.Props.C28_heads,
      ``Verif.Props.C29_left_to_right,
      ``Verif.Props.C29_operands,
      ``Verif.Props.C30_paren_or_tuple,
      ``Verif.Props.C31_block_partial,
      ``Verif.Props.C31_false,
      ``Verif.Props.C32_zero_or_more,
      ``Verif.Props.C32_one_or_more_partial,
      ``Verif.Props.C32_false,
      ``Verif.Props.C32_implicit_partial,
      ``Verif.Props.C32_false_implicit,
      ``Verif.Props.C33_empty_list_partial,
      ``Verif.Props.C33_empty_implicit_partial,
      ``Verif.Props.C33_false,
      ``Verif.Props.C34_macro_arguments,
      ``Verif.Props.C34_attribute_text,
      ``Verif.Props.C35_peek,
      ``Verif.Props.C35_optional,
      ``Verif.Props.C35_zero_or_more,
      ``Verif.Props.C36_error_location,
      ``Verif.Props.C37_furthest_wins,
      ``Verif.Props.C38_well_nested,
      ``Verif.Props.C38_each_once,
      ``Verif.Props.C39_break_partial,
      ``Verif.Props.C39_any_visitor,
      ``Verif.Props.C39_attributed_ignored,
      ``Verif.Props.C39_false,
      ``Verif.Props.C40_line_and_column_partial,
      ``Verif.Props.C40_false,
      ``Verif.Props.C40_no_panic,
      ``Verif.Props.C40_caret,
      ``Verif.Props.C41_layout,
      ``Verif.Props.C42_attributes_first_partial,
      ``Verif.Props.C42_false,
      ``Verif.Props.C43_whitespace_visited_partial,
      ``Verif.Props.C43_false,
      ``Verif.Props.C44_conforms,
      ``Verif.Props.C44_structs,
      ``Verif.Props.C45_concrete_syntax,
      ``Verif.Props.C45_fields_once,
      ``Verif.Props.C46_statements_end,
      ``Verif.Props.C47_accepted,
      ``Verif.Props.C47_unambiguous,
      ``Verif.Props.C48_lexical_grammar,
      ``Verif.Props.C48_rejected,
      ``Verif.Props.C48_unambiguous,
      ``Verif.Props.C49_program,
      ``Verif.Props.C50_one_per_line,
      ``Verif.Props.C51_exact_extents_partial,
      ``Verif.Props.C51_false_empty,
      ``Verif.Props.C51_false_tuple,
      ``Verif.Props.C51_false_prefix,
      ``Verif.Props.C51_false_cut,
      ``Verif.Props.C52_rest_does_not_matter,
      ``Verif.Props.C52_error_not_before_change,
      ``Verif.Props.C53_unchanged,
      ``Verif.Props.C53_edits,
      ``Verif.Props.C53_apportioner,
      ``Verif.Props.C54_counts,
      ``Verif.Props.C54_keep_going,
      ``Verif.Props.C54_all_accepted,
      ``Verif.Props.C54_stops,
      ``Verif.Props.C55_tokenizer_prints_the_file,
      ``Verif.Props.C56_expected_can_come,
      ``Verif.Props.C56_number_can_come,
      ``Verif.Props.C56_complete_false,
      ``Verif.Props.C56_compound_false,
      ``Verif.Props.C57_parse_message,
      ``Verif.Props.C57_lex_message,
      ``Verif.Props.C57_no_panic,
      ``Verif.Props.C57_tells,
      ``Verif.Props.C58_is,
      ``Verif.Props.C58_get,
      ``Verif.Props.C58_parsed_get,
      ``Verif.Props.C58_names_differ,
      ``Verif.Props.C58_extent,
      ``Verif.Props.C58_index,
      ``Verif.Props.C59_append,
      ``Verif.Props.C59_accepted_iff,
      ``Verif.Props.C60_indent,
      ``Verif.Props.C61_join,
      ``Verif.Props.C61_open_comment,
      ``Verif.Props.C61_open_raw_bytes,
      ``Verif.Props.C62_excerpt,
      ``Verif.Props.C62_item,
      ``Verif.Props.C63_rearrange,
      ``Verif.Props.C64_reported,
      ``Verif.Props.C64_rejected,
      ``Verif.Props.C65_indent,
      ``Verif.Props.C65_join,
      ``Verif.Props.C65_excerpt,
      ``Verif.Props.C65_rearrange,
      ``Verif.Props.C66_replace,
      ``Verif.Props.C67_rename_tokens,
      ``Verif.Props.C67_rename,
      ``Verif.Props.C67_rename_places,
      ``Verif.Props.C67_rename_same_length,
      ``Verif.Props.C68_string_tokens,
      ``Verif.Props.C68_string,
      ``Verif.Props.C68_comment_tokens,
      ``Verif.Props.C68_comment,
      ``Verif.Props.C69_space_tokens,
      ``Verif.Props.C69_space,
      ``Verif.Props.C69_space_places,
      ``Verif.Props.C69_space_long,
      ``Verif.Props.C70_layout_tokens,
      ``Verif.Props.C70_layout,
      ``Verif.Props.C70_space,
      ``Verif.Props.C71_character_tokens,
      ``Verif.Props.C71_character,
      ``Verif.Props.C71_lifetime_tokens,
      ``Verif.Props.C71_lifetime,
      ``Verif.Props.C72_number_tokens,
      ``Verif.Props.C72_number,
      ``Verif.Props.C72_integer_tokens,
      ``Verif.Props.C72_integer,
      ``Verif.Props.C72_quoted_tokens,
      ``Verif.Props.C72_quoted,
      ``Verif.Props.C72_byte_tokens,
      ``Verif.Props.C72_byte,
      ``Verif.Props.C73_tokens,
      ``Verif.Props.C73_result,
      ``Verif.Props.C73_ascii,
      ``Verif.Props.C74_raw_tokens,
      ``Verif.Props.C74_raw,
      ``Verif.Props.C74_keyword_tokens,
      ``Verif.Props.C74_name_tokens,
      ``Verif.Props.C75_rename_all,
      ``Verif.Props.C75_renamed_exists,
      ``Verif.Props.C76_relaid,
      ``Verif.Props.C77_keeping,
      ``Verif.Props.C77_accepted,
      ``Verif.Props.C77_tokenizer,
      ``Verif.Props.C78_line_ends,
      ``Verif.Props.C78_crlf,
      ``Verif.Props.C78_quoted,
      ``Verif.Props.C79_tiling,
      ``Verif.Props.C79_inside,
      ``Verif.Props.C79_text,
      ``Verif.Props.C80_source_order,
      ``Verif.Props.C80_lists,
      ``Verif.Props.C80_begins,
      ``Verif.Props.C80_preorder,
      ``Verif.Props.C80_one_way_down,
      ``Verif.Props.C80_exceptions] do
    for a in ← liftCoreM (collectAxioms n) do
      unless [``propext, ``Classical.choice, ``Quot.sound].contains a do
        throwError "{n} depends on the axiom {a}"
