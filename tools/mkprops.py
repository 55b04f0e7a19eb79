#!/usr/bin/env python3
"""Writes ../properties.jsonl.  Kept as a script so that the statements stay readable."""
import json, os
P = []
def p(title, statement, quantifier, why, anchors):
    P.append(dict(id="C%02d" % (len(P)+1), title=title, statement=statement,
                  quantifier=quantifier, why_tests_cant=why, anchors=anchors))

p("Tokens tile the source text",
  "Whenever tokenizing a text succeeds, the extents of the produced tokens (including whitespace, comments and the final end-of-file token) cover the text exactly: the first starts at byte 0, each starts where the previous one ended, and the last one is the empty end-of-file extent at the text's byte length. Concatenating the slices therefore gives back the source.",
  "every source text (all Unicode strings) and every choice of the Unicode identifier tables",
  "Infinitely many texts; a test only shows particular token sequences add up.",
  ["src/tokenizer.rs: Tokens::next", "src/tokenizer.rs: single_token"])
p("Tokenizing always makes progress and terminates",
  "On every text the token iterator yields after finitely many steps either the end-of-file token or an error; every token other than end-of-file is non-empty and the internal assertion 'Tokenizer did not make progress' never fires.",
  "every source text",
  "Termination/progress is a universally quantified statement; a hanging input may be arbitrarily exotic.",
  ["src/tokenizer.rs: Tokens::next", "src/tokenizer.rs: split_point_at_non_zero_offset"])
p("Token extents can always be used to slice the text",
  "Every token extent (and every sub-extent stored in a number token) produced for a text is a valid byte range of that text whose two ends are UTF-8 character boundaries, so indexing the text with it never panics.",
  "every source text, every produced token",
  "Boundary problems only show with particular multi-byte characters at particular places.",
  ["src/tokenizer.rs: single_token", "src/lib.rs: Index<Extent> for str"])
p("Tokenizer error locations are usable",
  "When tokenizing fails, the reported location is a character boundary, not past the end of the text and not before the end of the last good token; the error list is non-empty.",
  "every source text on which tokenizing fails",
  "Needs reasoning about the furthest-failure bookkeeping for all failing inputs.",
  ["src/tokenizer.rs: Tokens::next", "src/tokenizer.rs: ErrorDetail"])
p("The token iterator is finite",
  "Iterating the public token iterator to exhaustion always ends: after the end-of-file token it yields None, and after an error it also ends. (Actual behaviour: after an error the very same error is produced again and again.)",
  "every source text, every number of calls to next",
  "A statement about arbitrarily long call histories.",
  ["src/tokenizer.rs: Tokens::next"])
p("Identifiers and keywords are read maximally and classified by their text",
  "When the tokenizer yields an identifier or keyword token, its text is a start character (XID_Start or underscore) followed by continue characters (or such a word after r#), the following character cannot continue it, and it is a given keyword token exactly when its text is that keyword; a raw identifier is never a keyword.",
  "every source text and position at which an identifier or keyword token is produced",
  "All identifiers over Unicode; maximality concerns the character after the token.",
  ["src/tokenizer.rs: keyword_or_ident", "src/tokenizer.rs: ident_len"])
p("Symbols are read by longest match",
  "When a symbol token is produced its text is exactly the spelling of that symbol and no longer symbol of the table is a prefix of the remaining text at that position.",
  "every source text and position at which a symbol token is produced",
  "Ordering bugs in an ordered-choice lexer show only for specific continuations; the claim is about all of them.",
  ["src/tokenizer.rs: single_token", "src/tokenizer.rs: literal"])
p("String literals end at the first unescaped quote",
  "A string (or byte string) token consists of the opening quote, a body in which every quote is preceded by an odd-length escape run (scanning left to right, backslash escapes the next character), and the closing quote; nothing after the first unescaped quote is included.",
  "every source text starting with a (byte) string literal",
  "Bodies are arbitrary; wrong escape handling shows for unusual runs of backslashes.",
  ["src/tokenizer.rs: string", "src/tokenizer.rs: string_char"])
p("Raw strings end at the first quote followed by the right number of hashes",
  "A raw (byte) string token with n hashes ends at the first occurrence, after the opening quote, of a quote followed by n hashes.",
  "every source text starting with a raw string literal, every n",
  "Unbounded number of hashes and bodies.",
  ["src/tokenizer.rs: string_raw", "src/tokenizer.rs: raw_string_tail"])
p("Comments end where Rust says they end",
  "A line comment token extends up to, not including, the next newline (or the end of the text). A block comment token ends after the matching */. (Actual behaviour: block comments do not nest; they end at the first */ after the opener, or run to the end of the text when unterminated.)",
  "every source text starting with a comment",
  "Comment bodies are arbitrary text; nesting depth is unbounded.",
  ["src/tokenizer.rs: comment_or_doc_comment"])
p("Doc comments are told apart from ordinary comments",
  "The seven comment forms are classified by their opener exactly: /// but not //// is an outer line doc, //! an inner line doc, other // a plain line comment; /** but neither /*** nor /**/ an outer block doc, /*! an inner block doc, other /* a plain block comment.",
  "every source text starting with // or /*",
  "The classification depends on up to four characters followed by arbitrary text.",
  ["src/tokenizer.rs: comment_or_doc_comment"])
p("Number tokens: parts are inside the token and in order",
  "The integral part, fractional part, exponent and type suffix of a number token lie inside the token's extent in that order without overlapping, the integral part consists of digits of the base or underscores, and the token's extent ends where the last present part ends.",
  "every source text starting with a number literal",
  "Combinatorially many literal shapes, unbounded lengths.",
  ["src/tokenizer.rs: number", "src/tokenizer.rs: number_base", "src/tokenizer.rs: number_fractional", "src/tokenizer.rs: number_exponent"])
p("Simple numbers are plain decimal digit strings",
  "Number::into_simple returns an extent only for a decimal literal whose text is one or more digits 0-9 and nothing else, and then returns the whole token; hence tuple-field access a.0 only accepts such numbers.",
  "every source text and number token",
  "Ranges over all number literals.",
  ["src/tokenizer.rs: Number::into_simple", "src/parser/expression.rs: field_name"])
p("Character literals versus lifetimes",
  "At a single quote, if a well-formed character literal is present (one character or escape followed by a closing quote) a character token is produced and never a lifetime; a lifetime token is produced only if no character literal is present there.",
  "every source text starting with a single quote",
  "Ambiguity is resolved by unbounded lookahead over arbitrary text.",
  ["src/tokenizer.rs: character", "src/tokenizer.rs: lifetime", "src/tokenizer.rs: single_token"])
p("Separating trivia loses nothing",
  "Splitting the token stream into whitespace/comments and significant tokens is a lossless, order-preserving partition: doc comments and end-of-file stay significant, every trivia token is kept exactly once, and merging the two by position gives back the token stream.",
  "every source text that tokenizes",
  "Must hold for every interleaving of tokens; the trivia are kept in a map keyed by start offset where a collision would lose one.",
  ["src/lib.rs: extract_whitespace", "src/whitespace_apportioner.rs: WhitespaceApportioner::push"])
p("Splitting a compound token yields adjacent pieces that tile it",
  "When the parser splits a compound token (<<, >>, >>=, >=, ||, &&) the two pieces are adjacent, non-empty and together cover the remaining part of the token, and each piece's text is the spelling of the token kind it is given.",
  "every source text and compound token in it, every resume position reachable by the parser",
  "Ranges over all inputs and resume states.",
  ["src/parser/mod.rs: split", "src/parser/mod.rs: token"])
p("Resuming a split token never panics",
  "While parsing any token sequence the parser never hits the 'Cannot resume a split token' panic: a partially consumed token is always one whose remainder can be produced.",
  "every source text that tokenizes, every point reached by the parser, on every branch (including abandoned ones)",
  "The reachable parse states include all abandoned alternatives on all inputs.",
  ["src/parser/mod.rs: token", "src/parser/mod.rs: split", "src/parser/mod.rs: TokenPoint"])
p("Extent computation never panics and is ordered",
  "While parsing any text no extent computation panics (no index out of bounds, no 'points are backwards'), and every extent produced satisfies start <= end <= length of the text.",
  "every source text that tokenizes, every node built on any branch",
  "All inputs and all abandoned branches.",
  ["src/parser/mod.rs: State::ex"])
p("Indexing the text with a node of a successful parse never panics",
  "For every successful parse, every extent in the returned tree is a valid, character-aligned slice of the source text. (Known to fail when multi-byte whitespace directly precedes a split >> token.)",
  "every source text that parses, every extent in the tree",
  "Depends on multi-byte characters near split tokens; the AST is unbounded.",
  ["src/parser/mod.rs: State::ex", "src/lib.rs: Index<Extent> for str"])
p("Parsing terminates on every text",
  "parse_rust_file returns (with a tree or an error) on every text: the recursive-descent parser has no left recursion and none of its repetition loops can spin without consuming input.",
  "every source text",
  "Non-termination on some input cannot be excluded by running finitely many inputs.",
  ["src/lib.rs: parse_rust_file", "src/parser/mod.rs: item", "src/parser/expression.rs: expression_shunting_yard"])
p("Parsing never panics",
  "parse_rust_file returns Ok or Err on every text: none of its assertions, unwraps, expects or index operations can fail ('Unable to make progress', 'Did not assign all whitespace', indexing the token vector for the error location, the shunting-yard's empty-result assertion, ...).",
  "every source text",
  "Absence of panics over all inputs.",
  ["src/lib.rs: parse_rust_file", "src/parser/expression.rs: ShuntingYard::finish", "src/parser/mod.rs: State::ex"])
p("Children's extents lie inside their parent's extent",
  "In a successful parse, every node's extent contains the extents of all nodes and raw extents stored below it. (Known to fail for struct-literal fields and pattern names, whose extent is empty.)",
  "every source text that parses, every node in the tree",
  "Trees of unbounded size and ~190 node kinds in all combinations.",
  ["src/parser/mod.rs: ext", "src/parser/mod.rs: State::ex", "src/parser/mod.rs: pattern_name", "src/parser/expression.rs: expr_value_struct_literal_field"])
p("Top-level items are in source order and leave no token out",
  "In a successful parse the top-level items' extents are in source order and disjoint, and every significant token of the text other than end-of-file lies inside exactly one item's extent.",
  "every source text that parses",
  "All files; a dropped token between items would be silent.",
  ["src/lib.rs: parse_rust_file"])
p("Every piece of whitespace and every comment is attached exactly once",
  "After a successful parse the whitespace lists of all nodes in the tree together contain each whitespace or comment token of the text exactly once, and the 'Did not assign all whitespace' assertion cannot fire.",
  "every source text that parses",
  "Conservation over unbounded trees and trivia sequences.",
  ["src/whitespace_apportioner.rs: divvy_up", "src/whitespace_apportioner.rs: exit_file", "src/lib.rs: parse_rust_file"])
p("Whitespace goes to the innermost node that contains it",
  "Each whitespace or comment token is attached to a node whose extent contains it, and no descendant of that node that can hold whitespace has an extent containing it. (Known to fail for the node kinds the apportioner does not handle.)",
  "every source text that parses, every piece of trivia",
  "All trees times all trivia positions.",
  ["src/whitespace_apportioner.rs: WhitespaceApportioner", "src/ast.rs"])
p("Whitespace lists are in source order",
  "The whitespace list of every node of a successful parse is strictly increasing by source position.",
  "every source text that parses, every node",
  "All trees.",
  ["src/whitespace_apportioner.rs: divvy_up"])
p("Struct-literal ambiguity mode is always restored",
  "Parsing any construct, whether it succeeds or fails, leaves the expression-ambiguity mode as it was before, so one item can never change how the next is parsed.",
  "every source text, every parser function, every starting mode",
  "The mode is mutable state threaded through all alternatives and failures.",
  ["src/parser/expression.rs: set_ambiguity_level", "src/parser/mod.rs: State"])
p("Control-flow heads contain no bare struct literal",
  "In a successful parse, the head expression of if, while, for and match contains no struct literal unless it is inside a call argument, index, parenthesis/tuple, array or match arm that lifts the restriction.",
  "every source text that parses, every control-flow head",
  "Heads are arbitrary expressions of unbounded depth.",
  ["src/parser/expression.rs: expr_value", "src/parser/expression.rs: head_expression_no_longer_ambiguous", "src/parser/mod.rs: State"])
p("Operators build left-to-right trees with operands in source order",
  "An expression of atoms joined by infix operators is parsed into the tree that applies the operators strictly left to right, operands appear in source order and none is lost; prefix operators bind tighter than infix ones. (Rust's precedence is deliberately not implemented: a + b * c is (a + b) * c.)",
  "every sequence of operands, prefix, infix and postfix operators",
  "Unbounded expression length.",
  ["src/parser/expression.rs: ShuntingYard", "src/parser/expression.rs: expression_shunting_yard"])
p("Parenthesised expression versus tuple",
  "( e ) parses as a parenthetical exactly when there is one member and no trailing comma; every other parenthesised list is a tuple with all its members in order.",
  "every source text on which the tuple-or-parenthetical parser succeeds",
  "Unbounded lists of arbitrary expressions.",
  ["src/parser/expression.rs: expr_tuple_or_parenthetical", "src/parser/combinators.rs: zero_or_more_tailed"])
p("A block's trailing expression is its value",
  "In a parsed block the final expression is recorded as the block's expression exactly when the last statement is an expression not followed by a semicolon; otherwise the block has no value and all statements are kept in order.",
  "every source text on which the block parser succeeds",
  "Unbounded statement lists of arbitrary statements.",
  ["src/parser/mod.rs: block", "src/parser/combinators.rs: zero_or_more_implicitly_tailed_append"])
p("Separated lists keep every element and account for trailing separators",
  "The separated-list combinators return the elements in order, and report a trailing separator exactly when the last thing consumed was a separator; the number of separators is the number of elements or one less.",
  "every element parser, every separator parser, every input",
  "Universally quantified over parsers and inputs.",
  ["src/parser/combinators.rs: zero_or_more_tailed", "src/parser/combinators.rs: one_or_more_tailed", "src/parser/combinators.rs: zero_or_more_implicitly_tailed_terminated"])
p("Lists never swallow a partially parsed element",
  "If a separated list reports no elements then it consumed no input. (Known to fail: when the first element fails part-way the list succeeds empty at the failure position, so `fn f(a) {}` parses as a function without arguments.)",
  "every element parser and every input",
  "Depends on how far an element fails on arbitrary inputs.",
  ["src/parser/combinators.rs: parse_tailed", "src/parser/combinators.rs: zero_or_more_tailed"])
p("Macro arguments are balanced in their own bracket kind",
  "The token run accepted as macro arguments is a sequence in which the enclosing bracket kind is balanced at every prefix and which is followed by the closing bracket; it never contains end-of-file. (Other bracket kinds inside need not balance: m!({); is accepted.)",
  "every source text and macro invocation",
  "Unbounded nesting.",
  ["src/parser/combinators.rs: parse_nested_until", "src/parser/mod.rs: parse_nested_tokens_until"])
p("Lookahead and optional parsers do not consume on failure",
  "peek never consumes input; optional and zero_or_more succeed at the position before the failing attempt when the inner parser fails recoverably.",
  "every inner parser and every input",
  "Universally quantified over parsers.",
  ["src/combinators.rs: peek", "src/combinators.rs: not", "src/parser/mod.rs"])
p("Parse errors point at a real token and never move backwards",
  "When parsing fails, the reported location is the start of a significant token of the text (possibly end-of-file), hence in bounds and a character boundary, and it is not before the start of the item that failed; the list of expectations is non-empty.",
  "every source text on which parsing fails",
  "Furthest-failure bookkeeping over all failing inputs and backtracking histories.",
  ["src/lib.rs: parse_rust_file", "src/parser/mod.rs: ErrorDetail", "src/parser/mod.rs: TokenPoint"])
p("The furthest failure wins",
  "The reported failure position is the maximum of the positions of all failures recorded since the last reset and the reported kinds are exactly those recorded at that position.",
  "every sequence of recorded failures",
  "Arbitrary histories of failures.",
  ["src/lib.rs: parse_rust_file", "src/tokenizer.rs: Tokens::next"])
p("Visitor callbacks are well nested and visit each node once in source order",
  "Visiting a tree with a visitor that always continues calls visit_x and exit_x exactly once for every visited node, properly nested like parentheses, parents before children, and children in field-declaration order.",
  "every tree of the AST",
  "Unbounded trees, ~190 node kinds.",
  ["src/visit.rs: Visit", "fuzzy-pickles-derive/src/lib.rs: impl_visit"])
p("Returning Break skips exactly the children",
  "When a visitor's visit_x returns Control::Break the children of that node are not visited while its exit_x is still called and its siblings are still visited. (Known to fail for the attributed_* callbacks, whose result is ignored.)",
  "every tree and every visitor decision function",
  "All trees times all visitor behaviours.",
  ["src/visit.rs: Control", "src/ast.rs: visit_attributed", "fuzzy-pickles-derive/src/lib.rs"])
p("Error line and column are right",
  "For a location in the text the displayed line is one plus the number of newlines before it, the shown line is the text line containing the location, and the column is the byte distance from the line start. (Known quirk: the column is one larger on every line but the first because the newline is counted.)",
  "every text and every character-boundary location",
  "All texts and positions.",
  ["src/lib.rs: HumanTextError::new"])
p("Layout does not change the tree",
  "Two texts whose significant tokens have the same kinds in the same order (for numbers: the same base, the same parts, and both or neither with underscores) are both accepted or both rejected, for the same reasons and at the same token; when accepted their trees have the same shape (same node kinds and structure, ignoring extents and whitespace).",
  "every pair of source texts with equal significant token kinds",
  "A relation between infinitely many pairs of inputs.",
  ["src/lib.rs: parse_rust_file", "src/parser/mod.rs: token"])
p("Attributes attach to the item they precede",
  "In an attributed node all attributes lie, in source order, before the value they annotate and inside the attributed node's extent, which starts with the first attribute.",
  "every source text that parses, every attributed node",
  "Unbounded number of attributes and all contexts.",
  ["src/parser/mod.rs: attributed", "src/parser/mod.rs: attribute"])
p("Visitors see all whitespace and all comments",
  "A visitor that always continues sees every piece of whitespace and every comment of a successfully parsed file exactly once. (Known to fail for those attached to an Attributed node, whose whitespace is not visited.)",
  "every source text that parses",
  "Unbounded texts and trees; the exception depends on where the apportioner put the comment.",
  ["src/ast.rs: visit_attributed", "src/whitespace_apportioner.rs", "src/visit.rs: Visit"])
p("The tree conforms to its declared types",
  "Every item of a successfully parsed file, and everything below it, has exactly the fields its struct declares, of the declared types: the right enum variants with the right payloads, at most one value for an Option.",
  "every source text that parses, every node in the tree",
  "The Rust type checker guarantees this in the code; in the model it shows that no rule builds a malformed value, for unboundedly many trees.",
  ["src/ast.rs", "src/parser/mod.rs", "src/parser/expression.rs"])
p("The tree says which tokens were written",
  "The significant tokens of a successfully parsed file, in order and each exactly once (except that >> and other compound operators may be cut into shorter ones), spell its items: every struct and variant stands for exactly its keywords, punctuation and fields in the order Rust writes them, optional parts are present in the tree exactly when they are written, operators, number bases and literal kinds are those of the tokens, and leaf extents are those of the tokens. Only the text of macros and attributes, and tokens after the last element of a list (known defect: some lists skip them), are not spelt out.",
  "every source text that parses, every struct in the tree",
  "Unboundedly many trees over about 190 kinds of structs with all combinations of optional parts and list lengths.",
  ["src/parser/mod.rs", "src/parser/expression.rs", "src/ast.rs"])
p("Statements that end in a brace are not continued",
  "Where a statement may start, an if, match, loop, block or braced macro call ends at its closing brace: nothing on the left edge of an expression statement, or of the value of a block, that ends in a brace is the left operand of an infix operator, range, cast, ascription, call or index. Only a field access (method call) or ? may follow.",
  "every source text that parses, every block in the tree",
  "Unboundedly many blocks, statements and chains of operators.",
  ["src/parser/expression.rs: statement_expression", "src/ast.rs: Expression::may_terminate_statement"])
p("Programs of ordinary Rust are accepted, with the tree one expects",
  "Every text whose significant tokens are a program of an independently given grammar of a large part of Rust (any nesting, any length; >>, && and the like may be written together where two brackets, references or pipes meet) is accepted by parse_rust_file, and the tree has exactly the shape that the grammar gives to the program.",
  "every text written by the grammar",
  "Unboundedly many programs; a misplaced alternative or lookahead makes only particular combinations fail.",
  ["src/lib.rs: parse_rust_file", "src/parser/mod.rs", "src/parser/expression.rs"])
here = os.path.dirname(os.path.abspath(__file__))
with open(os.path.join(here, "..", "properties.jsonl"), "w") as f:
    for q in P:
        f.write(json.dumps(q, ensure_ascii=False) + "\n")
print(len(P))
