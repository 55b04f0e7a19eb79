{"id": "C01", "title": "Tokens tile the source text", "statement": "Whenever tokenizing a text succeeds, the extents of the produced tokens (including whitespace, comments and the final end-of-file token) cover the text exactly: the first starts at byte 0, each starts where the previous one ended, and the last one is the empty end-of-file extent at the text's byte length. Concatenating the slices therefore gives back the source.", "quantifier": "every source text (all Unicode strings) and every choice of the Unicode identifier tables", "why_tests_cant": "Infinitely many texts; a test only shows particular token sequences add up.", "anchors": ["src/tokenizer.rs: Tokens::next", "src/tokenizer.rs: single_token"]}
{"id": "C02", "title": "Tokenizing always makes progress and terminates", "statement": "On every text the token iterator yields after finitely many steps either the end-of-file token or an error; every token other than end-of-file is non-empty and the internal assertion 'Tokenizer did not make progress' never fires.", "quantifier": "every source text", "why_tests_cant": "Termination/progress is a universally quantified statement; a hanging input may be arbitrarily exotic.", "anchors": ["src/tokenizer.rs: Tokens::next", "src/tokenizer.rs: split_point_at_non_zero_offset"]}
{"id": "C03", "title": "Token extents can always be used to slice the text", "statement": "Every token extent (and every sub-extent stored in a number token) produced for a text is a valid byte range of that text whose two ends are UTF-8 character boundaries, so indexing the text with it never panics.", "quantifier": "every source text, every produced token", "why_tests_cant": "Boundary problems only show with particular multi-byte characters at particular places.", "anchors": ["src/tokenizer.rs: single_token", "src/lib.rs: Index<Extent> for str"]}
{"id": "C04", "title": "Tokenizer error locations are usable", "statement": "When tokenizing fails, the reported location is a character boundary, not past the end of the text and not before the end of the last good token; the error list is non-empty.", "quantifier": "every source text on which tokenizing fails", "why_tests_cant": "Needs reasoning about the furthest-failure bookkeeping for all failing inputs.", "anchors": ["src/tokenizer.rs: Tokens::next", "src/tokenizer.rs: ErrorDetail"]}
{"id": "C05", "title": "The token iterator is finite", "statement": "Iterating the public token iterator to exhaustion always ends: after the end-of-file token it yields None, and after an error it also ends. (Actual behaviour: after an error the very same error is produced again and again.)", "quantifier": "every source text, every number of calls to next", "why_tests_cant": "A statement about arbitrarily long call histories.", "anchors": ["src/tokenizer.rs: Tokens::next"]}
{"id": "C06", "title": "Identifiers and keywords are read maximally and classified by their text", "statement": "When the tokenizer yields an identifier or keyword token, its text is a start character (XID_Start or underscore) followed by continue characters (or such a word after r#), the following character cannot continue it, and it is a given keyword token exactly when its text is that keyword; a raw identifier is never a keyword.", "quantifier": "every source text and position at which an identifier or keyword token is produced", "why_tests_cant": "All identifiers over Unicode; maximality concerns the character after the token.", "anchors": ["src/tokenizer.rs: keyword_or_ident", "src/tokenizer.rs: ident_len"]}
{"id": "C07", "title": "Symbols are read by longest match", "statement": "When a symbol token is produced its text is exactly the spelling of that symbol and no longer symbol of the table is a prefix of the remaining text at that position.", "quantifier": "every source text and position at which a symbol token is produced", "why_tests_cant": "Ordering bugs in an ordered-choice lexer show only for specific continuations; the claim is about all of them.", "anchors": ["src/tokenizer.rs: single_token", "src/tokenizer.rs: literal"]}
{"id": "C08", "title": "String literals end at the first unescaped quote", "statement": "A string (or byte string) token consists of the opening quote, a body in which every quote is preceded by an odd-length escape run (scanning left to right, backslash escapes the next character), and the closing quote; nothing after the first unescaped quote is included.", "quantifier": "every source text starting with a (byte) string literal", "why_tests_cant": "Bodies are arbitrary; wrong escape handling shows for unusual runs of backslashes.", "anchors": ["src/tokenizer.rs: string", "src/tokenizer.rs: string_char"]}
{"id": "C09", "title": "Raw strings end at the first quote followed by the right number of hashes", "statement": "A raw (byte) string token with n hashes ends at the first occurrence, after the opening quote, of a quote followed by n hashes.", "quantifier": "every source text starting with a raw string literal, every n", "why_tests_cant": "Unbounded number of hashes and bodies.", "anchors": ["src/tokenizer.rs: string_raw", "src/tokenizer.rs: raw_string_tail"]}
{"id": "C10", "title": "Comments end where Rust says they end", "statement": "A line comment token extends up to, not including, the next newline (or the end of the text). A block comment token ends after the matching */. (Actual behaviour: block comments do not nest; they end at the first */ after the opener, or run to the end of the text when unterminated.)", "quantifier": "every source text starting with a comment", "why_tests_cant": "Comment bodies are arbitrary text; nesting depth is unbounded.", "anchors": ["src/tokenizer.rs: comment_or_doc_comment"]}
{"id": "C11", "title": "Doc comments are told apart from ordinary comments", "statement": "The seven comment forms are classified by their opener exactly: /// but not //// is an outer line doc, //! an inner line doc, other // a plain line comment; /** but neither /*** nor /**/ an outer block doc, /*! an inner block doc, other /* a plain block comment.", "quantifier": "every source text starting with // or /*", "why_tests_cant": "The classification depends on up to four characters followed by arbitrary text.", "anchors": ["src/tokenizer.rs: comment_or_doc_comment"]}
{"id": "C12", "title": "Number tokens: parts are inside the token and in order", "statement": "The integral part, fractional part, exponent and type suffix of a number token lie inside the token's extent in that order without overlapping, the integral part consists of digits of the base or underscores, and the token's extent ends where the last present part ends.", "quantifier": "every source text starting with a number literal", "why_tests_cant": "Combinatorially many literal shapes, unbounded lengths.", "anchors": ["src/tokenizer.rs: number", "src/tokenizer.rs: number_base", "src/tokenizer.rs: number_fractional", "src/tokenizer.rs: number_exponent"]}
{"id": "C13", "title": "Simple numbers are plain decimal digit strings", "statement": "Number::into_simple returns an extent only for a decimal literal whose text is one or more digits 0-9 and nothing else, and then returns the whole token; hence tuple-field access a.0 only accepts such numbers.", "quantifier": "every source text and number token", "why_tests_cant": "Ranges over all number literals.", "anchors": ["src/tokenizer.rs: Number::into_simple", "src/parser/expression.rs: field_name"]}
{"id": "C14", "title": "Character literals versus lifetimes", "statement": "At a single quote, if a well-formed character literal is present (one character or escape followed by a closing quote) a character token is produced and never a lifetime; a lifetime token is produced only if no character literal is present there.", "quantifier": "every source text starting with a single quote", "why_tests_cant": "Ambiguity is resolved by unbounded lookahead over arbitrary text.", "anchors": ["src/tokenizer.rs: character", "src/tokenizer.rs: lifetime", "src/tokenizer.rs: single_token"]}
{"id": "C15", "title": "Separating trivia loses nothing", "statement": "Splitting the token stream into whitespace/comments and significant tokens is a lossless, order-preserving partition: doc comments and end-of-file stay significant, every trivia token is kept exactly once, and merging the two by position gives back the token stream.", "quantifier": "every source text that tokenizes", "why_tests_cant": "Must hold for every interleaving of tokens; the trivia are kept in a map keyed by start offset where a collision would lose one.", "anchors": ["src/lib.rs: extract_whitespace", "src/whitespace_apportioner.rs: WhitespaceApportioner::push"]}
{"id": "C16", "title": "Splitting a compound token yields adjacent pieces that tile it", "statement": "When the parser splits a compound token (<<, >>, >>=, >=, ||, &&) the two pieces are adjacent, non-empty and together cover the remaining part of the token, and each piece's text is the spelling of the token kind it is given.", "quantifier": "every source text and compound token in it, every resume position reachable by the parser", "why_tests_cant": "Ranges over all inputs and resume states.", "anchors": ["src/parser/mod.rs: split", "src/parser/mod.rs: token"]}
{"id": "C17", "title": "Resuming a split token never panics", "statement": "While parsing any token sequence the parser never hits the 'Cannot resume a split token' panic: a partially consumed token is always one whose remainder can be produced.", "quantifier": "every source text that tokenizes, every point reached by the parser, on every branch (including abandoned ones)", "why_tests_cant": "The reachable parse states include all abandoned alternatives on all inputs.", "anchors": ["src/parser/mod.rs: token", "src/parser/mod.rs: split", "src/parser/mod.rs: TokenPoint"]}
{"id": "C18", "title": "Extent computation never panics and is ordered", "statement": "While parsing any text no extent computation panics (no index out of bounds, no 'points are backwards'), and every extent produced satisfies start <= end <= length of the text.", "quantifier": "every source text that tokenizes, every node built on any branch", "why_tests_cant": "All inputs and all abandoned branches.", "anchors": ["src/parser/mod.rs: State::ex"]}
{"id": "C19", "title": "Indexing the text with a node of a successful parse never panics", "statement": "For every successful parse, every extent in the returned tree is a valid, character-aligned slice of the source text. (Known to fail when multi-byte whitespace directly precedes a split >> token.)", "quantifier": "every source text that parses, every extent in the tree", "why_tests_cant": "Depends on multi-byte characters near split tokens; the AST is unbounded.", "anchors": ["src/parser/mod.rs: State::ex", "src/lib.rs: Index<Extent> for str"]}
{"id": "C20", "title": "Parsing terminates on every text", "statement": "parse_rust_file returns (with a tree or an error) on every text: the recursive-descent parser has no left recursion and none of its repetition loops can spin without consuming input.", "quantifier": "every source text", "why_tests_cant": "Non-termination on some input cannot be excluded by running finitely many inputs.", "anchors": ["src/lib.rs: parse_rust_file", "src/parser/mod.rs: item", "src/parser/expression.rs: expression_shunting_yard"]}
{"id": "C21", "title": "Parsing never panics", "statement": "parse_rust_file returns Ok or Err on every text: none of its assertions, unwraps, expects or index operations can fail ('Unable to make progress', 'Did not assign all whitespace', indexing the token vector for the error location, the shunting-yard's empty-result assertion, ...).", "quantifier": "every source text", "why_tests_cant": "Absence of panics over all inputs.", "anchors": ["src/lib.rs: parse_rust_file", "src/parser/expression.rs: ShuntingYard::finish", "src/parser/mod.rs: State::ex"]}
{"id": "C22", "title": "Children's extents lie inside their parent's extent", "statement": "In a successful parse, every node's extent contains the extents of all nodes and raw extents stored below it. (Known to fail for struct-literal fields and pattern names, whose extent is empty.)", "quantifier": "every source text that parses, every node in the tree", "why_tests_cant": "Trees of unbounded size and ~190 node kinds in all combinations.", "anchors": ["src/parser/mod.rs: ext", "src/parser/mod.rs: State::ex", "src/parser/mod.rs: pattern_name", "src/parser/expression.rs: expr_value_struct_literal_field"]}
{"id": "C23", "title": "Top-level items are in source order and leave no token out", "statement": "In a successful parse the top-level items' extents are in source order and disjoint, and every significant token of the text other than end-of-file lies inside exactly one item's extent.", "quantifier": "every source text that parses", "why_tests_cant": "All files; a dropped token between items would be silent.", "anchors": ["src/lib.rs: parse_rust_file"]}
{"id": "C24", "title": "Every piece of whitespace and every comment is attached exactly once", "statement": "After a successful parse the whitespace lists of all nodes in the tree together contain each whitespace or comment token of the text exactly once, and the 'Did not assign all whitespace' assertion cannot fire.", "quantifier": "every source text that parses", "why_tests_cant": "Conservation over unbounded trees and trivia sequences.", "anchors": ["src/whitespace_apportioner.rs: divvy_up", "src/whitespace_apportioner.rs: exit_file", "src/lib.rs: parse_rust_file"]}
{"id": "C25", "title": "Whitespace goes to the innermost node that contains it", "statement": "Each whitespace or comment token is attached to a node whose extent contains it, and no descendant of that node that can hold whitespace has an extent containing it. (Known to fail for the node kinds the apportioner does not handle.)", "quantifier": "every source text that parses, every piece of trivia", "why_tests_cant": "All trees times all trivia positions.", "anchors": ["src/whitespace_apportioner.rs: WhitespaceApportioner", "src/ast.rs"]}
{"id": "C26", "title": "Whitespace lists are in source order", "statement": "The whitespace list of every node of a successful parse is strictly increasing by source position.", "quantifier": "every source text that parses, every node", "why_tests_cant": "All trees.", "anchors": ["src/whitespace_apportioner.rs: divvy_up"]}
{"id": "C27", "title": "Struct-literal ambiguity mode is always restored", "statement": "Parsing any construct, whether it succeeds or fails, leaves the expression-ambiguity mode as it was before, so one item can never change how the next is parsed.", "quantifier": "every source text, every parser function, every starting mode", "why_tests_cant": "The mode is mutable state threaded through all alternatives and failures.", "anchors": ["src/parser/expression.rs: set_ambiguity_level", "src/parser/mod.rs: State"]}
{"id": "C28", "title": "Control-flow heads contain no bare struct literal", "statement": "In a successful parse, the head expression of if, while, for and match contains no struct literal unless it is inside a call argument, index, parenthesis/tuple, array or match arm that lifts the restriction.", "quantifier": "every source text that parses, every control-flow head", "why_tests_cant": "Heads are arbitrary expressions of unbounded depth.", "anchors": ["src/parser/expression.rs: expr_value", "src/parser/expression.rs: head_expression_no_longer_ambiguous", "src/parser/mod.rs: State"]}
{"id": "C29", "title": "Operators build left-to-right trees with operands in source order", "statement": "An expression of atoms joined by infix operators is parsed into the tree that applies the operators strictly left to right, operands appear in source order and none is lost; prefix operators bind tighter than infix ones. (Rust's precedence is deliberately not implemented: a + b * c is (a + b) * c.)", "quantifier": "every sequence of operands, prefix, infix and postfix operators", "why_tests_cant": "Unbounded expression length.", "anchors": ["src/parser/expression.rs: ShuntingYard", "src/parser/expression.rs: expression_shunting_yard"]}
{"id": "C30", "title": "Parenthesised expression versus tuple", "statement": "( e ) parses as a parenthetical exactly when there is one member and no trailing comma; every other parenthesised list is a tuple with all its members in order.", "quantifier": "every source text on which the tuple-or-parenthetical parser succeeds", "why_tests_cant": "Unbounded lists of arbitrary expressions.", "anchors": ["src/parser/expression.rs: expr_tuple_or_parenthetical", "src/parser/combinators.rs: zero_or_more_tailed"]}
{"id": "C31", "title": "A block's trailing expression is its value", "statement": "In a parsed block the final expression is recorded as the block's expression exactly when the last statement is an expression not followed by a semicolon; otherwise the block has no value and all statements are kept in order.", "quantifier": "every source text on which the block parser succeeds", "why_tests_cant": "Unbounded statement lists of arbitrary statements.", "anchors": ["src/parser/mod.rs: block", "src/parser/combinators.rs: zero_or_more_implicitly_tailed_append"]}
{"id": "C32", "title": "Separated lists keep every element and account for trailing separators", "statement": "The separated-list combinators return the elements in order, and report a trailing separator exactly when the last thing consumed was a separator; the number of separators is the number of elements or one less.", "quantifier": "every element parser, every separator parser, every input", "why_tests_cant": "Universally quantified over parsers and inputs.", "anchors": ["src/parser/combinators.rs: zero_or_more_tailed", "src/parser/combinators.rs: one_or_more_tailed", "src/parser/combinators.rs: zero_or_more_implicitly_tailed_terminated"]}
{"id": "C33", "title": "Lists never swallow a partially parsed element", "statement": "If a separated list reports no elements then it consumed no input. (Known to fail: when the first element fails part-way the list succeeds empty at the failure position, so `fn f(a) {}` parses as a function without arguments.)", "quantifier": "every element parser and every input", "why_tests_cant": "Depends on how far an element fails on arbitrary inputs.", "anchors": ["src/parser/combinators.rs: parse_tailed", "src/parser/combinators.rs: zero_or_more_tailed"]}
{"id": "C34", "title": "Macro arguments are balanced in their own bracket kind", "statement": "The token run accepted as macro arguments is a sequence in which the enclosing bracket kind is balanced at every prefix and which is followed by the closing bracket; it never contains end-of-file. (Other bracket kinds inside need not balance: m!({); is accepted.)", "quantifier": "every source text and macro invocation", "why_tests_cant": "Unbounded nesting.", "anchors": ["src/parser/combinators.rs: parse_nested_until", "src/parser/mod.rs: parse_nested_tokens_until"]}
{"id": "C35", "title": "Lookahead and optional parsers do not consume on failure", "statement": "peek never consumes input; optional and zero_or_more succeed at the position before the failing attempt when the inner parser fails recoverably.", "quantifier": "every inner parser and every input", "why_tests_cant": "Universally quantified over parsers.", "anchors": ["src/combinators.rs: peek", "src/combinators.rs: not", "src/parser/mod.rs"]}
{"id": "C36", "title": "Parse errors point at a real token and never move backwards", "statement": "When parsing fails, the reported location is the start of a significant token of the text (possibly end-of-file), hence in bounds and a character boundary, and it is not before the start of the item that failed; the list of expectations is non-empty.", "quantifier": "every source text on which parsing fails", "why_tests_cant": "Furthest-failure bookkeeping over all failing inputs and backtracking histories.", "anchors": ["src/lib.rs: parse_rust_file", "src/parser/mod.rs: ErrorDetail", "src/parser/mod.rs: TokenPoint"]}
{"id": "C37", "title": "The furthest failure wins", "statement": "The reported failure position is the maximum of the positions of all failures recorded since the last reset and the reported kinds are exactly those recorded at that position.", "quantifier": "every sequence of recorded failures", "why_tests_cant": "Arbitrary histories of failures.", "anchors": ["src/lib.rs: parse_rust_file", "src/tokenizer.rs: Tokens::next"]}
{"id": "C38", "title": "Visitor callbacks are well nested and visit each node once in source order", "statement": "Visiting a tree with a visitor that always continues calls visit_x and exit_x exactly once for every visited node, properly nested like parentheses, parents before children, and children in field-declaration order.", "quantifier": "every tree of the AST", "why_tests_cant": "Unbounded trees, ~190 node kinds.", "anchors": ["src/visit.rs: Visit", "fuzzy-pickles-derive/src/lib.rs: impl_visit"]}
{"id": "C39", "title": "Returning Break skips exactly the children", "statement": "When a visitor's visit_x returns Control::Break the children of that node are not visited while its exit_x is still called and its siblings are still visited. (Known to fail for the attributed_* callbacks, whose result is ignored.)", "quantifier": "every tree and every visitor decision function", "why_tests_cant": "All trees times all visitor behaviours.", "anchors": ["src/visit.rs: Control", "src/ast.rs: visit_attributed", "fuzzy-pickles-derive/src/lib.rs"]}
{"id": "C40", "title": "Error line and column are right", "statement": "For a location in the text the displayed line is one plus the number of newlines before it, the shown line is the text line containing the location, and the column is the byte distance from the line start. (Known quirk: the column is one larger on every line but the first because the newline is counted.)", "quantifier": "every text and every character-boundary location", "why_tests_cant": "All texts and positions.", "anchors": ["src/lib.rs: HumanTextError::new"]}
{"id": "C41", "title": "Layout does not change the tree", "statement": "Two texts whose significant tokens have the same kinds in the same order (for numbers: the same base, the same parts, and both or neither with underscores) are both accepted or both rejected, for the same reasons and at the same token; when accepted their trees have the same shape (same node kinds and structure, ignoring extents and whitespace).", "quantifier": "every pair of source texts with equal significant token kinds", "why_tests_cant": "A relation between infinitely many pairs of inputs.", "anchors": ["src/lib.rs: parse_rust_file", "src/parser/mod.rs: token"]}
{"id": "C42", "title": "Attributes attach to the item they precede", "statement": "In an attributed node all attributes lie, in source order, before the value they annotate and inside the attributed node's extent, which starts with the first attribute.", "quantifier": "every source text that parses, every attributed node", "why_tests_cant": "Unbounded number of attributes and all contexts.", "anchors": ["src/parser/mod.rs: attributed", "src/parser/mod.rs: attribute"]}
{"id": "C43", "title": "Visitors see all whitespace and all comments", "statement": "A visitor that always continues sees every piece of whitespace and every comment of a successfully parsed file exactly once. (Known to fail for those attached to an Attributed node, whose whitespace is not visited.)", "quantifier": "every source text that parses", "why_tests_cant": "Unbounded texts and trees; the exception depends on where the apportioner put the comment.", "anchors": ["src/ast.rs: visit_attributed", "src/whitespace_apportioner.rs", "src/visit.rs: Visit"]}
{"id": "C44", "title": "The tree conforms to its declared types", "statement": "Every item of a successfully parsed file, and everything below it, has exactly the fields its struct declares, of the declared types: the right enum variants with the right payloads, at most one value for an Option.", "quantifier": "every source text that parses, every node in the tree", "why_tests_cant": "The Rust type checker guarantees this in the code; in the model it shows that no rule builds a malformed value, for unboundedly many trees.", "anchors": ["src/ast.rs", "src/parser/mod.rs", "src/parser/expression.rs"]}
{"id": "C45", "title": "The tree says which tokens were written", "statement": "The significant tokens of a successfully parsed file, in order and each exactly once (except that >> and other compound operators may be cut into shorter ones), spell its items: every struct and variant stands for exactly its keywords, punctuation and fields in the order Rust writes them, optional parts are present in the tree exactly when they are written, operators, number bases and literal kinds are those of the tokens, and leaf extents are those of the tokens. Only the text of macros and attributes, and tokens after the last element of a list (known defect: some lists skip them), are not spelt out.", "quantifier": "every source text that parses, every struct in the tree", "why_tests_cant": "Unboundedly many trees over about 190 kinds of structs with all combinations of optional parts and list lengths.", "anchors": ["src/parser/mod.rs", "src/parser/expression.rs", "src/ast.rs"]}
{"id": "C46", "title": "Statements that end in a brace are not continued", "statement": "Where a statement may start, an if, match, loop, block or braced macro call ends at its closing brace: nothing on the left edge of an expression statement, or of the value of a block, that ends in a brace is the left operand of an infix operator, range, cast, ascription, call or index. Only a field access (method call) or ? may follow.", "quantifier": "every source text that parses, every block in the tree", "why_tests_cant": "Unboundedly many blocks, statements and chains of operators.", "anchors": ["src/parser/expression.rs: statement_expression", "src/ast.rs: Expression::may_terminate_statement"]}
{"id": "C47", "title": "Programs of ordinary Rust are accepted, with the tree one expects", "statement": "Every text whose significant tokens are a program of an independently given grammar of a large part of Rust (any nesting, any length; >>, && and the like may be written together where two brackets, references or pipes meet) is accepted by parse_rust_file, and the tree has exactly the shape that the grammar gives to the program. The grammar gives a text at most one tree.", "quantifier": "every text written by the grammar", "why_tests_cant": "Unboundedly many programs; a misplaced alternative or lookahead makes only particular combinations fail.", "anchors": ["src/lib.rs: parse_rust_file", "src/parser/mod.rs", "src/parser/expression.rs"]}
{"id": "C48", "title": "The tokenizer reads exactly the lexical grammar", "statement": "For an independently given lexical grammar (for each kind of token: how it is spelt, and what may not follow it because the longest spelling wins), the tokenizer accepts exactly the texts that the grammar spells and returns exactly the tokens and extents the grammar gives; all other texts are rejected with an error.", "quantifier": "every text", "why_tests_cant": "Unboundedly many texts; the interplay of fifteen kinds of tokens with common prefixes (r, b, quotes, slashes, periods after numbers) is decided by the order of alternatives.", "anchors": ["src/tokenizer.rs: Tokens::next", "src/tokenizer.rs: single_token"]}
{"id": "C49", "title": "Program texts of the grammars are accepted", "statement": "Every text spelt by the lexical grammar whose tokens, without white space and comments, are a program of the grammar of C47 is accepted, and the tree has the shape that the grammar gives to the program.", "quantifier": "every text written by the two grammars", "why_tests_cant": "Unboundedly many programs.", "anchors": ["src/lib.rs: parse_rust_file", "src/tokenizer.rs", "src/parser/mod.rs"]}
{"id": "C50", "title": "One token per line", "statement": "Copying every token of a text that is not white space or comment, character by character, to a line of its own gives a text with the same kinds of tokens, which the parser treats in the same way: same tree, or rejection for the same reasons at the same token. So no token needs a particular neighbour to be recognised, and formatters may break lines anywhere.", "quantifier": "every text that the tokenizer accepts", "why_tests_cant": "Any token may depend on what follows it (lookahead for numbers, lifetimes, raw strings, comments); tests try few followers.", "anchors": ["src/tokenizer.rs", "src/lib.rs: parse_rust_file"]}
{"id": "C51", "title": "The extent of a node is exactly its text", "statement": "The extent of every struct in the tree runs from the start of the first token that the struct was read from to the end of the last one, so that indexing the source text with it gives the text of exactly that struct: no token more, no token less, and no white space or comment around it.", "quantifier": "every text that is accepted, every struct in its tree", "why_tests_cant": "Each of the hundred kinds of structs computes its extent at its own place in the parser, from two points that have to be the right ones; the tests compare the extents of a few.", "anchors": ["src/parser/mod.rs:130 State::ex", "src/parser/mod.rs:1455 tuple_struct_definition_body", "src/parser/expression.rs:1367 expr_value_struct_literal_field", "src/parser/expression.rs: ShuntingYard", "src/lib.rs: HasExtent"]}
{"id": "C52", "title": "What comes after a syntax error does not matter", "statement": "If a text is rejected at some token, then every text with the same kinds of tokens up to and including this one is rejected at the same token and for the same reasons, whatever follows. So an error can be shown while the rest of the file is still being typed, fixing something later cannot make it go away, and breaking a valid file never gives an error before the change. The error meant is the furthest failure of the whole file; the parser library may forget failures inside items that were completed, and if it does, the reported error has to be the same as without forgetting.", "quantifier": "all pairs of texts that the tokenizer accepts, with any common beginning up to the error", "why_tests_cant": "Needs that no rule of the grammar, alternative or lookahead uses a token beyond the reported one; tests of errors are about single texts.", "anchors": ["src/parser/mod.rs:74 advance_by", "src/lib.rs:307 parse_rust_file", "src/parser/expression.rs: ShuntingYard", "peresil: ParseMaster::finish"]}
{"id": "C53", "title": "Visitors that change the tree", "statement": "visit_mut goes through the tree exactly as visit does: a visitor that changes nothing sees the same nodes in the same order and leaves the file as it was. A visitor that changes nodes as it leaves them changes every node exactly once, after all the nodes below it, and loses, repeats or moves none of the others. In particular the visitor that attaches whitespace to the nodes does to every node what its exit_ methods say.", "quantifier": "every file, every visitor that changes nothing (with any state), every change made to structs, enums and whitespace in exit_ methods", "why_tests_cant": "visit_mut is generated by a derive macro for every struct and enum, as a second copy of the code of visit; no test compares the two, and the tests use it only through the apportioner.", "anchors": ["fuzzy-pickles-derive/src/lib.rs: visit_mut", "src/visit.rs", "src/whitespace_apportioner.rs", "src/lib.rs:307 parse_rust_file"]}
{"id": "C54", "title": "The statistics count every statement", "statement": "The program stats prints for every file that parses the number of statements in all blocks of the file, however deep they are nested (in functions, closures, constants, types, patterns), each counted once. With --keep-going it reports on every file, in order, whether it parses or not, and never panics; without, it does the same if all files parse, and otherwise stops with the message for the first file that does not.", "quantifier": "all lists of files that can be read, both options", "why_tests_cant": "The count relies on the generated visitor getting to every block through a hundred kinds of nodes, and on the message for an error never panicking; the program has no tests.", "anchors": ["stats/src/main.rs", "fuzzy-pickles-derive/src/lib.rs: visit", "src/lib.rs: HumanTextError", "src/ast.rs: Block"]}
{"id": "C55", "title": "The tokenizer program prints the whole file", "statement": "For a text that can be tokenized, the program tokenizer prints all tokens, numbered from 0, without a panic in slicing, and the texts printed beside them put together are the file.", "quantifier": "every text that can be tokenized", "why_tests_cant": "The slices are taken by byte offsets from the extents of arbitrary tokens of arbitrary Unicode text; the program has no tests.", "anchors": ["tokenizer/src/main.rs", "src/tokenizer.rs: Tokens"]}
{"id": "C56", "title": "What an error says is expected can come there", "statement": "If a text is rejected at a token and the error lists a kind of token as expected, then every text that has tokens of the same kinds in front of that place and a token of the listed kind there, whatever follows, is accepted or rejected only at a later token. The same holds where a number is listed and a plain decimal number is put there. Neither token is one the parser may split (<<, >>, >>=, >=, ||, &&), and the failures recorded for complete items are kept.", "quantifier": "all pairs of texts that can be tokenized, every listed kind of token", "why_tests_cant": "The list is collected from every alternative the parser tried at the furthest place, through backtracking, lookahead and the expression parser; a stale or invented entry shows up only for particular combinations of context and token, and nothing in the code connects the list with what is accepted.", "anchors": ["src/parser/mod.rs: token, ErrorDetail", "src/lib.rs: parse_rust_file", "src/combinators.rs", "src/parser/expression.rs: expression parser"]}
{"id": "C57", "title": "The message of an error says what went wrong and where", "statement": "For every text that is rejected, asking for the message does not panic, and the message names the stage that failed, the number of the line, the column, the line itself and, under \"Expected:\", exactly the errors of the failure: each once, by its own name, in the order of declaration. The message loses nothing of this: if two texts have the same message, they failed in the same stage, at the same place of lines with the same number and text, with the same set of errors.", "quantifier": "all texts, all pairs of texts that are rejected", "why_tests_cant": "The errors pass through a set ordered by a derived order, a derived name and a formatter; duplicate or ambiguous names, characters of the text that read like parts of the message, or a lost error only show for particular failures.", "anchors": ["src/lib.rs: ErrorDetail, WithText, HumanTextError", "src/parser/mod.rs: Error, ErrorDetail::with_text, fmt", "src/tokenizer.rs: Error, fmt"]}
{"id": "C58", "title": "The methods of enums and nodes agree with the tree", "statement": "For every enum in the tree of a parsed file exactly one of its is_ methods is true, and as_ and into_ give the payload, which is of the type declared, for that variant and nothing for all others. No two variants, whatever their names, get methods of the same name. Every enum or struct that has an extent has that of the outermost struct in it, and indexing the source with it is indexing with that extent: without a panic, if white space is ASCII.", "quantifier": "all texts that are parsed, all values in the tree, all variants; all pairs of names", "why_tests_cant": "The methods are generated by a procedural macro for some forty enums and more than two hundred variants; only a few of them are called anywhere, and a collision of generated names or a wrong arm shows only for one of them.", "anchors": ["fuzzy-pickles-derive/src/lib.rs: camelcase_to_snake_case, impl_decompose, impl_has_extent, impl_extent_index", "src/ast.rs: derives", "src/lib.rs: HasExtent, Index<Extent> for str"]}
{"id": "C59", "title": "A program can be appended to another one", "statement": "If a text is accepted and its brackets match, and a second text is appended to it so that no token is changed by this, then the items of the whole are exactly the items of the first text followed by those of the second one; and if the second text is rejected on its own, the whole is rejected with the same set of errors at the same token of the second text. So what is written after a complete program neither changes how it is read nor is read differently because of it.", "quantifier": "all accepted texts with matching brackets, all second texts, all ways to lay out the two together", "why_tests_cant": "The parser backtracks and has lookahead without bound, recovers at closing brackets, keeps an ambiguity flag and a record of the furthest failure across items; whether an item could swallow a part of what follows, or an earlier failure could hide a later one, is a question about every pair of programs.", "anchors": ["src/lib.rs: parse_rust_file", "src/parser/mod.rs: attributed, item, TokenPoint, attribute, macro_rules, nested tokens", "src/parser/expression.rs: expression"]}
{"id": "C60", "title": "Moving a text moves its tree", "statement": "If white space is put in front of a text, then it is accepted exactly if it was before, with the same tree (the whitespace recorded aside) in which every extent, of every node, name and token, is further on by exactly the length of the white space in bytes; if it is rejected by the parser, it is so for the same set of errors, at the place that is further on by that length; if it is rejected by the tokenizer, it still is, with the same set of errors at the place that is further on by that length.", "quantifier": "all texts, all white space, all Unicode tables that are sane on ASCII", "why_tests_cant": "Extents are computed in many ways (from token points, from the sub-token when a token is split, copied from a child, made up of the start of one thing and the end of another, collapsed to a point), and places steer the parser where it compares points; tests always start at byte 0 and compare a few extents.", "anchors": ["src/lib.rs: parse_rust_file, Extent", "src/parser/mod.rs: ex, TokenPoint", "src/parser/expression.rs: apply_one", "src/tokenizer.rs: Tokens"]}
{"id": "C61", "title": "Two texts can be joined by a new line", "statement": "If a text is accepted, its brackets match, and it leaves no block comment and no raw byte string open, then any second text may be put on the next line: the items of both are the items of the first text, unchanged, followed by those of the second text, every extent further on by the length of the first text and one; and if the second text is rejected by the parser, so are both, with the same set of errors, further on by that much; and if it is rejected by the tokenizer, so are both, with the same set of errors, further on by that much, and conversely.", "quantifier": "all accepted texts with the conditions, all second texts, all Unicode tables that are sane on ASCII", "why_tests_cant": "Whether a token of the first text is read differently because of what comes much later depends on unbounded lookahead in the tokenizer (raw strings, comments, numbers, literals with prefixes) and in the parser; two kinds of texts for which it fails were only found by the proof.", "anchors": ["src/lib.rs: parse_rust_file", "src/tokenizer.rs: single_token, byte_string_raw, comment_or_doc_comment", "src/parser/mod.rs: item, attributed"]}
{"id": "C62", "title": "The text of an item is a program", "statement": "Take the text of an accepted program whose brackets match, from the start of the extent of one of its items to the end of the extent of the same item or a later one. This text by itself is accepted, and its items are these items, with every extent moved back by the length of the text before them; in particular the text under the extent of a single item is a program of just that item.", "quantifier": "all accepted texts whose brackets match, all ranges of consecutive items in their trees, all Unicode tables that are sane on ASCII", "why_tests_cant": "An item could depend on what comes after it (the parser tries alternatives that read further, the tokenizer has unbounded lookahead and reads the longest token) or on what was before it (the ambiguity level and the failures kept in the parser's state); tests see few of the combinations.", "anchors": ["src/lib.rs: parse_rust_file", "src/parser/mod.rs: item, attributed, attribute_containing", "src/tokenizer.rs: single_token, number", "src/parser/expression.rs: shunting yard"]}
{"id": "C63", "title": "The items of a program can be rearranged", "statement": "If a program is accepted, its brackets match, and it leaves no block comment and no raw byte string open, then the texts under the extents of any of its items, in any order and with repetitions, each followed by a new line, make an accepted program. It has as many items as were chosen, and each of them is the item that was chosen, the same tree with all extents moved by one distance.", "quantifier": "all accepted texts with the conditions, all lists of their items, all Unicode tables that are sane on ASCII", "why_tests_cant": "There are unboundedly many programs and selections; whether neighbouring items can influence each other is exactly what a sample of programs cannot settle.", "anchors": ["src/lib.rs: parse_rust_file", "src/parser/mod.rs: item, attributed", "src/tokenizer.rs: single_token"]}
{"id": "C64", "title": "A lexical error is where, and says what, the lexical grammar says", "statement": "A text is rejected by the tokenizer exactly if it begins with some tokens of the lexical grammar and goes on with something at which no token can be read: a character that starts nothing, a string that is never closed, `r` and hashes without a quote, a raw string that is never closed, a single quote without a character, an unknown or incomplete escape, or a character literal that is not closed. The error is reported where one gets to in that token (for a string, the end of the text; for a raw string, behind its opening quote; for an escape, behind the backslash), and it names everything that is missing there. If the failures of the tokens before it are dropped when a token is read, it names nothing else; if the parser toolkit keeps them, the place is the same: whatever was tried in vain in the tokens before did not lead further.", "quantifier": "all texts, all Unicode tables that are sane on ASCII, both readings of the external parser toolkit", "why_tests_cant": "The error is the furthest of all the failures of some seventy alternatives, each with its own point of failure; which of them is furthest depends on unboundedly long texts, and a test sees only the message for its sample.", "anchors": ["src/tokenizer.rs: Tokens::next, single_token, character, string, string_raw, lifetime, escaped_char", "src/tokenizer.rs: ErrorDetail"]}
{"id": "C65", "title": "Whitespace and comments stay with the code around them", "statement": "When white space is put in front of an accepted text, the new tree is the old one moved, including every piece of whitespace and every comment recorded in its structs; the pieces recorded in no struct are moved as well, and only the piece of white space at the front is different. When a text is put on the line after an accepted one (with the conditions of C61), every piece is recorded where it is recorded in the two texts, and the white space at the end of the first one, the new line and the white space at the front of the second one become a single piece outside of all structs. When some items are cut out of a program (with the conditions of C62), the excerpt has these items with exactly the same whitespace and comments in them, and outside of them exactly the pieces that the program has between these items. So items can be rearranged (C63) with all their whitespace and comments.", "quantifier": "all accepted texts with the conditions of C60 to C63, all white space in front, all ranges and lists of items, all Unicode tables that are sane on ASCII", "why_tests_cant": "Which struct gets a piece of whitespace depends on the extents of all structs and on the order of the traversal; that nothing outside of an item influences this is a statement about all surroundings of all items.", "anchors": ["src/lib.rs: parse_rust_file, extract_whitespace", "src/whitespace_apportioner.rs: WhitespaceApportioner::divvy_up", "src/tokenizer.rs: whitespace"]}
{"id": "C66", "title": "Editing some items leaves the others alone", "statement": "Take an accepted program whose brackets match and that leaves no block comment and no raw byte string open, and replace the text of some consecutive items of it, from the start of the first to the end of the last one, by another such program (possibly an empty one) on lines of its own. The result is accepted. Its items are: the items before, exactly as they were, with the same extents, whitespace and comments; the items of the new text, moved to where it stands; and the items after, exactly as they were but moved by the difference in length.", "quantifier": "all accepted texts with the conditions, all ranges of consecutive items, all replacement texts with the conditions, all Unicode tables that are sane on ASCII", "why_tests_cant": "An editor that reparses after every change relies on it for every program and every change; tests can only try some.", "anchors": ["src/lib.rs: parse_rust_file, extract_whitespace", "src/parser/mod.rs: item, attributed", "src/whitespace_apportioner.rs: WhitespaceApportioner::divvy_up", "src/tokenizer.rs: single_token"]}
{"id": "C67", "title": "An identifier can be renamed", "statement": "Replace one identifier of a text by another word that is not a keyword and that does not become a raw string, a byte literal or a raw identifier together with what comes behind it. The tokenizer gives the same tokens: those before are as they were, the identifier is one token with its new length, and those after are moved by the difference. If the text was accepted, the new one is, with a tree of the same shape; if it was rejected, the new one is, for the same reasons and at the same token. The result is the same with every place: extents, whitespace and the location of an error before the name are unchanged, and those behind it are moved by the difference of the lengths. If the new name is as long as the old one, the result is the very same.", "quantifier": "all texts that the tokenizer accepts, all identifiers in them, all other words with the conditions, all Unicode tables that are sane on ASCII and in which what can start a word can continue it", "why_tests_cant": "A program that renames things relies on it wherever the name stands, next to numbers, periods, quotes, comments and operators; tests can only try some of these places.", "anchors": ["src/tokenizer.rs: single_token, ident, number, lifetime", "src/lib.rs: parse_rust_file"]}
{"id": "C68", "title": "What is in a string or in a comment does not matter", "statement": "Replace the contents of a string literal by other contents of a string literal that have no quote in them and do not start with a hash, or replace a comment (ordinary or doc, line or block) by another one of the same kind that has no quote in it. The tokenizer gives the same tokens: those before are as they were, the string or comment is one token with its new length, and those after are moved by the difference. The result of parsing is the same with every place: items, whitespace or errors before it are where they were, and those behind it are moved by the difference of the lengths.", "quantifier": "all texts that the tokenizer accepts, all strings or comments in them (for the result of parsing: comments of more than two bytes), all new contents with the conditions, all Unicode tables that are sane on ASCII", "why_tests_cant": "Strings and comments may hold anything, also what looks like comments, strings, items or unbalanced brackets, and may stand next to any token; tests can only try some contents in some places. The conditions on quotes and hashes, needed behind `br#`, are of a kind that tests do not find.", "anchors": ["src/tokenizer.rs: single_token, string, string_char, comment_or_doc_comment", "src/parser/mod.rs: State::ex, TokenPoint", "src/whitespace_apportioner.rs", "src/lib.rs: parse_rust_file"]}
{"id": "C69", "title": "White space can be replaced by other white space", "statement": "Replace a stretch of white space by another non-empty stretch of it (spaces, tabs, line breaks and the two direction marks), which starts with a newline if a line comment is just before it. The tokenizer gives the same tokens: those before are as they were, the white space is one token with its new length, and those after are moved by the difference. If the text was accepted, the new one is, with a tree of the same shape; if it was rejected, the new one is, for the same reasons and at the same token. The result is the same with every place (what is behind the white space is moved by the difference of the lengths), unless the next token, but for comments and more white space, is one that the parser may cut in two (such as `>>`); and also then if the white space was longer than two bytes and has at least two.", "quantifier": "all texts that the tokenizer accepts, all stretches of white space in them, all others with the conditions, all Unicode tables that are sane on ASCII", "why_tests_cant": "A program that lays out code anew relies on it between any two tokens; that white space before `>>` is counted wrongly is found by a test only if it happens to have such a type in it.", "anchors": ["src/tokenizer.rs: single_token, whitespace, comment_or_doc_comment, number", "src/parser/mod.rs: State::ex, TokenPoint", "src/whitespace_apportioner.rs", "src/lib.rs: parse_rust_file"]}
{"id": "C70", "title": "The layout between two tokens can be replaced", "statement": "Between two tokens of a text, what is there of white space and comments, or nothing, is replaced by another layout: a text that starts with white space (with a newline if a line comment is just before), has no quote in it, and has only white space and comments as its tokens in front of what follows. Then the tokens of the new text are those before, those of the layout, and those after, moved; if the text was accepted, the new one is, with a tree of the same shape; if it was rejected, the new one is, for the same reasons and at the same token. So comments can be removed or put in, and white space can be put between any two tokens that had none between them. The one exception is the place behind the period of a number, a period and a name without space between them (`1.f`).", "quantifier": "all texts that the tokenizer accepts, all places between two tokens, all layouts with the conditions, all Unicode tables that are sane on ASCII", "why_tests_cant": "A program that lays out code anew or removes comments relies on it between any two tokens, with any others around them; tests can only try some. Both exceptions, behind `1.` and a quote in a comment behind `br#`, are of a kind that tests do not find.", "anchors": ["src/tokenizer.rs: single_token, number_fractional, whitespace, comment_or_doc_comment, ident", "src/lib.rs: parse_rust_file, extract_whitespace"]}
{"id": "C71", "title": "A character literal or a lifetime can be replaced by another one", "statement": "Replace a character literal of a text by any other character literal but that of the double quote (plain, or with an escape), or a lifetime by any other lifetime, with the condition that a lifetime of one letter does not come to stand directly before a tick. The tokenizer gives the same tokens: those before are as they were, the literal or lifetime is one token with its new length, and those after are moved by the difference. The result of parsing is the same with every place: what lies before is where it was, and what lies behind is moved by the difference of the lengths.", "quantifier": "all texts that the tokenizer accepts, all character literals and lifetimes in them, all new ones with the conditions, all Unicode tables that are sane on ASCII", "why_tests_cant": "Characters and lifetimes start with the same tick and are told apart by what comes up to any number of characters later; tests can only try some pairs, in some places. A lifetime renamed to one letter before a tick does become a character.", "anchors": ["src/tokenizer.rs: single_token, character, character_char, escaped_char, single_char, lifetime", "src/parser/mod.rs: State::ex, TokenPoint", "src/lib.rs: parse_rust_file"]}
{"id": "C72", "title": "A number, byte, byte string or raw string can be replaced by another one", "statement": "Replace a number that is not directly behind another number by any other number that can stand in front of what follows (for decimal integers without suffix: by any other digits), or a byte by another byte, or the contents of a byte string or raw string, with any number of hashes, by others that have no quote in them and do not start with a hash. The tokenizer gives the same tokens: those before are as they were, the literal is one token with its new length and, for a number, with the extents of its parts as the new text has them, and those after are moved by the difference. For bytes and strings the result of parsing is the same with every place; for numbers with the same parts it is the same as to shape: what was accepted is accepted with a tree of the same shape, what was rejected is rejected for the same reasons and at the same token.", "quantifier": "all texts that the tokenizer accepts, all such literals in them, all new ones with the conditions, all Unicode tables that are sane on ASCII", "why_tests_cant": "Which characters belong to a number depends on what stands before and behind it (`1..2`, `1.f`, `0b12`, `1e5`), and letters before a quote may start a literal; tests can only try some neighbours. That `0b1` followed by `2` is two numbers, and `0b11` one, is of a kind that tests do not find.", "anchors": ["src/tokenizer.rs: single_token, number, number_value, number_fractional, number_exponent, byte, byte_string, string_raw, byte_string_raw", "src/parser/mod.rs: State::ex, TokenPoint", "src/lib.rs: parse_rust_file"]}
{"id": "C73", "title": "The Unicode tables matter only at the characters of the text", "statement": "Which characters may start or continue a name is looked up in the tables of another crate, which change from one version of Unicode to the next. Two versions of the tables that say the same about the characters that occur in the text give the same tokens, or the same error of the tokenizer at the same place, and the same result of parsing. In particular the result for a text of ASCII characters does not depend on the version at all.", "quantifier": "all texts, accepted or not, all pairs of tables that agree on the characters of the text; for ASCII texts all pairs of tables that are the usual ones on ASCII", "why_tests_cant": "A test runs with one version of the tables; the claim compares all versions, and all texts.", "anchors": ["src/tokenizer.rs: ident_len, simple_ident, keyword_or_ident, number_fractional, number, lifetime, single_token, Tokens::next", "src/lib.rs: parse_rust_file"]}
{"id": "C74", "title": "Any word can be a name when it is written raw, and words can be exchanged", "statement": "A name in the text can be replaced by `r#v`, where v is any word, also a keyword: it is still one name, all other tokens are as before (those behind it moved), and the result of parsing is the same, at the places where things are in the new text. So a raw name is accepted wherever a name is. More generally, where a name or a keyword stands, another keyword, another name or a raw name may be written, and only that one token changes.", "quantifier": "all texts that the tokenizer accepts, all names and keywords in them, all words, accepted or rejected by the parser, both ways of treating failures on success", "why_tests_cant": "The tests have one raw identifier; the claim is about every place of a name in every text, and whether the tokens before it (numbers, raw strings, comments, words) are still cut as before.", "anchors": ["src/tokenizer.rs: ident_len, keyword_or_ident, single_token, Tokens::next", "src/parser/mod.rs: ident", "src/lib.rs: parse_rust_file"]}
{"id": "C75", "title": "Names can be renamed everywhere at once", "statement": "Take a text that the tokenizer accepts and write, for every name w in it, another name \u03c1(w), where \u03c1 is any function; all other tokens, and the spaces and comments between them, are written as before. If each new name is the old one, or a word that is no keyword and not one of b, r and br, or any word written raw, then the new text has the same tokens, each with the text it should have, at new places; and the result of parsing is the same at the new places: the same tree, or the same errors at the same token.", "quantifier": "all texts that the tokenizer accepts, all functions from names to names with the stated condition, accepted or rejected by the parser", "why_tests_cant": "The claim is about every text and every renaming of all its names; whether some renaming in some context glues two tokens together or splits one cannot be sampled.", "anchors": ["src/tokenizer.rs: single_token, keyword_or_ident, number_fractional, number, Tokens::next", "src/parser/mod.rs: ident", "src/lib.rs: parse_rust_file", "src/whitespace_apportioner.rs: WhitespaceApportioner"]}
{"id": "C76", "title": "A text can be laid out anew", "statement": "The white space and comments of a whole text may be replaced by others at once: between any two tokens, what is there (or nothing) is replaced by white space and comments that start with white space (with a newline behind a line comment) and have no quote in them; or it is left as it is. The tokens other than white space and comments are then the same as before, and so is the result: a tree of the same shape, or the same errors at the same token. The exceptions are that nothing is put directly behind a period, or at the end of the text, where there was nothing. So a formatter that changes spaces, line breaks, indentation and comments anywhere in a file does not change what the file means.", "quantifier": "all texts that the tokenizer accepts, all new layouts with the conditions, accepted or rejected by the parser", "why_tests_cant": "A formatter changes every gap of every file at once; tests can compare some files in some layouts.", "anchors": ["src/tokenizer.rs: single_token, number_fractional, whitespace, comment_or_doc_comment, Tokens::next", "src/lib.rs: parse_rust_file, extract_whitespace"]}
{"id": "C77", "title": "What the parser toolkit remembers matters only for the messages", "statement": "The parser toolkit may keep the failures it has recorded when a token or an item is read with success, or forget them. Whether it does has no influence on which texts are accepted, on the tree and its places, or on whether a text is rejected by the tokenizer or by the parser. If failures are kept, an error is never reported at an earlier place than if they are forgotten; an error of the tokenizer is reported at the same place, and all reasons that would be given otherwise are still given.", "quantifier": "all texts, all tables of letters, all four combinations of keeping and forgetting", "why_tests_cant": "A test runs with one version of the toolkit; the claim compares the outcomes of two behaviours of it on every text.", "anchors": ["src/tokenizer.rs: Tokens::next", "src/lib.rs: parse_rust_file"]}
{"id": "C78", "title": "Line ends make no difference", "statement": "Two texts that differ only in the carriage returns directly before line feeds (as when a file is converted between the line ends of Unix and of Windows) have the same tokens, each with the same characters but for those carriage returns, and give trees of the same shape, or the same syntax errors at the same token; or both are rejected by the tokenizer, for the same reasons. The one exception is a character literal that is written as a line feed between single quotes, which no longer is one with a carriage return in it.", "quantifier": "all texts in which no line feed alone stands between two single quotes, accepted or not; any number of carriage returns before any line feed; all tables of letters that are sane on ASCII", "why_tests_cant": "A line feed may stand in white space, comments, doc comments, strings, escapes, raw strings, and behind any token or any lexical error; tests use one kind of line end in a few places.", "anchors": ["src/tokenizer.rs: whitespace, comment_or_doc_comment, string, string_char, string_raw, character, single_token", "src/lib.rs: parse_rust_file"]}
{"id": "C79", "title": "Items and file whitespace make up the text", "statement": "The extents of the items of an accepted program and of the pieces of whitespace that the file itself holds, put in order, follow on each other from the first byte to the last: every byte of the text is in exactly one of them. All whitespace that was handed out to an item or to something in it lies within the extent of that item.", "quantifier": "all accepted texts; all tables of letters; all master settings", "why_tests_cant": "Whether whitespace ends up in an item or in the file depends on where each nested struct ends, on tokens that are split and on empty lists at the end of an item; tests look at a few layouts.", "anchors": ["src/whitespace_apportioner.rs: WhitespaceApportioner, divvy_up", "src/lib.rs: parse_rust_file", "src/parser/mod.rs: State::ex, attributed item"]}
{"id": "C80", "title": "The tree is in source order", "statement": "In an accepted program the items, the elements of every list in the tree, and the fields of every variant and struct (in the order in which they are declared) are in source order: each of them, with everything inside it, ends before the next one begins. The only exceptions are the fields of `async move` blocks (body before `move`), of tuple structs with where clauses (clauses before the body), of shorthand fields of struct literals (name and value are the same text) and of prefix operators with attributes (the operator takes the attributes into its extent); the lists in them are in order all the same. Every struct, without exception, starts no later than everything in it; so a walk through any part of the tree without these exceptions, structs before their fields, meets extents in the order of their starts. A place of the text is inside at most one of the items, and inside at most one of the elements of a list or the fields of a variant or struct that is no exception.", "quantifier": "all accepted texts; all tables of letters; all master settings; every place in the tree", "why_tests_cant": "The order depends on every rule of the grammar, on the shunting-yard parser and on every closure that rearranges values; tests look at a few trees.", "anchors": ["src/parser/mod.rs: all parsers, zero_or_more_tailed_values, attributed", "src/parser/expression.rs: shunting yard, expr_async_block, expr_value_struct_literal_field", "src/ast.rs: order of the fields"]}
