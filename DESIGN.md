# Formal model of fuzzy-pickles in Lean 4 — design

Subject: the crate `fuzzy-pickles` in `/repo` (tokenizer, recursive-descent parser, whitespace apportioner, derived visitor,
error reporting).  The properties are in `properties.jsonl`, the state of each claim in `MANIFEST.json`, the mutation log in
`seeded/LOG.jsonl`.  The Lean project is in `lean/`; `tools/` has the scripts that wrote the generated modules.

## 1. The model

Every definition cites the lines of `/repo` it models and says where it simplifies.

| Lean module | Code modelled |
|---|---|
| `Text` | `Extent`, `&str` as `List Char` with byte offsets (`Char.utf8Size`), slicing with its panics |
| `Tok` | `src/tokenizer.rs` 10–319: token kinds, keyword and symbol tables, numbers |
| `Lex` | `src/tokenizer.rs` 321–946: every tokenizer function, the iterator `Tokens` |
| `Ast` | `src/ast.rs`: all structs and enums with their fields and types (generated by `tools/mkast.py`) |
| `Point` | `src/parser/mod.rs` 24–172, 478–576: `TokenPoint`, `split`, resuming a split token, `ex` |
| `Comb` | `src/parser/combinators.rs`, the used part of `peresil`, `token`, the ambiguity switch |
| `Shunt` | `src/parser/expression.rs` 14–864: the loop of `expression`, the operator stack |
| `NT`, `Gram`, `Rules`, `Eval` | every parser function of `src/parser/mod.rs` and `src/parser/expression.rs`. `Rules` has one rule per function (generated from `tools/rules.txt`, a transcription by hand); `Gram` gives the meaning of a rule by the combinators of `Comb`; `Eval` ties the recursion and has the operator tables |
| `ParseLoop`, `ParseFile` | `src/lib.rs` 278–345: `extract_whitespace`, the loop over items, `parse_rust_file` |
| `Handled`, `Apportion` | `src/whitespace_apportioner.rs` (`Handled` generated by `tools/mkhandled.py`) |
| `Visit` | `src/visit.rs`, the code generated by `#[derive(Visit)]` (`fuzzy-pickles-derive`), `visit_attributed!` |
| `VisitMut` | `visit_mut` of the same, for any `VisitorMut` |
| `Human` | `src/lib.rs` 255–276: `HumanTextError::new` |
| `Message` | `src/parser/mod.rs` 316–327, `src/tokenizer.rs` 371–382, `src/lib.rs` 246–253, 334: the message of an error; the derived `Debug` and `Ord` of the errors; `BTreeSet` as a list kept in order. Characters that `{:?}` prints as `\u{…}` do not occur in the literals of the tokenizer and are printed as they are |
| `Derive` | `fuzzy-pickles-derive/src/lib.rs` 34–47, 166–322, `src/lib.rs` 178–211: the methods `is_…`, `as_…`, `into_…`, `extent` and indexing with a node, for the enums of `src/ast.rs` (tables generated by `tools/mkderive.py`) |
| `Stats` | `stats/src/main.rs`, `tokenizer/src/main.rs` |
| `Conformance` | the repository's own parser tests (expected extents), run on the model. Tests, not proofs |
| `Rank`, `FirstTable` | tables found by scripts; used only after being checked against the rules by proof |

A Rust panic is an explicit result value (`panic`), and so is a loop that does not end (`hang`).  The parser is a structural recursion
on fuel; C20 shows that the fuel `parse_rust_file` of the model starts with is enough for every text, so fuel is no bound
on the inputs.  Trees are uniform: a struct is a `node` with kind, extent, whitespace and the fields in the order of declaration;
enum variants are `enm` with a payload; `Option` and `Vec` are lists.  C44 shows that every tree of the parser has the types `ast.rs`
declares, so nothing is lost by this.

Not modelled: the program `dump` (it prints trees with `Debug`), options and reading of files in `stats` and `tokenizer`, the `Debug`/`Serialize` derives, and the syntax of `quote!` in the derive crate (the code it generates is modelled).

## 2. Specifications

The theorems are in `Props/`, one file per topic; the words they use are in `Spec/`, apart from the model's functions.

| Module | Words |
|---|---|
| `Spec/Lex` | what strings, raw strings, comments, words, numbers, characters and lifetimes look like as text |
| `Spec/Spelling` | the lexical grammar: how each token is written and what may follow it |
| `Spec/LexError` | the texts at which no token can be read: how far one gets, and what is missing there |
| `Spec/LineEnds` | texts that differ only in carriage returns before line feeds |
| `Spec/Pieces` | the items and the whitespace of a file as pieces of the text |
| `Spec/Order` | values in source order, the structs whose fields are not |
| `Spec/Comb` | what a repeated parser has read |
| `Spec/Grammar` | a declarative reading `den` of grammar expressions: unordered choice, no failures, no fuel |
| `Spec/Tree` | parts of a tree: nodes, extents, whitespace |
| `Spec/Schema` | when a tree has the types of `ast.rs` |
| `Spec/Visit` | what visiting a tree should do |
| `Spec/VisitMut` | what visiting a tree with changes should do |
| `Spec/Stats` | what the program `stats` should say |
| `Spec/Expr` | operators from left to right |
| `Spec/Macro` | balanced tokens |
| `Spec/Head` | struct literals in heads |
| `Spec/Statement` | left edges of statements |
| `Spec/Shape` | trees and tokens without places |
| `Spec/Brackets` | lists of tokens whose brackets match |
| `Spec/Move` | the same token or tree, some bytes further on |
| `Spec/Place` | the same token, tree or result with every place changed by a function; the function for a stretch of text that is replaced |
| `Spec/Renamed` | a text with its names replaced by others |
| `Spec/Relaid` | a text with other white space and comments between its tokens |
| `Spec/Join` | texts that leave no comment or raw byte string open |
| `Spec/Excerpt` | the texts of some items, each followed by a new line |
| `Spec/Syntax` | the concrete syntax of every struct and variant, as a table; which extent a struct has (`Extends`, `Spans`) |
| `Spec/Symbols`, `Spec/Core` | a grammar of Rust as an inductive predicate: symbols, and the tree they mean |

## 3. How each property is proved

Statement, status and theorem names are in `properties.jsonl` and `MANIFEST.json`.  Where a property is false of the code, a theorem
named `…_false` proves that with a witness, and a theorem `…_partial` proves what is true.

| | |
|---|---|
| C01–C04 | invariant of the token iterator: what is read is a non-empty prefix of the text, offsets advance by its byte length (`Proofs/LexBase`, `LexSpec`, `LexTok`, `LexIter`) |
| C05 | false: the iterator repeats an error for ever, for every failing text. Partial: after the end of the file it stays finished |
| C06–C09, C11–C14 | exact characterisation of every tokenizer function against `Spec/Lex`, in both directions for literals (`Proofs/LexComplete`) |
| C10 | false: block comments do not nest. Partial: first `*/` or end of text |
| C15 | induction over the token stream |
| C16, C17 | cases of `split`; invariant that a reachable point can be resumed |
| C18, C27 | invariant `Run` of all combinators, hence of all rules (`Proofs/Run`, `Den`) |
| C19 | false: the extent that ends in a split token is computed from the end of the token before it. Partial: texts whose white space is ASCII (`Proofs/Boundary`, `Props/Slice`) |
| C20 | no left recursion (a rank for every nonterminal, checked against the rules) and every loop consumes (`Proofs/Consume`, `Terminate`); then strong induction on the tokens left. `C20_depth`: depth of recursion is at most linear |
| C21 | conjunction of the no-panic parts: tokenizer, points, extents, shunting yard, item loop, apportioner |
| C22 | false for pattern names and struct-literal fields (empty extents) and for empty lists of bounds. Partial: all other nodes (`Proofs/Nest`, `Solid`) |
| C23 | invariant of the item loop: every item ends at a token boundary (`Proofs/Loop`) |
| C24, C26 | induction over trees: the apportioner takes a sorted map apart (`Proofs/Apportion`) |
| C25 | false for six node kinds and one ignored field. Partial: all others, and exactly those six |
| C28 | invariant of the declarative reading, by ambiguity mode (`Proofs/Head`) |
| C29 | theorem about the shunting yard on arbitrary operators (`Proofs/ShuntDen`), then about every expression of a file |
| C30, C31, C32, C33, C35 | inversion of the combinators and of single rules. C31, C32 and C33 are false in part; the partials state the exact rule the code follows |
| C34 | the nested-token scan, then all macro calls and attributes of a file |
| C36, C37 | the log of failures with the furthest kept |
| C38, C39, C43 | induction over trees (`Proofs/Visit`). C39 false for `Attributed`; C43 false for whitespace of `Attributed` |
| C40 | false on all lines but the first. Partial: exact line, text and column |
| C41 | simulation of two runs of the parser on tokens of the same kinds (`Proofs/Shape`) |
| C42 | invariant of every attributed struct; false for prefix operators, whose extent starts with their attributes |
| C44 | typing of every rule (`Proofs/Typing`), then of the closures `Fn` |
| C45 | forms computed from the rules are compared with the table of `Spec/Syntax`; soundness of the computation (`Proofs/SyntaxEngine`, `Syntax*`) |
| C46 | invariant of the shunting yard in statement mode |
| C47 | completeness. For every construct of the grammar of `Spec/Core`: what is written is read, whatever follows that cannot be mistaken for a continuation. A symbolic interpreter of the rules (`Proofs/Symbolic`) with first sets (`Proofs/First`, `FirstTable`) settles the choices by computation, including that all earlier alternatives fail; `Proofs/Yard` has operators, `Proofs/Core*` the induction |
| C48 | both directions for `singleToken`: each spelling is read, by exclusion of the alternatives tried earlier (`Proofs/LexRec`: no failure is final; `LexNumber`, `LexSpelling`), and what is read is one of the spellings; then induction over the text |
| C49 | C47 and C48 together |
| C50 | every spelling survives a new line after it (`Proofs/LexLines`), then C48 and C41 |
| C51 | part of the concrete syntax: `Spells` says for each struct which extent it has.  False for pattern names, struct-literal fields, tuple struct bodies, prefix operators with attributes and for ends inside split tokens.  Partial: exact otherwise |
| C52 | the furthest token that a run has looked at (`reach`) bounds what its outcome and errors depend on, by induction over grammar and expressions (`Proofs/Local`); then C41 for the tokens before |
| C53 | `visit_mut` for any visitor (`VisitMut`), with a bound on the recursion because the visitor may put in trees; induction over trees of at most that depth (`Proofs/VisitMut`) |
| C54 | C38 (every node left once), C44 (types): by types, statements are nowhere but in blocks, and fields that are not visited hold none (`Proofs/Stats`); C40 for the messages |
| C55 | C01 |
| C56 | the two runs are followed in step: as long as neither looks beyond the token in question, they have the same result and neither has failed there for want of a token of that kind, since the second text has one (`Two`, by induction over grammar, `Proofs/Expect`, `ExpectRules`); the peeked `;` of an empty statement is an exception (`TwoS`) treated where it is called; then C41 for the tokens before |
| C57 | the message is written out for the line of the place (`messageAt`); every error the parser can record is a declared variant (induction over grammar and expression parser, `Proofs/Errors`), so the set printed is the filtered declaration (`PErr.shown`: strictly ascending lists with the same members are the same); the message is read back part by part: digits, lines, names are told apart by the characters they cannot contain (`Human.message_inj`) |
| C58 | methods are looked up by name among those generated, so a collision would show; snake case is read back (`camelCase_snakeCase`), which gives names that differ for all names; the rest by the typing of the tree (C44) and, for the tables of derives and payloads, case analysis over all enums; indexing by C19 |
| C59 | no run leaves the bracket group it is in unless it is the item that ends there (`Proofs/Wall`, `Stay`, `Fence`, over the depth of brackets, `Balanced`); so all failures recorded while an item is read are before its end (`ItemLog`, `ItemEnd`: inversion of the item alternatives), which with the argument of C52 makes items independent of what follows (`Prefix`); nothing depends on what is in front (`Shift`: every combinator commutes with moving the points); the two are put together in `Append`. The brackets have to match: inside a macro or an attribute the parser only counts brackets of one kind |
| C60 | the parser on tokens that are moved goes the same way and gives trees that are moved (`Proofs/Move`, the relation of C41 with equations in place of shapes: every constructor function commutes with moving); the tokens of the text with white space in front are those of the text, moved, by the lexical grammar (C48) and its being unambiguous (`Proofs/Join`); lexical errors by C64, whose conditions do not depend on where a text stands (`Proofs/JoinStop`) |
| C61 | every token of the first text is also a token of the lexical grammar if a new line and more come after what follows it (`spelling_more`, by case analysis over how tokens are spelt; the literal prefixes `r`, `b`, `br` need that what follows is itself spelt); so the tokens of both are those of the first text and those of the second, moved (`spelled_join`; conversely `spelled_unjoin`); then C59's theorem about tokens and C60's |
| C62 | the loop over the items is unfolded into a list of item runs that end outside of all brackets and looked at nothing after their end (`parseItems_runs`, with the lemmas of C59); such a run is the same in the tokens of the excerpt (`Runs.excerpt`: not looking ahead, and starting later); every item ends in one of six kinds of tokens, none of them a period (`rules_last`, over the table of rules); every token is also a token of the lexical grammar if less comes after it, unless that is a single period after a number (`spelling_less`), so the excerpt has the tokens in between (`spelled_excerpt`); then C60's theorem about moving |
| C63 | induction over the chosen items with C61; the brackets of an item match because it starts and ends outside of all brackets (`Matched.between`), and what is left open in its text would be left open in the whole text |
| C64 | for every tokenizer function, the exact set of failures it tries on a text it does not read (`Proofs/LexError`), so that the furthest ones are known for every way of being stuck (`LexStuck`); conversely, a text on which no token is read is stuck in one of these ways (`LexStop`); then induction over the tokens before, with a bound on how far each tokenizer function looks when a token is read after all: not beyond the place where the tokenizer finally stops (`LexReach`, `LexNear`) |
| C65 | the apportioner commutes with moving, and whitespace that no struct has in its extent makes no difference (`Proofs/WsMove`, by induction over the traversal); every struct begins at or after some token of the text and ends, unless it is empty, at or before the end of some token, by the record of the run (`Proofs/WsBounds`: this is where the empty `TraitBounds` would be in the way, and why the second part has its exception); all the tokens of the texts in question, with whitespace and comments, by the lexical grammar (`Proofs/WsJoin`, `spelled_excerpt`) |
| C66 | the tokens are cut at the first and the last token of the items (`filter_cut`); any stretch of tokens between two places outside of all items is a program with the items in between (`segment`, the argument of C62 for any such stretch, as whitespace and comments may come after the last item), with the same whitespace (`segment_whitespace`); then C61 and C65 twice |
| C67 | each kind of token, as `Spelling` says it is written, can be followed by one word as well as by another one, directly or behind other tokens (`spelling_swap`): no word can directly follow a word, lifetime or number; a number looks only whether a word comes behind a period; a literal that starts like a word is not opened or closed by a word (`occurs_swap`); then C41; the places: two runs of the parser over tokens that differ only in their places go the same way, and all they take from a place is an extent's end, at most two bytes into a token that can be cut (`Proofs/Place`, `parseTokens_placed`); the apportioner only compares places, and the order of places is kept (`Proofs/PlaceFile`) |
| C68 | each kind of token, as `Spelling` says it is written, looks no further than the first character of a later string or comment (`spelling_tail`), but for a word that is no raw byte string: that needs a closing quote, which is neither in the new contents nor completed by them (`occurs_swap'`); then the places as for C67, where those up to two bytes inside a comment stay (`replace_token`) |
| C69 | each kind of token, as `Spelling` says it is written, does not look into later white space (`spelling_space`), but for a line comment, which goes on to the newline; the shape by C41, the places as for C67 (`replace_token`): the start of the white space must stay before what is behind it, and the place one or two bytes behind the token before must stay too if the next token may be cut |
| C70 | each kind of token, as `Spelling` says it is written, stays when what comes later is replaced, between two tokens, by something that starts with white space (`spelling_layout`); the tokens of the layout and of what follows it are those that the tokenizer gives for them alone (`layout_split`, `spelled_moved`); the shape by C41 |
| C71 | as C68, by `spelled_tail`: the text behind the tokens before still starts with a tick; that no byte literal comes to be is `Ticks`: either the old text had a character there, or the new one has none |
| C72 | each kind of token, as `Spelling` says it is written, stays when what comes later is replaced by something that starts with a digit too, or with the same `b` or `r` (`spelling_word`); that no raw string before it is closed by the new text is `ClosesIn`; places and shape as in C68 and C70 |
| C73 | the tokenizer's functions that look into the tables do the same from every point whose text has only such characters (`SameLP`), and points only move forward (the specifications of C01 to C14); induction over the tokens |
| C74 | as C72 (`spelling_word`, now for any two heads that are letters); the result by `Place.replace_token` |
| C75 | induction over the tokens, renaming one after the other as in C74; changes of places are composed (`placed_twice`) |
| C76 | induction over `Relaid`, replacing one layout after the other as in C70 (`spelled_layout`); C41 for the result |
| C77 | two runs of the loops of the tokenizer and of `parse_rust_file` side by side; the kept failures are never behind the forgotten ones (`Knows`, `Ahead`); C20 and C21 for the rest; the same place for lexical errors by C64 |
| C78 | the relation `SameLines` is symmetric and can be cut at the ends of tokens; each way to spell a token (`Spelling`) and each way to have none (`NoToken`) carries over; then C48, C64 and C41. `C78_quoted` is the exception: a character literal holding a line feed |
| C79 | an invariant of the grammar (`Snug`): every extent in the values read up to a point is empty or ends before the whitespace in front of that point; so what is in an item ends in the item. With C23 (items cover the tokens), C24 (all whitespace is handed out once) and C25 (what the file keeps starts in no item) the pieces are disjoint and leave nothing out; sorting them gives the chain, and slicing the text along it gives the text back |
| C80 | an invariant of the grammar (`Neat`): everything in the values of a parser function is in order, and the values themselves are too, except for the two functions of the bodies of tuple structs. That each rule of the grammar puts only values in order into lists, variants and structs is a computation over the rules (`rules_tidy`); order of neighbours follows from the points between which they were read. The parts of number tokens are in order by C12; whitespace is put in without changing extents. The three rules of structs with exceptions (`p_struct`, `expr_async_block`, `expr_value_struct_literal_field`) are gone through by hand, so that only the forms named in `unsorted` are exempt. `Leads` (a struct starts no later than what is in it) is part of the invariant; with it the order of a walk through the tree follows by induction on the tree |

The order of alternatives, lookahead and recovery matter for C47 (the parser must not be led astray by an earlier alternative), while
C45 is the other direction: whatever is accepted is spelt as the tree says.

The computations inside these proofs (`decide +kernel`, `rfl` in the kernel) run over the finite table of rules or over one rule and
symbolic input, never over sample texts, except in `example`s and in the witnesses of `…_false`.

## 4. Trusted base

* Lean's kernel.  The axioms of each property theorem are at most `propext`, `Classical.choice` and `Quot.sound`; `Verif/Axioms.lean`
  makes the build fail otherwise.  No own axioms, no `sorry`, no `native_decide` or `bv_decide`.
* The translation from Rust to Lean by hand, and for `Ast`, `Handled` and `Conformance` by scripts that read `/repo` as text.
* `peresil` 0.4.0-alpha is not in the sandbox; its semantics is modelled from its documented behaviour (`alternate`, `optional`,
  `zero_or_more`, `sequence!`, `map_err`, `Failures`, `StringPoint`).  Whether `ParseMaster::finish` forgets failures on
  success is left open: theorems hold for both (`cl`, `cp`), and by C77 nothing but the error messages depends on it.
* The tables of `unicode_xid` are parameters (`Xid`, arbitrary predicates; theorems hold for all; C48–C50 and those built on them
  assume that on ASCII they are the usual letters and digits and that white space is in neither, `Spec.Sane`; C67 also that what can start a word can continue it).  `char::is_digit`, `str::find`, `split_at`,
  `starts_with`, `BTreeMap`/`BTreeSet` behave as documented.
* The code that `#[derive(Visit)]` and `#[derive(ExtentIndex)]` produce is as read from the derive crate.
* Not modelled: overflow of `usize`, running out of memory or of stack (`Nat`, unbounded recursion; see `C20_depth` for the depth).

## 5. Findings

Behaviour of the code that a user would not expect, each proved or shown by a witness in the file named.

* The token iterator never ends after an error (C05); block comments do not nest (C10).
* Extents: of pattern names and struct-literal fields empty (C22, C51); ending in a split token possibly inside a character (C19) or a character early
  (`Vec<Vec<u8 >>`, C51); of an empty
  list of bounds outside its parent (C22); of a tuple struct's body including the where clauses
  and the semicolon beside it (C51).
* Whitespace: six node kinds are passed over (C25), whitespace of `Attributed` is not visited (C43), `Break` there is ignored (C39).
* `{ a; b }` has no value, `b` is a statement (C31), so `stats` counts it, but not the `b` of `{ b }` (C54).  `fn f(a) {}` is accepted as a function without arguments (C33).
* No operator precedence (C29); `1e+5` is two numbers and a plus.
* `if let p = e {}` is read as `if` with a `let` expression as its condition; a block or closure in a head does not lift the restriction
  on struct literals (C28).
* `m!({);` is accepted (C34).  `fn f(self x: u8)`, `<'a T>` are accepted without comma.
* A block comment that is never closed is accepted, so what is appended to such a text vanishes (C61).  A raw byte string that is not closed,
  `br#"a"`, is read as the name `br`, a hash and a string, inside a macro without any error, unless it is closed anywhere later in the text (C61).
* Error columns are off by one on all lines but the first (C40).
* What an error lists as expected is not everything that could come: in `fn f(a: u8 b: u8) {}` no comma is listed.  If the error is in the
  second half of a split token, the place reported is that of the first (C56).
* `struct S(crate::T);` is a field of type `::T` visible in the crate; `Fn(A) -> B + Send` puts `+ Send` to the result.
* `a + ..` is rejected.  In `if a {} else if b {} else {}` the last `else` belongs to the inner `if`.
