# afmt: formal model in Lean 4

Code under study: /repo (xixiaofinland/afmt, Rust). The model lives in `lean/Verif/`.
Nothing of /repo is built or executed; the model was written by reading the source as text.

## 1. What the program does

`tree-sitter parse -> collect_comments -> enrich (X::new) -> build (Doc) -> pretty_print -> assert_no_missing_comments`,
wrapped in one thread per file (`Formatter::format`) and in a small CLI (`main.rs`).

## 2. Trusted base

* Lean 4.33.0 kernel. Every property theorem depends at most on `propext`, `Classical.choice`, `Quot.sound`
  (printed by `Verif/Axioms.lean`; the list per theorem is in section 6).
* No own axioms, no `sorry`, no `native_decide`, no `bv_decide`, no `unsafe`/`implemented_by`. Only Lean core is imported.
* The correspondence between the Rust text and the Lean definitions (each definition cites file and lines; each
  simplification is stated in its comment). The general simplifications are:
  - `u32`/`usize` arithmetic is modelled by `Nat`. Column/indent overflow is covered by a separate bound theorem (C07);
    the one subtraction that can underflow (`row - 1` in `BodyMember::has_trailing_newline`) is modelled exactly, in both
    the overflow-checked (debug) and wrapping (release) build mode (`Cfg.checks`).
  - `String` is `List Char`; widths are UTF-8 byte counts (`Char.utf8Size`). `to_lowercase`/`to_uppercase` are modelled for ASCII
    (they are applied to keywords and literals only).
  - arena allocation / lifetimes / `Cell<bool>` become pure values; "marked as printed" is a writer log.
  - panics are `Except.error`; stack overflow is an error value as well (fuel), and theorems either hold for every fuel or say
    how much suffices.
  - the hash map from node ids to comment buckets is an association list; only look-ups by key and the final check iterate over it.
* Modelled code: src/doc.rs, src/doc_builder.rs, src/accessor.rs, src/context.rs, src/utility.rs, src/data_model.rs, src/enum_def.rs (every
  `new` and `build_inner`), src/formatter.rs, src/message_helper.rs (snippets), src/args.rs, src/main.rs.
* Not modelled: the tree-sitter parser and the `tree-sitter-sfapex` grammar (not part of /repo). The model quantifies
  over all trees. Where the grammar matters (C15, C19, C41-C45, C49, C51, C52, C54-C62) the theorem has the hypotheses
  - `Parsed root`: facts about every tree tree-sitter returns (parents cover their children, ids are unique, extras are comments, ...),
  - `conforms root`: the tree follows the grammar reconstructed in `Verif/Gram/Grammar.lean` from the accessors used in /repo and from the
    test files. This reconstruction leaves out the constructs whose tokens are known to be lost (section 5).
  Also not modelled: `clap` argument parsing beyond the `conflicts_with` rule, the `toml` syntax (a configuration file is either unreadable, or
  invalid, or a pair of optional numbers), ANSI colouring and the exact text of messages, and the operating system below the file operations of
  `std::fs` (`write` truncates, then writes any number of prefixes; each call may fail).

* Evidence that the model is the program: `validation/` runs the model on all 301 test inputs of the repository
  (`tests/static`, `tests/prettier80`, `tests/comments`), parsed by a stand-in for tree-sitter. All 301 outputs are equal to the expected
  files. 296 of the 301 trees follow the reconstructed grammar, 227 of these have no comments, and on 225 or more of these the further
  hypotheses of C51, C52, C55, C58 and C59 hold (`validation/RESULT.txt`). This is a test and no part of any proof.

## 3. Modules

| module | contents |
|---|---|
| `Text` | Text |
| `Doc` | The document type and the pretty printer (src/doc.rs) |
| `PrinterSem` | Structural semantics of the pretty printer |
| `Builder` | The document builder (src/doc_builder.rs) |
| `PrinterLemmas` | Helper lemmas about the printer |
| `PrinterLemmas2` | More printer lemmas: reachability, columns, output pieces, flat layout |
| `PropsPrinter` | Properties of the layout engine (C03 - C09) and of the list combinators (C12, C13) |
| `Tree` | Syntax trees: the part of the tree-sitter `Node` interface afmt uses, and src/accessor.rs |
| `Comment` | Comments and comment buckets (src/context.rs) |
| `Collect` | Attaching comments to nodes (`collect_comments`, src/utility.rs 151-278) |
| `CollectLemmas` | Lemmas about `collect_comments` |
| `CollectSpec` | What `collect_comments` computes: an independent description of the owner of each comment |
| `PropsCollect` | Properties C14, C15, C16: every comment is attached to exactly one place |
| `Prog` | Document programs |
| `Ast.Basic` | Typed nodes: common definitions |
| `Ast.A1` | src/data_model.rs 24-1142 |
| `Ast.A2` | src/data_model.rs 1144-2061 |
| `Ast.A3` | src/data_model.rs 2061-3826 |
| `Ast.A4` | src/data_model.rs 3828-6094 (queries, value nodes and wrappers) |
| `Ast.A5` | src/enum_def.rs |
| `Ast.Knot` | Tying the knot |
| `Format` | Formatting one source (src/formatter.rs) |
| `Segments` | What is printed: code pieces, comments, and blanks in between |
| `ProgLemmas` | Content of document programs |
| `FormatLemmas` | Facts about `formatTree` |
| `PropsFormat` | End-to-end properties of formatting one tree: C01, C02, C08 - C10, C17, C18 |
| `CommentText` | Text lemmas for comments: trimming, lines, JavaDoc lines |
| `PropsComments` | Properties of comment printing: C20 - C25 |
| `PropsBody` | Members of bodies: C11 |
| `PropsOnce` | Property C19: each comment is printed exactly once |
| `PropsErrors` | Properties C29, C30, C31: sources with syntax errors |
| `Threads` | One thread per file (src/formatter.rs 102-139) |
| `PropsThreads` | Properties C26, C27, C28, C33: worker threads and thread-local state |
| `Cli` | The command line program (src/main.rs, src/args.rs, configuration in src/formatter.rs) |
| `PropsCli` | Properties C34 - C40: the command line program |
| `Gram.Grammar` | Specification: the shape of Apex syntax trees and what they contain |
| `Gram.Lang` | Languages of productions |
| `Gram.Content` | Content of programs compared with content of trees |
| `Gram.Ctx` | Content of a tree, and what is known about comment buckets at a location |
| `Gram.Reach` | Locations of a sane tree: buckets, punctuation |
| `Gram.View` | The children of a node that follows a production |
| `Gram.Wp` | Rules for the constructors |
| `Gram.Tac` | Tactics for the proofs about constructors |
| `Gram.C0` | The printed content of nodes: values and keywords |
| `Gram.C1` | The printed content of nodes: productions read and printed child by child |
| `Gram.C2` | The printed content of nodes: bodies in braces, statements and expressions with frames of their own |
| `Gram.C3` | The printed content of nodes: src/data_model.rs 1144-2061 |
| `Gram.C4` | The printed content of nodes: the remaining declarations and statements |
| `Gram.C5` | The printed content of nodes: src/data_model.rs 2061-3830 |
| `Gram.C6` | The printed content of nodes: queries (src/data_model.rs 3828-6094, src/enum_def.rs 880-1651) |
| `Gram.Choice` | The printed content of nodes: choices (src/enum_def.rs) |
| `Gram.C7` | The printed content of nodes: conditions, clauses and variants of queries (src/data_model.rs 3828-6094 |
| `Gram.C8` | The printed content of nodes: clauses, variants and their wrappers (src/data_model.rs 3828-6094, src/enum_def.rs 880-1651) |
| `Gram.C9` | The printed content of nodes: bodies of queries (src/data_model.rs 4080-4280) |
| `Gram.Main` | The printed content of conforming trees |
| `Gram.Final` | From programs to runs: what formatting a conforming tree does |
| `PropsTokens` | Properties over trees that follow the grammar: C15, C19, C42, C43, C49 |
| `SoqlCond` | Specification for C41: conditions of SOQL queries, their meaning and how they are read |
| `SoqlShow` | What conditions of SOQL queries print (lemmas for C41) |
| `PropsSoql` | Property C41: printed SOQL conditions mean the same |
| `Glue` | Nested unary and update expressions: how their text is read (specification and lemmas for C45) |
| `PropsLoss` | Properties C44 and C45: tokens that are lost, changed or glued together |
| `Chains` | Layout of operator chains and call chains (lemmas for C46 and C47) |
| `PropsChains` | Properties C46 and C47: chains are broken as a unit |
| `PropsCtor` | Property C48: statements of a constructor are indented alike |
| `Skel` | Specification: what the formatter may see of a syntax tree |
| `Shape` | Trees that differ in node ids and positions only (lemmas for C32 and C50) |
| `ShapeTac` | Constructors on trees that differ in ids and positions only: tools |
| `ShapeNew` | Constructors on trees that differ in ids and positions only |
| `ShapeCollect` | The comment map and the printing of trees that differ in ids and positions only |
| `ShapeFormat` | Formatting trees that differ in ids and positions only |
| `PropsShape` | What the result depends on: C32, C50 |
| `Lines.Syms` | Line breaks of the output, counted between visible characters |
| `Lines.Tac` | Line breaks of programs: rules for the abstract machine |
| `Lines.Pass1` | Line breaks of the programs of the constructors: by hand |
| `Lines.Pass2` | Line breaks of the programs of the constructors: by the tactic |
| `Lines.Pass3` | Line breaks of the programs of the constructors: by the tactic |
| `Lines.Pass4` | Line breaks of the programs of the constructors: by the tactic |
| `Lines.Calls` | Line breaks of the programs of all constructors |
| `Reparse` | Specification: the syntax tree of a formatted text |
| `Lines.Frame` | Frames: what conformance says about bodies, constructors and lists of a tree without comments |
| `Lines.Rows` | Rows: the lines of the members of bodies in the formatted text |
| `Lines.Again` | Formatting again: the tree of the formatted text has the same skeleton |
| `Lines.Idem` | The formatted text of a tree without comments |
| `Mono` | A larger stack and missing overflow checks only turn failures into successes |
| `PropsMono` | Build profile and stack: C53 |
| `PropsIdem` | Formatting a formatted text, lines between members: C51, C52 |
| `Words.Mach` | Word boundaries of the output |
| `Words.Tac` | Word boundaries of programs: rules for the abstract machine |
| `Words.Pass1` | Word boundaries of the programs of the constructors: by hand |
| `Words.Pass2` | Word boundaries of the programs of the constructors: by the tactic |
| `Words.Pass3` | Word boundaries of the programs of the constructors: by the tactic |
| `Words.Pass4` | Word boundaries of the programs of the constructors: by the tactic |
| `Words.Calls` | Word boundaries of the programs of all constructors |
| `Words.Segs` | Word boundaries of the printed text |
| `Words.Tree` | What conformance says about operators and constructor calls |
| `PropsWords` | C54: words are neither joined nor split |
| `Trail.Mach` | White space at the ends of lines |
| `Trail.Tac` | White space at the ends of lines: rules for the abstract machine |
| `Trail.Pass1` | Ends of lines in the programs of the constructors: by hand |
| `Trail.Pass2` | Ends of lines in the programs of the constructors: by the tactic |
| `Trail.Pass3` | Ends of lines in the programs of the constructors: by the tactic |
| `Trail.Pass4` | Ends of lines in the programs of the constructors: by the tactic |
| `Trail.Calls` | Ends of lines in the programs of all constructors |
| `Trail.Tree` | What conformance says about grouping, declarators and lookups |
| `Trail.Text` | Texts that are not printed do not matter for the ends of lines |
| `Trail.Calm` | Blanks in a row |
| `PropsTrail` | C55: no line of the formatted text ends with white space |
| `PropsAgain` | C51 with comments and with changed letter case |
| `PlaceSpec` | The places of comments among the names and literals of a program |
| `Gram.Places` | Where the comments of the content are in the source |
| `PropsPlaces` | C56: comments keep their place among names and literals |
| `PropsBlanks` | C58: no two blanks in a row |
| `LevelSpec` | Indentation and nesting |
| `Levels.Text` | Columns of the output |
| `Levels.Sim` | Events of programs and events of trees |
| `Levels.Flat` | Classes of nodes in which no line has to begin |
| `Levels.Base` | Rules for the proofs about the levels of nodes |
| `Levels.Pass1` | Levels of the nodes that end with a body |
| `Levels.Pass2` | Levels of bodies, `if` statements, and nodes that contain several bodies |
| `Levels.Step` | Levels of all nodes |
| `Levels.Final` | The columns of the formatted text |
| `PropsLevels` | C59: the indentation shows the nesting |
| `Notes.Guard` | Line breaks of the program of a conforming tree with comments between members |
| `PropsSettled` | Members and comments between them: C51 and C52 |
| `PropsEnds` | C55 and C58 for trees with comments between members |
| `PropsDangling` | C60: a comment in an empty list does not remove the list |
| `PropsGap` | C61: white space around operators, commas, semicolons and brackets |
| `Width.Printer` | The layout at two widths |
| `Width.Text` | Formatting at two widths |
| `Width.Settle` | The layout at large widths |
| `Width.Notes` | Formatting at two widths, with comments between members |
| `Width.Indent` | The indentation size at great widths |
| `PropsWidth` | The line width |
| `Solo.Spec` | The members of a file, one at a time (specification) |
| `Solo.Tac` | Constructors do not look beyond the member they are called for: tools |
| `Solo.New` | Constructors do not look beyond the member they are called for |
| `Solo.Collect` | Comments of a member do not depend on the other members |
| `Solo.Print` | Documents between hard line breaks are laid out independently |
| `Solo.Lead` | Declarations without comments begin with text |
| `Solo.Whole` | A file is the sum of its members |
| `Solo.Join` | A file is the sum of its members: putting the members together |
| `Solo.Conf` | A member of a file without comments is, alone, again a file that follows the grammar |
| `PropsSolo` | C66: the members of a file are formatted independently |
| `Axioms` | The axioms each property theorem depends on |

## 4. Method per property

Status `partial` with "false" means: the full statement is false of the code, the negation is proved with a witness, and the `_partial` theorem is the strongest true part.

* **C01** max_width never changes the code, only its whitespace. `Prog.build` for any tree and the printer. Induction over programs (the same document text for any width) and over documents (the printer prints the leaves and white space only). Status: proved. Theorems: `C01_max_width_only_whitespace`, `C01_width_only_whitespace_doc`.
* **C02** indent_size never changes the code, only its whitespace. As C01, for two different indent sizes; an indent size of 0 is rejected by the configuration and has its own theorem. Status: proved. Theorems: `C02_indent_size_only_whitespace`, `C02_indent_zero_fails`.
* **C03** The layout engine terminates and loses nothing. `printLoop`/`printStep` model the stack machine of src/doc.rs with fuel. Measure argument for termination, refinement to a structural semantics (`PrinterSem`), induction for the text. Status: proved. Theorems: `C03_terminates`, `C03_prints_all_text`.
* **C04** A construct kept on one line fits the line. `fits` is refined to a structural scan; simulation between scan and printing over all continuations (the look-ahead past the group is covered). Status: proved. Theorems: `C04_kept_line_fits`.
* **C05** A construct that fits is kept on one line. The converse simulation. Status: proved. Theorems: `C05_fitting_group_one_line`.
* **C06** A forced break breaks its own group and only its own group. `scan` distinguishes the group itself from what follows it (`within_group`); both directions. Status: proved. Theorems: `C06_forced_break_breaks_group`, `C06_forced_break_after_group_ignored`.
* **C07** Column tracking is exact. Invariant over every step: the column is the byte width of the text after the last newline, and is bounded by the output length. Status: proved. Theorems: `C07_column_exact`, `C07_column_bounded`.
* **C08** Every line the printer starts is indented by the enclosing indentation. Invariant over every step for pending newlines; at file level: every indentation written is a multiple of indent_size. Status: proved. Theorems: `C08_file_indentation_multiple`, `C08_indentation_exact`, `C08_indentation_multiple`.
* **C09** A line comment never swallows code. Invariant: the document after a line comment starts with a newline before any text; induction over build programs, then over documents. Status: proved. Theorems: `C09_line_comment_never_swallows_code`, `C09_line_comment_ends_line`.
* **C10** Formatted output ends with a newline. Shape of `Root` and the final flush. Status: proved. Theorems: `C10_ends_with_newline`.
* **C11** Body members are separated by one newline, or one blank line exactly where the source had one. Exact model of `has_trailing_newline` in both arithmetic modes, list induction over members, printing of the separator. Row 0 is a counterexample. Status: partial. False for members on the first row of the file (C11_row_zero_false, C11_row_zero_always_wrong); proved for all others, given that the member documents begin with text or a group. Theorems: `C11_blank_lines_partial`, `C11_body_text`, `C11_row_zero_false`, `C11_row_zero_always_wrong`.
* **C12** Lists keep all elements in order with separators only in between. List induction over `intersperse`/`surround`; the panic of `surround` on an empty list is characterised exactly. Status: proved. Theorems: `C12_intersperse`, `C12_surround_nonempty`, `C12_surround_empty`, `C12_surround_panics_iff`.
* **C13** Body blocks put each member on its own line one level deeper. List induction over `surround_body_members` and the printer. Status: proved. Theorems: `C13_body_layout`, `C13_empty_body`.
* **C14** Every comment of the source is attached exactly once. Exact model of the recursive traversal; an independent description of the owner of a comment (`CollectSpec`); conservation by induction over trees. Status: proved. Theorems: `C14_every_comment_attached_once`, `C14_text_kept`, `C14_owner`, `C14_owner_is_near`.
* **C15** Every node the formatter visits has a comment bucket. Bucket coverage by induction over trees; for conforming trees, induction over the grammar that no other node is asked for. Status: proved. buckets exist exactly for the code nodes of every tree (C15_every_code_node_has_bucket); no tree that follows the grammar as reconstructed in Gram/Grammar.lean makes the formatter ask for a missing bucket (C15_no_missing_bucket). Theorems: `C15_every_code_node_has_bucket`, `C15_no_missing_bucket`.
* **C16** Comments attached to a node stay in source order. Order invariant of the traversal; counterexample for comments before and after a punctuation token. Status: partial. false in general: C16_order_can_be_reversed is a counterexample; C16_source_order_partial proves it without it. Theorems: `C16_order_can_be_reversed`, `C16_source_order_partial`.
* **C17** No comment is ever silently lost. Writer log of `build`; marked implies rendered, by induction over all build programs; printing keeps rendered text contiguous; then the final assertion. Status: proved. Theorems: `C17_no_comment_lost`, `C17_comment_text_in_output`.
* **C18** A file that contains only comments can be formatted. For every comment-only tree the result is an error (the property is false); the positive half is the case with code. Status: partial. the property is false of the code: C18_comment_only_file_fails proves that every comment-only file fails. Theorems: `C18_comment_only_file_fails`.
* **C19** Each comment is printed exactly once. Content of programs against content of trees by induction over the grammar (`Gram/*`). Status: partial. false of the code: C19_comment_printed_twice; proved for all trees that follow the grammar with no comment next to the type of a WITH clause (C19_exactly_once_partial). Theorems: `C19_comment_printed_twice`, `C19_exactly_once_partial`.
* **C20** Comment groups print each comment once, in order, and account for it. List induction over the comment handlers. Status: proved. Theorems: `C20_comment_groups`.
* **C21** Punctuation is never swallowed by a comment in front of it. Case analysis of `Punctuation::build_inner` over all buckets. Status: proved. Theorems: `C21_punctuation_not_swallowed`.
* **C22** Line comment text is preserved. Text induction. Status: proved. Theorems: `C22_line_comment_text`.
* **C23** Re-formatting a block comment changes nothing. Text normaliser on strings; idempotence for all strings. Status: proved. Theorems: `C23_reformat_block_comment`.
* **C24** Block comment content is preserved. Content of all lines of the comment, star handling; the JavaDoc star is added (second theorem). Status: proved. Theorems: `C24_block_comment_content`, `C24_javadoc_adds_star`.
* **C25** Blank lines and same-line placement of comments follow the source. Row arithmetic of `CommentMetadata::from` and the handlers' output. Status: proved. Theorems: `C25_rows`, `C25_after_comments_layout`, `C25_collected_proper`.
* **C26** format() returns one result per file under every schedule. Workers and main thread as a transition system; induction over all schedules. Status: proved. Theorems: `C26_one_result_per_file`, `C26_schedule_independent`, `C26_terminates`.
* **C27** format() returns results in the order of the input files. The same transition system; any permutation is reached by some schedule. Status: partial. false of the code: C27_any_order_possible shows every order of results is returned by some schedule; holds for a single file, which is all the CLI uses. Theorems: `C27_any_order_possible`, `C27_single_file_partial`.
* **C28** One bad file does not affect the others. The same transition system with panicking workers; stack overflow aborts the process. Status: partial. holds whenever format returns; false for stack overflow (C28_stack_overflow_kills_batch). Theorems: `C28_isolation_partial`, `C28_stack_overflow_kills_batch`.
* **C29** A source with a syntax error is never formatted. `has_error` on trees, `Formatter::format_one`, then through threads and CLI. Status: proved. Theorems: `C29_syntax_error_never_formatted`, `C29_format_one`, `C29_only_errors_rejected`, `C29_format_yields_err`, `C29_write_leaves_file`.
* **C30** The reported error location is a real, innermost error. Recursion of `find_last_error_node` against an independent description of innermost errors. Status: proved. Theorems: `C30_last_innermost_error`.
* **C31** Error snippets are safe to produce. Byte offsets of characters; slicing inside a character is a panic. Status: partial. false of the code when a character straddles byte 80 (C31_straddling_character_panics); exact behaviour proved for all texts, safe for ASCII. Theorems: `C31_truncate_snippet_partial`, `C31_ascii_safe`, `C31_straddling_character_panics`.
* **C32** Formatting is a function of source and configuration. Special case of C50 (same skeleton, other ids) for ids; for the map order the same equivariance with the identity on the tree and a permuted comment map. Status: proved. for trees with distinct node ids (tree-sitter guarantees this). Theorems: `C32_ids_irrelevant`, `C32_map_order_irrelevant`.
* **C33** Thread-local state can be set once. State machine of the two thread-local `Cell<Option<&'static _>>` with their `is_some` panics. Status: proved. Theorems: `C33_once_per_thread`, `C33_first_write_wins`.
* **C34** --check never writes and reports exactly equality. CLI as a state transformer on an abstract file system with failure oracles. Status: proved. Theorems: `C34_check`, `C34_check_conflicts_with_write`.
* **C35** Without --write nothing is written. The same. Status: proved. Theorems: `C35_dry_run`, `C35_never_writes`.
* **C36** --write replaces the file by the formatted text or leaves it alone. The same. Status: proved. Theorems: `C36_write`.
* **C37** --write survives a crash. The same with crash points inside `fs::write`. Status: partial. false of the code: C37_crash_loses_file; C37_crash_content_partial says what is left after a crash at any point. Theorems: `C37_crash_loses_file`, `C37_crash_content_partial`.
* **C38** A file that passes --check is left byte-identical by --write. The same, composing two runs. Status: proved. Theorems: `C38_check_then_write`.
* **C39** Exit code tells success. The same, exit code and messages. Status: proved. Theorems: `C39_exit_code`.
* **C40** Configuration defaults and errors. The same, configuration reading. Status: proved. Theorems: `C40_defaults`, `C40_overrides`, `C40_bad_config_fails_first`.
* **C41** SOQL conditions keep their meaning. Specification: conditions, truth values, and an unambiguous grammar for reading printed tokens (`SoqlCond`). Induction over the condition: the printed tokens are read back only as a condition of the same meaning. Status: partial. Proved for all conditions, all truth assignments and every reading of the printed tokens, except a NOT directly inside a NOT; there the property is false (C41_double_negation_unreadable). Connectives with dangling comments are excluded. Theorems: `C41_same_meaning_partial`, `C41_double_negation_unreadable`.
* **C42** SOQL condition construction terminates. Fuel of the mutually recursive constructors bounded by the depth of the tree, for conforming trees. Status: proved. proved for trees that follow the grammar as reconstructed in Gram/Grammar.lean; for any other kind of node the constructors recurse forever (C42_other_kinds_never_terminate). Theorems: `C42_conditions_terminate`, `C42_other_kinds_never_terminate`.
* **C43** Code tokens are preserved. Characters of the printed code compared with the characters of the tree, by induction over the grammar for all constructors; counterexamples are whole files. Status: partial. proved for all trees of the grammar in Gram/Grammar.lean, which leaves out the constructs known to lose or change tokens (C44 and findings in DESIGN.md). Theorems: `C43_for_updates_lost`, `C43_empty_consequence_doubled`, `C43_modifiers_reordered`, `C43_qualified_super_dot_lost`, `C43_code_preserved_partial`, `C43_tokens_preserved_partial`, `C43_source_preserved_partial`.
* **C44** Known token losses. Counterexamples are whole files; positive theorem through C43 for the named node kinds. Status: partial. false of the code: six constructs lose tokens (C44_*_lost); proved for every such node in trees of the grammar, which leaves exactly these constructs out. Theorems: `C44_otherwise_printed_partial`, `C44_enhanced_for_modifiers_lost`, `C44_declarator_dimensions_lost`, `C44_method_dimensions_lost`, `C44_annotation_parentheses_lost`, `C44_query_scope_lost`, `C44_query_update_lost`.
* **C45** Adjacent tokens are not glued into another token. Specification of maximal munch lexing; exact characterisation of nested unary and update expressions. Status: partial. false of the code for a sign before the same sign (C45_minus_minus); C45_read_back_partial characterises exactly which nestings are read back unchanged. Theorems: `C45_read_back_partial`, `C45_minus_minus`.
* **C46** Method chains break as a unit. Documents are expanded to rows of chunks at one indentation and in one mode (`ExpandsTo`); induction over chains along the receivers. Status: partial. Proved: at most one access of a chain opens a group, which one, and that all dots of a chain ending in a dot access break together. False for chains that end in an array access or stand in an array index (C46_no_group, C46_array_access_broken). Theorems: `C46_group_iff`, `C46_one_group`, `C46_break_together_partial`, `C46_no_group`, `C46_array_access_broken`.
* **C47** Binary operator chains of one precedence level share one layout group. As C46, induction over nested binary expressions; the precedence table is compared with independently written levels over all operators of the grammar. Status: proved. Theorems: `C47_group_iff`, `C47_break_together`, `C47_operators_have_precedence`.
* **C48** Statements of a constructor are indented alike. As C46, for the body of a constructor. Status: partial. The layout of every constructor body is proved (C48_layout). The claim holds without a blank line after the call (C48_indented_alike_partial) and is false with one (C48_blank_line_outdents, C48_outdented_file). Theorems: `C48_layout`, `C48_indented_alike_partial`, `C48_blank_line_outdents`, `C48_outdented_file`.
* **C49** Formatting a well-formed program does not panic. Induction over the grammar: every constructor succeeds on conforming children; the remaining failures are listed. Status: proved. for the grammar in Gram/Grammar.lean. Theorems: `C49_only_these_failures`, `C49_comment_free_succeeds`.
* **C50** Layout of the source does not influence the result. `Verif/Skel.lean` is the specification: a tree without ids, rows, bytes and the texts of inner nodes. Two trees with the same skeleton and distinct ids are images of each other under a renaming of positions by id (`exists_renaming`). Every constructor (`step_ren`, one lemma per constructor in ShapeNew.lean), `collect_comments`, `Prog.build` and the check for lost comments commute with such renamings. Corollaries: moving rows and columns (`C50_positions`), leading empty lines. The row-0 flag of the skeleton depends on the build profile: with overflow checks it says that the build panics, without that a blank line is printed. Words whose letters are printed in lower or upper case (Apex literals, some SOQL words) are part of the skeleton up to letter case only (`lettersOf`). Comments are part of the skeleton only through the lines in which they are printed (`drawnLines`): every comment of the map comes from an extra node (ShapeFrom.lean), its document depends on these lines only, and comments of trees with distinct ids can be told apart, so that the check for lost comments gives the same answer. Status: proved. for trees with distinct node ids; the skeleton is Verif/Skel.lean. Theorems: `C50_only_the_skeleton_matters`, `C50_failures_too`, `C50_positions`, `C50_leading_empty_lines`.
* **C51** Formatting is idempotent. Specification: Verif/Reparse.lean (`alike`, `placed`). `Lines/` runs the printed document symbolically: `layout_fits`/`root_run` give the line breaks between members (`format_lined`), so the tree of the formatted text has the same skeleton (`skeleton_again`) in the release profile and no member in the first row; C50 gives the same text, C53 transfers it between profiles and stacks. `C51_comment_not_idempotent` (PropsAgain.lean) exhibits a source with a comment, its tree, and the tree of the formatted text; `ofText` checks that the trees are trees of these texts. With comments between members (`C51_idempotent_with_comments_partial`, PropsSettled.lean): `format_linedN` (see C52) gives the rows of members and comments in the formatted text; Notes/Again.lean compares the rows around every member and comment in the two trees (`Link`, `arounds_run`) and the printed lines of the comments (`drawn_again`, by the stability of comments, C23), so the skeletons are equal again. Status: partial. For trees that follow the grammar of Gram/Grammar.lean and have no comments (C51_idempotent_partial) or only comments in bodies, in lines of their own or at the end of the last line of a member, not in the first line (C51_idempotent_with_comments_partial). False with comments elsewhere (C51_comment_not_idempotent, C51_comma_not_idempotent). Missing: harmless comments inside statements and declarations, token-losing constructs, the parser. Theorems: `C51_comment_not_idempotent`, `C51_comma_not_idempotent`, `C51_idempotent_partial`, `C51_idempotent_with_comments_partial`.
* **C52** Members of bodies are separated by one line break or one blank line. Specification: `lined` in Verif/Reparse.lean, in terms of line numbers of visible characters of the text. A pass over all constructors (Lines/Pass1-4) shows where hard line breaks stand in the content of each program; `cont_lined` relates it to the grammar. With comments (PropsSettled.lean): the specification is `settled`/`linedN` in Verif/Settled.lean. Notes/Blocks and Notes/Owners show to which members the collector attaches the comments of a settled tree, Notes/Pass1-4 and Notes/Guard run all constructors with the roles of these comments, Notes/Rows, Body and Lined compute the line breaks between the printed members and comments, Notes/Done puts it together. Status: partial. For trees that follow the grammar of Gram/Grammar.lean and have no comments, and with C52_members_and_comments_lined_partial for those whose comments are in bodies, in lines of their own or at the end of the last line of a member (settled). Missing: comments elsewhere (inside statements and declarations), token-losing constructs. Theorems: `C52_members_lined_partial`, `C52_members_and_comments_lined_partial`.
* **C53** Build profile and stack do not influence the text. `Below x y` (a success of `x` is a success of `y` with the same value): every constructor is monotone in the constructors it calls and in the profile (Verif/Mono.lean, one lemma per constructor), induction over the depth. `C53_checks_irrelevant`: the renaming theorem of C50 with the identity, between profiles. `C53_one_line_class` shows that the hypothesis is needed. Status: proved. Theorems: `C53_more_stack_fewer_checks`, `C53_one_text`, `C53_checks_irrelevant`, `C53_one_line_class`.
* **C54** Words are neither joined nor split. An abstract machine over programs with the states `between words`, `within a word`, `two words have met` (Words/Mach.lean). Every constructor gets a type: the largest state in which its text may begin and the state in which it ends, proved for all constructors (Words/Pass1-4, Words/Calls). Soundness of the machine for documents, comments and the printer: Words/Segs.lean. Facts on operators and constructor calls come from the grammar (Words/Tree.lean). The specification (`wordsOf`, `leaves`) is separate from the model. Status: partial. proved for all trees of the grammar in Gram/Grammar.lean, with and without comments; the full statement is false (C54_object_super_joined). Theorems: `C54_words_kept_partial`, `C54_words_partial`, `C54_letters_partial`, `C54_source_words_partial`, `C54_object_super_joined`.
* **C55** No line of the formatted text ends with white space. An abstract machine over programs that tracks whether the text so far ends with white space and whether a line break may come next (Trail/Mach.lean). Every constructor gets a type (whether its text begins or ends with white space), proved for all constructors (Trail/Pass1-4, Trail/Calls); facts on the children come from the grammar (Trail/Tree.lean, `frameKinds`). `layout_inner` is the soundness for documents and the printer. The specification (`tidyEnds`, `crisps`, `updates`) is separate; `tidyEnds_iff` restates it in terms of positions. With comments between members: the same for a machine with one more state, after a comment whose line break is pending (Ends/Mach.lean), with the symbols of Notes/Syms.lean; the types are proved again for all constructors (Ends/Pass1-4, Calls), with comments among the children; texts that are not printed are replaced first (Ends/Mend.lean, C50). Status: partial. Proved for all trees of the grammar in Gram/Grammar.lean whose `for` statements have an update and whose comments, if any, are between members, have no empty lines and do not follow a lone explicit constructor call; the full statement is false without the update (C55_for_header_trails), for comments in other places (C55_block_comment_trails), with empty lines (C55_comment_line_trails) or after such a call (C55_call_comment_trails). Theorems: `C55_no_trailing_white_space_partial`, `C55_for_header_trails`, `C55_block_comment_trails`, `C55_no_trailing_white_space_with_comments_partial`, `C55_comment_line_trails`, `C55_call_comment_trails`.
* **C56** No comment is moved across a name or literal. The specification (PlaceSpec.lean) lists the visible characters and comments of the source in order. The content of a tree (Gram/Ctx.lean) has every comment at the node that owns it; the proof of every constructor (Gram/C0-C9, Main) shows that the comments of the program built keep the number of name characters before them (`spots`), and `kept_place` (Gram/Places.lean) compares the content with the source via the owners of C03. The printed text is cut into blanks, code and comments as in C42. Status: partial. Proved for all trees of the grammar in Gram/Grammar.lean with comments in all positions but directly after the field list of an object in a RETURNING clause, where the full statement is false (C56_comment_moved_behind_names). Theorems: `C56_comments_keep_their_place_partial`, `C56_no_name_crossed_partial`, `C56_comment_moved_behind_names`.
* **C57** Comments are printed directly beside the code they belong to. As C56, with all visible characters counted: the comments marked `firm` in the content of a tree keep their place among all characters in every constructor (`firmly` in Gram/Content.lean), and `kept_exact` (Gram/Places.lean) locates them in the source. The places of nodes (`spans`) and `besideOwner` are specified in PlaceSpec.lean without reference to the printer. Status: partial. Proved for all trees of the grammar in Gram/Grammar.lean and all comments but those that dangle in an empty node and those at the nodes excluded by keepsBefore and keepsAfter (before `,`, `;`, FOR clauses and the fields of a RETURNING clause, after the latter and after accessors), which are moved over one token. Without the hypothesis that nothing but comments is in between, the second part is false (C57_comment_moved_before_operator). Theorems: `C57_comments_at_owner_partial`, `C57_comments_beside_code_stay_partial`, `C57_comment_moved_before_operator`.
* **C58** Two blanks in a row occur only in the indentation. The machine of C55 in its strictest form (Gate.strict in Trail/Mach.lean): texts have no two blanks in a row and begin with a blank only after a visible character, except for single blanks, which the printer drops after a blank. `run_calm` (Trail/Calm.lean) is the soundness for the printer; the types of the constructors are those of C55, proved once for all gates. `calm_spec` restates the machine's invariant in terms of positions. With comments between members: Ends/Calm.lean for the machine of Ends/Mach.lean. Status: partial. Proved for all trees of the grammar in Gram/Grammar.lean whose `for` statements have an update and whose comments, if any, are between members, have no two blanks in a row and no empty lines and do not follow a lone explicit constructor call; the full statement is false with comments in other places (C58_comment_doubles_blank). Theorems: `C58_blanks_only_indent_partial`, `C58_comment_doubles_blank`, `C58_blanks_only_indent_with_comments_partial`.
* **C59** The indentation shows the nesting. LevelSpec.lean is the specification: the tree gives the list of its visible characters, those of comments included, with required starts of lines (`nested`), the text gives the column of every visible character that begins a line (`columns`). Levels/Text.lean: whatever groups are broken, the printer puts every hard break of a program at the indentation `marked` computes (`layout_columns`). Levels/Base.lean to Levels/Step.lean: induction over the constructors; the program of a node prints the comments before it, something whose events match `nested` of the node (`Lv`), and the comments after it; Levels/Body.lean puts the members of a body and their comments in a row. The number of visible characters is taken from the content theorem of C43, the fact that members begin with a visible character from the machine of C55. Levels/Final.lean puts all together. Status: partial. Proved for all trees of the grammar whose comments are between members, without empty lines in comments, whose `for` statements have an update, without a comment after a lone constructor call, and that are `regulars`; the full statement is false for anonymous classes, an empty line after a constructor call, and multi-line `else` branches without braces (C59_anonymous_class, C59_constructor_call, C59_else_branch). Theorems: `C59_indentation_is_nesting_partial`, `C59_else_branch`, `C59_anonymous_class`, `C59_constructor_call`.
* **C60** A comment in an empty list or body does not remove the list or body. For every program node of the kind and every comment map whose bucket of the node has dangling comments, the built document is computed from `build_with_comments_core`: for the four lists it is the comments alone (negation of the claim), for the bodies it is the text `{`, the comments and the text `}` between the comments before and after the node. The two whole-file witnesses are evaluated by the kernel. Status: partial. False of the code: argument lists, formal parameters, array and map initializers with nothing but a comment are printed as the comment alone, without brackets (C60_list_with_comment_lost for all of them, with two whole-file witnesses). Proved for class, interface, enum and constructor bodies and blocks (C60_bodies_keep_braces_partial). Theorems: `C60_list_with_comment_lost`, `C60_bodies_keep_braces_partial`, `C60_call_parentheses_lost`, `C60_parameter_parentheses_lost`.
* **C61** White space around operators, commas, semicolons and brackets. Gap/Scan.lean is the specification: a reader of texts that remembers how the last characters must be followed (`spaced`); Gap/Spec.lean derives the rules at every position of the text, without the reader (`spaced_operator`, `spaced_quest`, `spaced_colon`, `spaced_comma`, `spaced_close`, `spaced_open`). Gap/Mach.lean: the weakest precondition of a program for the reader (`wp`), over all layouts; `layout_spaced` shows that the printer, whatever groups are broken, only writes texts the precondition covers. Gap/Tac.lean, Gap/Pass1.lean to Gap/Pass4.lean and Gap/Calls.lean: induction over the constructors; the program of every node goes from every state where a word may begin to one where a word may end. Gap/Text.lean: texts that are not printed are replaced (C50), the others satisfy `apart`. Status: partial. Proved for all trees of the grammar without comments whose printed words are spaced themselves (`apart`) and whose `for` statements have an update; with key-value annotations a single = may be tight everywhere. False with comments (C61_comment_before_comma) and for an empty `else` branch, which is outside of the grammar (C61_empty_alternative_apart). Theorems: `C61_spacing_partial`, `C61_operators_between_blanks_partial`, `C61_ternary_between_blanks_partial`, `C61_no_blanks_at_brackets_partial`, `C61_empty_alternative_apart`, `C61_comment_before_comma`.
* **C62** The longest line is enough width. Width/Printer.lean: traces of the printer (`tr`), what `fits` measures at a smaller width (`fitsS_shrink`), what a line of the output contains (`line_reaches`), and by induction over the chunks still to be printed the same decisions at both widths (`same_chunks`, `layout_same`), for documents whose texts have no line breaks and whose printing leaves out no blank (`Steady`). Width/Text.lean: the trace of a program consists of operations its symbols stand for, and the machine of C55 and C58 (Trail/Mach.lean with `Gate.whole`) accepts only programs that leave out no blank (`run_steady`); `format_whole` puts this together with C50. With comments between members: the same with the symbols and the machine of C55 with comments (Width/Notes.lean: `ntr_ress`, `tr_texts`, `ends_steady`, `ends_whole`). Status: partial. Proved for all trees of the grammar whose comments, if any, are between members, whose printed words have no line breaks and no white space at their ends and whose `for` statements have an update. False with comments inside statements (C62_comment_breaks_line). Theorems: `C62_longest_line_is_enough_partial`, `C62_longest_line_is_enough_with_comments_partial`, `C62_comment_breaks_line`.
* **C63** Beyond some width the width does not matter. Width/Settle.lean: `trI`, the trace if lines may be arbitrarily long (no width, no printer state); `tr_settles` by induction over documents, since `fits` is monotone in the width (`fitsS_mono`). Errors do not depend on the width (C01). Status: proved. For every tree, with or without comments, inside or outside of the grammar. Theorems: `C63_wide_enough`.
* **C64** More width, not more lines. Width/Settle.lean: the trace `trI` arises from the trace at any width by replacing pending line breaks by blanks or nothing (`Fewer`, `tr_fewer`), which cannot give more line breaks (`run_le`). The witness of the negation is evaluated by the kernel. `tr_most`: a group that is broken at some width is broken at width 0, since nothing then fits that does not fit with more room. Status: partial. Proved for every tree: no width gives fewer lines than a sufficiently great one, and none gives more than width 0. False for arbitrary pairs of widths (C64_wider_gives_more_lines). Theorems: `C64_widest_has_fewest_lines_partial`, `C64_narrowest_has_most_lines_partial`, `C64_wider_gives_more_lines`.
* **C65** The indentation size multiplies the indentation. Width/Indent.lean: the document of a program for size `k` is the one for size 1 with its indentations multiplied (`build_scale`); the operations at great widths are the same but for the indentations of line breaks (`trI_scale`); a printer that keeps the levels of the lines (`lrun`) is related to the printer for every size (`view_run`), also where it joins blanks, and its lines are those of the text (`splitNl_render`). Status: proved. For every tree and all sizes; the bound on the width is needed (C65_narrow_width). Theorems: `C65_indent_size_scales`, `C65_narrow_width`.
* **C66** The members of a file are formatted independently. Solo/New.lean: every constructor, called inside a member, returns the same program whatever surrounds the member (one theorem `X_solo` per constructor, `step_solo`; Solo/Tac.lean has the accessors). Solo/Collect.lean: collecting comments reads and writes the buckets of the ids of the tree only (`collect_agree`, `collect_both`), so the map of the member alone is a part of the map of the file (Solo/Join.lean), and a program that can be built with the part gives the same document with the whole (`build_sub`). Solo/Print.lean: look-ahead stops at the line break between members (`pr_rest`), and printing on a new line after any text equals printing at the start of the file unless white space comes first (`pr_rel`). Solo/Lead.lean: a member without comments begins with text (`member_lead`). `C66_edit_stays_local` is two applications of `C66_members_apart`; `C66_comment_free` takes the texts of the members from C49; Solo/Conf.lean shows that a member of a grammatical file without comments is alone again such a file (`only_conforms`, `only_parsed`). `C66_formatted_iff_members`: a grammatical member is always printed (`ran_of_conforms`), only the check for missing comments can fail; the comments printed for a member are comments of this member (`build_log`, `whole_ran`), so no other member can hide a missing one. `C66_moved_member` combines `C66_comment_free` with C50. Specification: Solo/Spec.lean. Status: proved. No comments between the members; the texts of members with comments begin with a visible character (C66_comment_free and members without comments need no such condition); row 0 excluded for later members (C11_row_zero_false). Theorems: `C66_members_apart`, `C66_edit_stays_local`, `C66_comment_free`, `C66_moved_member`, `C66_formatted_iff_members`.

## 5. Findings (claims false of the code)

Each has a theorem with a concrete witness or, where possible, for a whole class of inputs.

| finding | theorem |
|---|---|
| `indent_size = 0` makes formatting fail | `C02_indent_zero_fails` |
| a body member on row 0: `row - 1` underflows, panic in debug builds, a wrong blank line in release builds | `C11_row_zero_false`, `C11_row_zero_always_wrong` |
| comments attached to one node can be printed in reverse order | `C16_order_can_be_reversed` |
| a file with only comments cannot be formatted | `C18_comment_only_file_fails` |
| a comment next to the type of a SOQL `WITH` clause is printed twice | `C19_comment_printed_twice` |
| a star is added to JavaDoc lines that start with two stars | `C24_javadoc_adds_star` |
| results of several files come in completion order | `C27_any_order_possible` |
| one file with deep nesting overflows the stack and kills the whole batch | `C28_stack_overflow_kills_batch` |
| an error snippet whose 80th byte is inside a character panics | `C31_straddling_character_panics` |
| `--write` truncates in place: a crash loses the file | `C37_crash_loses_file` |
| `NOT (NOT x)` is printed as `NOT NOT x`, which cannot be read back | `C41_double_negation_unreadable` |
| condition kinds outside the expected ones recurse forever | `C42_other_kinds_never_terminate` |
| second and further update expressions of a `for` are dropped | `C43_for_updates_lost` |
| `if (x) ;` is printed with two semicolons | `C43_empty_consequence_doubled` |
| modifiers after an annotation are reordered | `C43_modifiers_reordered` |
| `a.super()` loses its dot and becomes the single word `asuper` | `C43_qualified_super_dot_lost`, `C54_object_super_joined` |
| `for (final A a : b)` loses `final`; `int a[]`, `int m()[]` lose the brackets; `@A()` loses the parentheses; `USING SCOPE` and `UPDATE` of queries are lost | `C44_enhanced_for_modifiers_lost`, `C44_declarator_dimensions_lost`, `C44_method_dimensions_lost`, `C44_annotation_parentheses_lost`, `C44_query_scope_lost`, `C44_query_update_lost` |
| `- -x` is printed as `--x` | `C45_minus_minus` |
| chains that end in an array access or stand in an index are always broken outside of other groups | `C46_no_group`, `C46_array_access_broken` |
| formatting twice is not formatting once: the blank after a block comment between two statements of a line disappears the second time | `C51_comment_not_idempotent` |
| a `for` header without update that is broken contains a line of blanks; a block comment between two statements of a line leaves a blank at the end of the line | `C55_for_header_trails`, `C55_block_comment_trails` |
| an empty line of a block comment in a body is printed as a line of blanks; so is a line after a comment behind a lone `super();` | `C55_comment_line_trails`, `C55_call_comment_trails` |
| a comment after the field list in `RETURNING A(Id /* c */ WHERE B = 1)` is moved behind the `)` | `C56_comment_moved_behind_names` |
| `a + /* c */ b` is printed as `a /* c */  + b`: the comment crosses the operator, and two blanks follow it | `C57_comment_moved_before_operator`, `C58_comment_doubles_blank` |
| `if (a) f(); else while (b) { g(); }`: the lines inside of the `else` branch are not indented; an anonymous class as an argument is indented twice | `C59_else_branch`, `C59_anonymous_class` |
| a blank line after `super();` or `this();` outdents the next statement | `C48_blank_line_outdents`, `C48_outdented_file` |
| a comment as the only thing between the parentheses of a call or of a method's parameters, or the braces of an array or map initializer, replaces the brackets: `f(/* c */);` becomes `f/* c */;` | `C60_list_with_comment_lost`, `C60_call_parentheses_lost`, `C60_parameter_parentheses_lost` |
| a comment between an enum constant and its comma is printed with a blank that the second run removes | `C51_comma_not_idempotent` |
| `if (b) { f(); } else ;` is printed as `if (b) { f(); } else; ;`; a block comment before a comma is followed by a blank | `C61_empty_alternative_apart`, `C61_comment_before_comma` |
| a statement with a comment that fits on its line is broken: `x /* c */ = y;` of 18 bytes at width 18, since `fits` counts a blank that is not printed | `C62_comment_breaks_line` |
| a greater `max_width` may give more lines: `f(a)[g(b, c)]` is broken inside of `f(..)` at one width and inside of `g(..)` at the next | `C64_wider_gives_more_lines` |

Observed while modelling, not a separate property: `ConstructorBody` never prints its post comments and an empty `EnumBody` returns before them (the final
assertion then panics, covered by C17); `enum E implements I{` is printed without the blank; a `switch` without rules and an empty accessor list panic
(`surround` on an empty list, C12); a comment as the only argument of an annotation or as the only thing in a `switch` panics; `with_data_cat_filter` with a single parenthesised
identifier loses the parentheses; SOSL `OFFSET` and lookup clauses are dropped;
a comment between the qualifier and the dot of a type (`extends C /*c*/ .D`) stops the formatter with the assertion about missing comments (`exLost` in PropsSolo.lean).
## 6. Axioms per theorem

Printed by `Verif/Axioms.lean`.

* propext: `C11_row_zero_always_wrong`, `C12_intersperse`, `C12_surround_nonempty`, `C12_surround_panics_iff`, `C14_text_kept`, `C33_first_write_wins`, `C46_one_group`, `C47_operators_have_precedence`
* Quot.sound, propext: `C06_forced_break_after_group_ignored`, `C07_column_exact`, `C14_owner_is_near`, `C29_only_errors_rejected`
* Classical.choice, Quot.sound, propext: `C01_max_width_only_whitespace`, `C01_width_only_whitespace_doc`, `C02_indent_size_only_whitespace`, `C02_indent_zero_fails`, `C03_terminates`, `C03_prints_all_text`, `C04_kept_line_fits`, `C05_fitting_group_one_line`, `C06_forced_break_breaks_group`, `C07_column_bounded`, `C08_file_indentation_multiple`, `C08_indentation_exact`, `C08_indentation_multiple`, `C09_line_comment_never_swallows_code`, `C09_line_comment_ends_line`, `C10_ends_with_newline`, `C11_blank_lines_partial`, `C11_body_text`, `C11_row_zero_false`, `C12_surround_empty`, `C13_body_layout`, `C13_empty_body`, `C14_every_comment_attached_once`, `C14_owner`, `C15_every_code_node_has_bucket`, `C15_no_missing_bucket`, `C16_order_can_be_reversed`, `C16_source_order_partial`, `C17_no_comment_lost`, `C17_comment_text_in_output`, `C18_comment_only_file_fails`, `C19_comment_printed_twice`, `C19_exactly_once_partial`, `C20_comment_groups`, `C21_punctuation_not_swallowed`, `C22_line_comment_text`, `C23_reformat_block_comment`, `C24_block_comment_content`, `C24_javadoc_adds_star`, `C25_rows`, `C25_after_comments_layout`, `C25_collected_proper`, `C26_one_result_per_file`, `C26_schedule_independent`, `C26_terminates`, `C27_any_order_possible`, `C27_single_file_partial`, `C28_isolation_partial`, `C28_stack_overflow_kills_batch`, `C29_syntax_error_never_formatted`, `C29_format_one`, `C29_format_yields_err`, `C29_write_leaves_file`, `C30_last_innermost_error`, `C31_truncate_snippet_partial`, `C31_ascii_safe`, `C31_straddling_character_panics`, `C32_ids_irrelevant`, `C32_map_order_irrelevant`, `C33_once_per_thread`, `C34_check`, `C34_check_conflicts_with_write`, `C35_dry_run`, `C35_never_writes`, `C36_write`, `C37_crash_loses_file`, `C37_crash_content_partial`, `C38_check_then_write`, `C39_exit_code`, `C40_defaults`, `C40_overrides`, `C40_bad_config_fails_first`, `C41_same_meaning_partial`, `C41_double_negation_unreadable`, `C42_conditions_terminate`, `C42_other_kinds_never_terminate`, `C43_for_updates_lost`, `C43_empty_consequence_doubled`, `C43_modifiers_reordered`, `C43_qualified_super_dot_lost`, `C43_code_preserved_partial`, `C43_tokens_preserved_partial`, `C43_source_preserved_partial`, `C44_otherwise_printed_partial`, `C44_enhanced_for_modifiers_lost`, `C44_declarator_dimensions_lost`, `C44_method_dimensions_lost`, `C44_annotation_parentheses_lost`, `C44_query_scope_lost`, `C44_query_update_lost`, `C45_read_back_partial`, `C45_minus_minus`, `C46_group_iff`, `C46_break_together_partial`, `C46_no_group`, `C46_array_access_broken`, `C47_group_iff`, `C47_break_together`, `C48_layout`, `C48_indented_alike_partial`, `C48_blank_line_outdents`, `C48_outdented_file`, `C49_only_these_failures`, `C49_comment_free_succeeds`, `C50_only_the_skeleton_matters`, `C50_failures_too`, `C50_positions`, `C50_leading_empty_lines`, `C51_comment_not_idempotent`, `C51_comma_not_idempotent`, `C51_idempotent_partial`, `C51_idempotent_with_comments_partial`, `C52_members_lined_partial`, `C52_members_and_comments_lined_partial`, `C53_more_stack_fewer_checks`, `C53_one_text`, `C53_checks_irrelevant`, `C53_one_line_class`, `C54_words_kept_partial`, `C54_words_partial`, `C54_letters_partial`, `C54_source_words_partial`, `C54_object_super_joined`, `C55_no_trailing_white_space_partial`, `C55_for_header_trails`, `C55_block_comment_trails`, `C55_no_trailing_white_space_with_comments_partial`, `C55_comment_line_trails`, `C55_call_comment_trails`, `C56_comments_keep_their_place_partial`, `C56_no_name_crossed_partial`, `C56_comment_moved_behind_names`, `C57_comments_at_owner_partial`, `C57_comments_beside_code_stay_partial`, `C57_comment_moved_before_operator`, `C58_blanks_only_indent_partial`, `C58_comment_doubles_blank`, `C58_blanks_only_indent_with_comments_partial`, `C59_indentation_is_nesting_partial`, `C59_else_branch`, `C59_anonymous_class`, `C59_constructor_call`, `C60_list_with_comment_lost`, `C60_bodies_keep_braces_partial`, `C60_call_parentheses_lost`, `C60_parameter_parentheses_lost`, `C61_spacing_partial`, `C61_operators_between_blanks_partial`, `C61_ternary_between_blanks_partial`, `C61_no_blanks_at_brackets_partial`, `C61_empty_alternative_apart`, `C61_comment_before_comma`, `C62_longest_line_is_enough_partial`, `C62_longest_line_is_enough_with_comments_partial`, `C62_comment_breaks_line`, `C63_wide_enough`, `C64_widest_has_fewest_lines_partial`, `C64_narrowest_has_most_lines_partial`, `C64_wider_gives_more_lines`, `C65_indent_size_scales`, `C65_narrow_width`, `C66_members_apart`, `C66_edit_stays_local`, `C66_comment_free`, `C66_moved_member`, `C66_formatted_iff_members`

## 7. Tests against wrong programs

`seeded/LOG.jsonl` records each seeded error: the definition edited in a scratch copy, the edit, the claim it breaks, the theorems that no longer
prove, and what was tightened. Lemmas named `*_sx` state the printed content of one constructor; C15, C19, C43, C44 and C49 depend on all of them.
