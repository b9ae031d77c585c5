{"id": "C01", "title": "max_width never changes the code, only its whitespace", "statement": "Formatting the same parsed source under any two max_width settings either fails under both or succeeds under both, and the two outputs are identical once spaces and newlines are removed.", "quantifier": "every syntax tree, every indent_size > 0, every pair of max_width values (u32, including 0)", "why_tests_cant": "A golden-file test compares one width; the claim relates two runs over unboundedly many trees and widths, and the layout algorithm takes different branches at each width.", "anchors": ["src/doc.rs: PrettyPrinter::print, PrettyPrinter::fits, Doc::Choice", "src/doc_builder.rs: DocBuilder::group", "src/formatter.rs: Formatter::format_one"]}
{"id": "C02", "title": "indent_size never changes the code, only its whitespace", "statement": "Formatting the same parsed source under any two positive indent_size settings either fails under both or succeeds under both, and the outputs are identical once spaces and newlines are removed; indent_size = 0 fails for every source.", "quantifier": "every syntax tree, every max_width, every pair of indent_size values", "why_tests_cant": "Relational property over all trees and all configuration pairs; tests only exercise indent_size 2.", "anchors": ["src/doc.rs: PrettyConfig::new, Chunk::indented, Chunk::dedented", "src/doc_builder.rs: DocBuilder::indent, DocBuilder::dedent", "src/formatter.rs: Formatter::format_one"]}
{"id": "C03", "title": "The layout engine terminates and loses nothing", "statement": "For every document, width and starting state the pretty printer terminates, and the output with spaces and newlines removed is the concatenation of the document's text leaves in order (for documents whose alternatives carry the same text, which is all the builder can make).", "quantifier": "all documents of any size and nesting, all widths", "why_tests_cant": "The printer is a work-list loop over a tree that duplicates sub-documents; termination and completeness are facts about all documents, not samples.", "anchors": ["src/doc.rs: PrettyPrinter::print, pretty_print", "src/doc_builder.rs: DocBuilder::group"]}
{"id": "C04", "title": "A construct kept on one line fits the line", "statement": "Whenever the printer decides to keep a group on one line, the line it is printed on, up to the next line break and disregarding trailing spaces, is at most max_width bytes wide (measured from the column where the group starts).", "quantifier": "all documents, all widths, all positions of the group and everything that follows it", "why_tests_cant": "The decision looks ahead through the rest of the document; whether the look-ahead agrees with what is later printed is a fact about all continuations.", "anchors": ["src/doc.rs: PrettyPrinter::fits, PrettyPrinter::print (Doc::Choice)"]}
{"id": "C05", "title": "A construct that fits is kept on one line", "statement": "A group without hard or forced line breaks whose one-line width together with the text that follows up to the next possible break fits in the remaining width is printed on one line with soft breaks rendered as single spaces and optional breaks rendered as nothing.", "quantifier": "all documents, all widths", "why_tests_cant": "Completeness of the fits test needs all documents and boundary widths, tests see a few.", "anchors": ["src/doc.rs: PrettyPrinter::fits, PrettyPrinter::print"]}
{"id": "C06", "title": "A forced break breaks its own group and only its own group", "statement": "A group that contains a forced break (a comment on its own line) before any hard newline is never put on one line; a forced break that occurs only after the group never makes the group break.", "quantifier": "all documents, all widths, all nesting depths", "why_tests_cant": "Issue #97 was a regression of this kind; the claim quantifies over every surrounding document.", "anchors": ["src/doc.rs: PrettyPrinter::fits (within_group)", "src/utility.rs: handle_pre_comments"]}
{"id": "C07", "title": "Column tracking is exact", "statement": "At every step of printing, the column the printer uses for its decisions equals the byte width of the text after the last newline of the output produced so far, provided no text leaf contains a newline; and it never exceeds the total width of the document's leaves plus the deepest indentation, so u32 does not overflow for documents below that bound.", "quantifier": "all documents with newline-free leaves, all reachable printer states", "why_tests_cant": "Invariant over every intermediate state of every run.", "anchors": ["src/doc.rs: PrettyPrinter::print (self.col), insert_newline_with_indent", "src/doc_builder.rs: DocBuilder::txt"]}
{"id": "C08", "title": "Every line the printer starts is indented by the enclosing indentation", "statement": "Each line break that the printer emits with indentation is followed by exactly the indentation in force at that point (sum of the enclosing indents, minus dedents, never negative), and that number is always a multiple of indent_size.", "quantifier": "all documents built with one indent_size, all widths", "why_tests_cant": "Needs an invariant over all nesting depths; tests check particular files.", "anchors": ["src/doc.rs: insert_newline_with_indent, Chunk::indented, Chunk::dedented, NewlineBuffer", "src/doc_builder.rs: DocBuilder::indent, DocBuilder::dedent"]}
{"id": "C09", "title": "A line comment never swallows code", "statement": "In the output, the text of a line comment is followed, after at most some spaces, by a newline: nothing visible is ever printed after it on the same line.", "quantifier": "all documents containing a line comment at any position, all widths, flat or broken mode", "why_tests_cant": "A single missed context would comment out user code; must hold in every context the comment can be attached to.", "anchors": ["src/context.rs: Comment::build_inner", "src/doc.rs: PrettyPrinter::print, NewlineBuffer"]}
{"id": "C10", "title": "Formatted output ends with a newline", "statement": "Every successful formatting result is non-empty and its last character is a newline.", "quantifier": "every syntax tree, every configuration for which formatting succeeds", "why_tests_cant": "Quantifies over all sources, including empty files and files ending in comments.", "anchors": ["src/data_model.rs: Root::build_inner", "src/doc.rs: PrettyPrinter::print (final flush)"]}
{"id": "C11", "title": "Body members are separated by one newline, or one blank line exactly where the source had one", "statement": "Between two consecutive members of a class, interface, block or file the output has a line break, with one blank line in between if and only if the source has at least one blank line after the first member (or after its last trailing comment).", "quantifier": "all member lists, all source rows", "why_tests_cant": "Arithmetic on rows for every pair of positions, including row 0.", "anchors": ["src/enum_def.rs: BodyMember::has_trailing_newline", "src/doc_builder.rs: DocBuilder::intersperse_body_members, empty_new_line"]}
{"id": "C12", "title": "Lists keep all elements in order with separators only in between", "statement": "Joining n elements prints each element exactly once in order with exactly n-1 separators, and nothing else; the empty list prints nothing. Surrounding a list adds the opening and closing text exactly once; an empty list prints the two delimiters next to each other.", "quantifier": "all element lists of any length, all separators and delimiters", "why_tests_cant": "Inductive over list length.", "anchors": ["src/doc_builder.rs: DocBuilder::intersperse, DocBuilder::surround, DocBuilder::group_surround"]}
{"id": "C13", "title": "Body blocks put each member on its own line one level deeper", "statement": "A non-empty body prints the opening brace, then every member starting on a new line indented exactly one indent_size deeper than the body, then the closing brace on its own line at the body's indentation; an empty body prints the braces on two lines.", "quantifier": "all member lists, all indentation levels, all widths", "why_tests_cant": "Inductive over members and depth.", "anchors": ["src/doc_builder.rs: DocBuilder::surround_body_members, DocBuilder::intersperse_body_members"]}
{"id": "C14", "title": "Every comment of the source is attached exactly once", "statement": "Comment collection assigns each comment node of the tree to exactly one place (before, after or inside exactly one node): the multiset of attached comments equals the multiset of comments under the visited nodes.", "quantifier": "every syntax tree with any arrangement of comments", "why_tests_cant": "The assignment has six cases depending on siblings and rows; conservation must hold for all arrangements.", "anchors": ["src/utility.rs: collect_comments", "src/context.rs: Comment::from_node"]}
{"id": "C15", "title": "Every node the formatter visits has a comment bucket", "statement": "After comment collection, looking up the comments of any named non-comment node, punctuation or else keyword reachable through such nodes succeeds, so formatting never dies with a missing bucket.", "quantifier": "every syntax tree", "why_tests_cant": "Reachability invariant over all trees.", "anchors": ["src/utility.rs: collect_comments, get_comment_bucket", "src/context.rs: NodeContext, Punctuation::build_inner"]}
{"id": "C16", "title": "Comments attached to a node stay in source order", "statement": "Within each of the three lists of a bucket (before, after, inside) comments are in source order.", "quantifier": "every syntax tree", "why_tests_cant": "Order invariant of a stateful traversal.", "anchors": ["src/utility.rs: collect_comments"]}
{"id": "C17", "title": "No comment is ever silently lost", "statement": "If formatting succeeds then the complete rendered text of every comment in the source tree occurs in the output, line by line, contiguous, with only re-indentation between its lines.", "quantifier": "every syntax tree, every configuration", "why_tests_cant": "The run-time assertion only checks a flag; that a set flag implies the text is really in the output is a whole-program property over all trees.", "anchors": ["src/utility.rs: assert_no_missing_comments, handle_pre_comments, handle_post_comments, handle_dangling_comments", "src/context.rs: Comment::build_inner, Punctuation::build_inner", "src/data_model.rs: all DocBuild impls"]}
{"id": "C18", "title": "A file that contains only comments can be formatted", "statement": "Formatting a source consisting only of comments succeeds and prints the comments.", "quantifier": "every non-empty sequence of comments", "why_tests_cant": "Universally quantified over comment-only files; (the model shows the code refuses all of them).", "anchors": ["src/data_model.rs: Root::build_inner", "src/utility.rs: assert_no_missing_comments"]}
{"id": "C19", "title": "Each comment is printed exactly once", "statement": "In a successful run every comment is emitted exactly once, never duplicated.", "quantifier": "every syntax tree", "why_tests_cant": "Duplication depends on how node wrappers share buckets; needs all node kinds.", "anchors": ["src/data_model.rs: SoqlWithType, SoqlWithTypeVariant::new", "src/utility.rs: build_with_comments_and_punc"]}
{"id": "C20", "title": "Comment groups print each comment once, in order, and account for it", "statement": "Printing the comments before, after or inside a node emits every comment of that list exactly once in source order and marks exactly these comments as printed.", "quantifier": "all comment lists with all combinations of row metadata", "why_tests_cant": "Loops with positional special cases (first, last); must hold for any length.", "anchors": ["src/utility.rs: handle_pre_comments, handle_post_comments, handle_dangling_comments, handle_dangling_comments_in_bracket_surround"]}
{"id": "C21", "title": "Punctuation is never swallowed by a comment in front of it", "statement": "Comments between an expression and the following comma or semicolon are all printed exactly once; every line comment among them is printed after the punctuation character, every block comment before it, relative order inside each class unchanged.", "quantifier": "all comment buckets of punctuation tokens", "why_tests_cant": "Partition plus re-merge over arbitrary lists.", "anchors": ["src/context.rs: Punctuation::build_inner"]}
{"id": "C22", "title": "Line comment text is preserved", "statement": "A line comment is printed verbatim except that trailing whitespace is removed.", "quantifier": "all comment texts", "why_tests_cant": "Holds for every Unicode text.", "anchors": ["src/context.rs: Comment::from_node, Comment::build_inner"]}
{"id": "C23", "title": "Re-formatting a block comment changes nothing", "statement": "Rendering a block comment (plain or JavaDoc), then rendering the rendered text again at any indentation, yields the same lines.", "quantifier": "all comment texts, all indentations", "why_tests_cant": "Idempotence over all strings.", "anchors": ["src/context.rs: Comment::build_inner"]}
{"id": "C24", "title": "Block comment content is preserved", "statement": "Rendering a block comment keeps all its visible characters in order: exactly for plain comments, and up to star characters for JavaDoc comments.", "quantifier": "all well-delimited block comment texts", "why_tests_cant": "All strings, with special first/last line handling.", "anchors": ["src/context.rs: Comment::build_inner"]}
{"id": "C25", "title": "Blank lines and same-line placement of comments follow the source", "statement": "A comment on the same row as the preceding sibling is printed after a single space on that line; a comment separated from it by at least one empty row is printed after exactly one blank line; otherwise on the next line. This holds for after-comments in every bucket.", "quantifier": "all rows of comment, previous and next sibling", "why_tests_cant": "Arithmetic over all positions, off-by-one prone.", "anchors": ["src/context.rs: CommentMetadata::from", "src/utility.rs: handle_post_comments"]}
{"id": "C26", "title": "format() returns one result per file under every schedule", "statement": "For every list of files and every interleaving of the worker threads, format() returns exactly one result per file, and the multiset of results does not depend on the schedule.", "quantifier": "all file lists, all thread schedules, all combinations of failing and succeeding files", "why_tests_cant": "Scheduler non-determinism.", "anchors": ["src/formatter.rs: Formatter::format"]}
{"id": "C27", "title": "format() returns results in the order of the input files", "statement": "The i-th result of format() belongs to the i-th input file.", "quantifier": "all file lists, all thread schedules", "why_tests_cant": "Scheduler non-determinism; a test passes by luck.", "anchors": ["src/formatter.rs: Formatter::format", "src/main.rs: run"]}
{"id": "C28", "title": "One bad file does not affect the others", "statement": "The result produced for a file is the same whatever other files are in the batch and however their threads end; a panic becomes Err for that file only.", "quantifier": "all batches, all schedules, all failing subsets", "why_tests_cant": "Non-interference over all schedules.", "anchors": ["src/formatter.rs: Formatter::format", "src/utility.rs: THREAD_SOURCE_CODE, THREAD_COMMENT_MAP"]}
{"id": "C29", "title": "A source with a syntax error is never formatted", "statement": "If the parser reports an error anywhere in the tree then format_one does not return a text: format() yields Err for that file, and with --write the file is left untouched.", "quantifier": "all trees containing an error node anywhere", "why_tests_cant": "Any position of the error node.", "anchors": ["src/formatter.rs: Formatter::parse, Formatter::format", "src/main.rs: run"]}
{"id": "C30", "title": "The reported error location is a real, innermost error", "statement": "find_last_error_node returns nothing exactly for trees without error; otherwise it returns a node of the tree that has an error and none of whose children has one, and it is the last such node in document order.", "quantifier": "all trees", "why_tests_cant": "Recursive search over all tree shapes.", "anchors": ["src/formatter.rs: Formatter::find_last_error_node"]}
{"id": "C31", "title": "Error snippets are safe to produce", "statement": "truncate_snippet returns the text itself when it is at most 80 bytes, otherwise its first 80 bytes followed by an ellipsis, for every UTF-8 text.", "quantifier": "all UTF-8 strings", "why_tests_cant": "Depends on character boundaries at byte 80 for all strings.", "anchors": ["src/utility.rs: truncate_snippet"]}
{"id": "C32", "title": "Formatting is a function of source and configuration", "statement": "The result of formatting depends only on the parse tree and the configuration, not on hash-map iteration order or on node identities.", "quantifier": "all iteration orders of the comment map, all injective renamings of node ids", "why_tests_cant": "Hash seeds vary between runs.", "anchors": ["src/utility.rs: assert_no_missing_comments, get_comment_map", "src/context.rs: CommentMap"]}
{"id": "C33", "title": "Thread-local state can be set once", "statement": "On a fresh thread the formatter can run once; a second run on the same thread always fails instead of mixing two sources, and reading before setting fails.", "quantifier": "all sequences of runs on one thread", "why_tests_cant": "History property.", "anchors": ["src/utility.rs: set_thread_source_code, set_thread_comment_map, get_source_code, get_comment_map"]}
{"id": "C34", "title": "--check never writes and reports exactly equality", "statement": "afmt --check leaves every file unchanged and exits 0 if and only if formatting succeeds and the file's content equals the formatted text; otherwise it exits 1.", "quantifier": "all file systems, all file contents, all formatter outcomes", "why_tests_cant": "All contents and outcomes.", "anchors": ["src/main.rs: run, main", "src/args.rs: get_args"]}
{"id": "C35", "title": "Without --write nothing is written", "statement": "afmt without --write leaves every file unchanged; on success it prints the formatted text followed by a newline.", "quantifier": "all argument combinations without write, all file systems", "why_tests_cant": "All paths of the program.", "anchors": ["src/main.rs: run"]}
{"id": "C36", "title": "--write replaces the file by the formatted text or leaves it alone", "statement": "afmt --write changes at most the named file; if formatting succeeds and the write succeeds the file contains exactly the formatted text and the exit code is 0; if formatting fails for any reason the file is untouched and the exit code is 1.", "quantifier": "all file systems, all outcomes of reading, formatting and writing", "why_tests_cant": "All failure combinations.", "anchors": ["src/main.rs: run"]}
{"id": "C37", "title": "--write survives a crash", "statement": "If the process is killed at any point during afmt --write the file contains either its old content or the complete formatted text.", "quantifier": "all crash points", "why_tests_cant": "Crash points cannot be enumerated by unit tests.", "anchors": ["src/main.rs: run (fs::write)"]}
{"id": "C38", "title": "A file that passes --check is left byte-identical by --write", "statement": "If afmt --check exits 0 on a file, afmt --write on the same file and configuration does not change its content.", "quantifier": "all files, all configurations", "why_tests_cant": "Relates two invocations for all contents.", "anchors": ["src/main.rs: run"]}
{"id": "C39", "title": "Exit code tells success", "statement": "The process exits 0 if and only if run returned Ok, else 1; any formatting error of the file makes it exit 1.", "quantifier": "all runs", "why_tests_cant": "All paths.", "anchors": ["src/main.rs: main, run"]}
{"id": "C40", "title": "Configuration defaults and errors", "statement": "Without a config file the configuration is max_width 80 and indent_size 2; a config file overrides exactly the keys it contains and defaults the others; a missing or malformed config file makes the run fail before any source file is read or written.", "quantifier": "all config files", "why_tests_cant": "All key combinations and failures.", "anchors": ["src/formatter.rs: Config, Config::from_file, Formatter::create_from_config", "src/main.rs: run"]}
{"id": "C41", "title": "SOQL conditions keep their meaning", "statement": "The WHERE/HAVING condition printed for a boolean expression tree, read back with SOQL's grammar (AND, OR chains cannot be mixed without parentheses, NOT binds to a single condition), evaluates to the same truth value as the original tree for every truth assignment.", "quantifier": "all boolean expression trees, all truth assignments", "why_tests_cant": "Unbounded trees; parenthesisation decided per parent/child operator pair.", "anchors": ["src/enum_def.rs: BooleanExpression, ConditionExpression::should_parenthesize", "src/data_model.rs: AndExpression, OrExpression, NotExpression"]}
{"id": "C42", "title": "SOQL condition construction terminates", "statement": "Building the condition of a WHERE clause terminates for every node the parser can put there.", "quantifier": "all node kinds and trees", "why_tests_cant": "Two constructors delegate to each other without consuming input.", "anchors": ["src/enum_def.rs: BooleanExpression::new, ConditionExpression::new"]}
{"id": "C43", "title": "Code tokens are preserved", "statement": "For every comment-free tree that follows the grammar, the formatted output with whitespace removed equals the source with whitespace removed, up to letter case of keywords: no token is added, dropped, duplicated or reordered.", "quantifier": "all trees of the grammar, all widths and indent sizes", "why_tests_cant": "The core correctness claim of a formatter; tests only sample the grammar.", "anchors": ["src/data_model.rs: all structs", "src/enum_def.rs: all enums"]}
{"id": "C44", "title": "Known token losses", "statement": "Every token of an enhanced-for loop, of an array-typed declarator, of a SOQL query and of an empty-argument annotation is printed.", "quantifier": "all statements of these kinds", "why_tests_cant": "Needs the complete set of grammar alternatives (the model shows which are dropped).", "anchors": ["src/data_model.rs: EnhancedForStatement, VariableDeclarator, MethodDeclaration, SoqlQueryBody", "src/enum_def.rs: AnnotationArgumentList"]}
{"id": "C45", "title": "Adjacent tokens are not glued into another token", "statement": "Removing whitespace between two operators never creates a different operator: a unary operator applied to another unary or update expression keeps them apart.", "quantifier": "all nestings of unary and update expressions", "why_tests_cant": "Depends on pairs of operators at arbitrary nesting.", "anchors": ["src/data_model.rs: UnaryExpression, UpdateExpressionVariant"]}
{"id": "C46", "title": "Method chains break as a unit", "statement": "In a chain of method calls, field accesses, array accesses and queries, at most one node (the outermost access whose receiver is again a chain element) opens the group that decides whether the chain is broken, and every dot of the chain is breakable exactly when the chain has at least two links.", "quantifier": "all chains of any length", "why_tests_cant": "Chain length and mixture unbounded.", "anchors": ["src/utility.rs: build_chaining_context, is_a_chaining_node", "src/data_model.rs: MethodInvocationKind, FieldAccess"]}
{"id": "C47", "title": "Binary operator chains of one precedence level share one layout group", "statement": "A binary expression directly inside a binary expression of the same precedence never opens its own group (so all operators of the chain break together), otherwise it does; every operator the grammar allows has a precedence.", "quantifier": "all nestings of binary operators", "why_tests_cant": "Unbounded nesting, table completeness.", "anchors": ["src/utility.rs: get_precedence", "src/data_model.rs: BinaryExpression::build_context"]}
{"id": "C48", "title": "Statements of a constructor are indented alike", "statement": "In a constructor body that starts with a call to this(...) or super(...), the statement after that call starts on a line with the same indentation as the other statements of the body, whether or not the source has a blank line after the call.", "quantifier": "all constructor bodies, all statements in them, all indentation settings and all enclosing indentations", "why_tests_cant": "Tests show single constructors; the claim is about every body, nesting depth and indentation setting, and it depends on which of two line-break documents is placed inside or outside an indentation.", "anchors": ["src/data_model.rs ConstructorBody::build_inner", "src/doc_builder.rs DocBuilder::empty_new_line", "src/doc.rs PrettyPrinter::print"]}
{"id": "C49", "title": "Formatting a well-formed program does not panic", "statement": "On every tree that follows the grammar (without the constructs that are known to lose tokens) formatting either succeeds or fails for one of four reasons: the stack is too small for the depth of the tree, a row number underflows in a build with overflow checks, the indent size is 0, or a comment would be lost. Without comments, in a release build, with a positive indent size and enough stack, it succeeds.", "quantifier": "all trees of the grammar, all configurations, all stack sizes, both build profiles", "why_tests_cant": "There are about 150 constructors with explicit panics (missing child, unknown kind, missing bucket, unsupported operator); tests only show the absence of panics on the sampled programs.", "anchors": ["src/accessor.rs", "src/data_model.rs *::new", "src/enum_def.rs *::new", "src/utility.rs assert_check", "src/utility.rs panic_unknown_node", "src/formatter.rs Formatter::format_one"]}
{"id": "C50", "title": "Layout of the source does not influence the result", "statement": "The formatted text (or the panic) is a function of the skeleton of the syntax tree: kinds, fields, names, literals, operators, the lines in which each comment is printed, for each comment on which line it is relative to its neighbours and whether blank lines separate them, and for each member of a body whether a blank line follows it. White space inside of declarations, statements and expressions, the indentation of the lines of comments, the number of blank lines beyond one, the spelling of keywords, columns and node ids have no influence.", "quantifier": "all pairs of trees with the same skeleton and distinct node ids, all configurations, all stack sizes, both build profiles", "why_tests_cant": "Tests compare single inputs; that none of about 150 constructors looks at a row, a byte offset, an id or the text of an inner node in any other way needs a proof over all trees.", "anchors": ["src/formatter.rs Formatter::format_one", "src/data_model.rs *::new", "src/enum_def.rs BodyMember::new", "src/utility.rs collect_comments", "src/context.rs Comment::from_node"]}
{"id": "C51", "title": "Formatting is idempotent", "statement": "Formatting a formatted text gives the same text again: if a tree is formatted to a text, and the parser returns for that text a tree that looks like the first one (same shape, kinds, fields, words) with its nodes in the lines in which their characters are, then that tree is formatted to the same text.", "quantifier": "all trees, all configurations, all stack sizes, both build profiles", "why_tests_cant": "Tests format single programs twice; idempotence depends on where line breaks between members end up for every nesting of bodies and every width, and on no constructor looking at anything else of the layout.", "anchors": ["src/formatter.rs Formatter::format_one", "src/enum_def.rs BodyMember::has_trailing_newline", "src/doc_builder.rs DocBuilder::intersperse_body_members", "src/data_model.rs *::build_inner", "src/doc.rs PrettyPrinter::print"]}
{"id": "C52", "title": "Members of bodies are separated by one line break or one blank line", "statement": "In the formatted text consecutive members of a file, class, interface, constructor or block are separated by exactly one line break, or by exactly one blank line; the latter if and only if there were blank lines between them in the source (however many), or the member is in the first line of the source.", "quantifier": "all trees, all bodies in them at any depth, all pairs of consecutive members, all configurations, both build profiles", "why_tests_cant": "Tests look at some files; the claim is about the printed lines of every pair of members at every depth and width, after all groups, indentations and trailing documents have been laid out.", "anchors": ["src/enum_def.rs BodyMember::has_trailing_newline", "src/doc_builder.rs DocBuilder::intersperse_body_members", "src/data_model.rs ClassBody::build_inner", "src/data_model.rs Block::build_inner", "src/doc.rs PrettyPrinter::print"]}
{"id": "C53", "title": "Build profile and stack do not influence the text", "statement": "A tree has at most one formatted text, whatever the build profile and the size of the stack: a larger stack, or a release build instead of a development build, only turns failures into successes. If no member of a body other than the first one is in the first line of the source, both profiles behave the same.", "quantifier": "all trees, all configurations, all pairs of stack sizes and build profiles", "why_tests_cant": "Tests run in one profile with one stack; arithmetic that wraps around in release builds could silently change the text of some program.", "anchors": ["src/enum_def.rs BodyMember::has_trailing_newline", "src/data_model.rs *::new", "src/enum_def.rs *::new", "src/formatter.rs Formatter::format_one"]}
{"id": "C54", "title": "Words are neither joined nor split", "statement": "The formatted text has exactly the words of the source, in the same order: two words of the source are never joined into one, and no word is split, wherever lines are broken and wherever comments stand. Words are maximal runs of letters, digits, `_` and `$`; only letter case may differ.", "quantifier": "all trees, with and without comments, all configurations, both build profiles, all places where one printed piece follows another", "why_tests_cant": "Every pair of adjacent pieces in every combination of optional parts would have to occur in some test, at every width; a missing blank shows only where the pieces on both sides are words.", "anchors": ["src/doc.rs PrettyPrinter::print", "src/doc_builder.rs DocBuilder::*", "src/data_model.rs *::build_inner", "src/enum_def.rs *::build_inner", "src/utility.rs build_with_comments_and_punc"]}
{"id": "C55", "title": "No line of the formatted text ends with white space", "statement": "No line of the formatted text ends with a blank, a tab or a carriage return, wherever the printer breaks lines, unless the white space belongs to a word or comment of the source.", "quantifier": "all trees, all configurations, both build profiles, all ways in which groups are broken", "why_tests_cant": "A blank printed in front of an optional line break shows up only if that very line break is taken; whether it is depends on the width and on everything printed before on the line.", "anchors": ["src/doc.rs PrettyPrinter::print", "src/doc_builder.rs DocBuilder::*", "src/data_model.rs *::build_inner", "src/enum_def.rs *::build_inner", "src/utility.rs handle_post_comments"]}
{"id": "C56", "title": "No comment is moved across a name or literal", "statement": "In the formatted text every comment has the same names and literals before it and after it as in the source: formatting may move a comment over brackets, separators and keywords, but never over an identifier, number, string or named operator.", "quantifier": "all trees with comments in all positions, all configurations, both build profiles", "why_tests_cant": "A comment may stand between any two tokens of any construct; each construct decides on its own where it prints the comments of its parts, so every gap of every combination of optional parts would have to be tried.", "anchors": ["src/utility.rs collect_comments", "src/utility.rs build_with_comments", "src/utility.rs build_with_comments_and_punc", "src/data_model.rs *::build_inner", "src/enum_def.rs *::build_inner"]}
{"id": "C57", "title": "Comments are printed directly beside the code they belong to", "statement": "A comment that belongs before a node is printed directly before the first visible character of that node, a comment that belongs after a node directly after its last one. In particular a comment with nothing but comments between it and the node it belongs to does not move at all: exactly the same visible characters stand before it as in the source.", "quantifier": "all trees with comments in all positions, all configurations, both build profiles", "why_tests_cant": "Each construct prints the comments of its parts on its own and adds brackets, separators and keywords around them; a comment on the wrong side of one of these shows only for a comment at exactly that gap.", "anchors": ["src/utility.rs collect_comments", "src/utility.rs build_with_comments", "src/utility.rs build_with_comments_and_punc", "src/utility.rs build_with_comments_and_punc_attached", "src/data_model.rs *::build_inner", "src/enum_def.rs *::build_inner"]}
{"id": "C58", "title": "Two blanks in a row occur only in the indentation", "statement": "Nowhere in the formatted text do two blanks stand in a row, except at the beginning of a line, unless they belong to a word or comment of the source.", "quantifier": "all trees, all configurations, both build profiles, all ways in which groups are broken", "why_tests_cant": "Blanks are printed by neighbouring constructs independently of each other, partly as texts and partly as line breaks that turn into blanks; two of them meet only for certain combinations of optional parts.", "anchors": ["src/doc.rs PrettyPrinter::print", "src/doc_builder.rs DocBuilder::*", "src/data_model.rs *::build_inner", "src/enum_def.rs *::build_inner"]}
{"id": "C59", "title": "The indentation shows the nesting", "statement": "In the formatted text every member of the file, of a class, interface, block, constructor, switch or accessor list with bodies begins a line, so does every comment between members that is not at the end of the line of one, every further line of a comment, the closing brace, the branch of an if without braces and its else; the line is indented by indent_size for every such construct around it, and by nothing else but the blanks at the start of a line of a comment.", "quantifier": "all trees, all configurations, both build profiles, all ways in which groups are broken", "why_tests_cant": "The indentation of a line is the sum of the indents of all constructs around it; a missing, doubled or misplaced indent shows only for particular combinations of constructs, of which there are infinitely many.", "anchors": ["src/doc.rs PrettyPrinter::print", "src/doc_builder.rs DocBuilder::surround_body_members", "src/data_model.rs IfStatement::build_inner", "src/data_model.rs Block::build_inner", "src/data_model.rs ConstructorBody::build_inner", "src/data_model.rs SwitchBlock::build_inner"]}
{"id": "C60", "title": "A comment in an empty list or body does not remove the list or body", "statement": "When a node for a list or a body between brackets has nothing in it but comments, the node is printed with its brackets around the comments.", "quantifier": "all comment maps, all nodes of the bracketed kinds, both build profiles", "why_tests_cant": "Every bracketed construct has its own early return for dangling comments; a test covers one construct with one comment, the claim is about every construct with any comments.", "anchors": ["src/utility.rs build_with_comments_core", "src/utility.rs build_with_comments_and_punc", "src/utility.rs handle_dangling_comments", "src/utility.rs handle_dangling_comments_in_bracket_surround", "src/data_model.rs ArgumentList::build_inner", "src/data_model.rs FormalParameters::build_inner", "src/data_model.rs ArrayInitializer::build_inner", "src/data_model.rs MapInitializer::build_inner"]}
{"id": "C61", "title": "White space around operators, commas, semicolons and brackets", "statement": "In the output, outside of string literals, every operator that contains one of = * / % & | ^, every ?? and the ? of every conditional expression has white space on both sides, a : followed by white space has white space before it, there is no white space before a comma, no blank before a semicolon or a closing bracket other than indentation, and no blank after an opening bracket; only the = between the key and the value of an annotation has no white space around it.", "quantifier": "all syntax trees of the grammar, all source spacings, all line widths, both build profiles", "why_tests_cant": "Blanks come from many places, text fragments, separators and soft line breaks that become blanks or nothing depending on the width; a test fixes one tree and one width, the claim is about every adjacent pair of fragments any tree can produce under any layout.", "anchors": ["src/data_model.rs AssignmentExpression::build_inner", "src/data_model.rs BinaryExpression::build_inner", "src/data_model.rs TernaryExpression::build_inner", "src/data_model.rs VariableDeclarator::build_inner", "src/data_model.rs ForStatement::build_inner", "src/doc_builder.rs surround", "src/doc_builder.rs intersperse", "src/context.rs Punctuation::build_inner"]}
{"id": "C62", "title": "The longest line is enough width", "statement": "If every line of the output at some max_width is at most w bytes long, and w is not greater than that max_width, then the output at max_width w is the same: no line is broken unless the text does not fit.", "quantifier": "all syntax trees of the grammar, all pairs of line widths, all indentations, both build profiles", "why_tests_cant": "The look-ahead of the printer measures text it has not printed yet; whether its measure agrees with what is printed later is a fact about every document and every pair of widths, while the tests use the single width 80.", "anchors": ["src/doc.rs PrettyPrinter::fits", "src/doc.rs PrettyPrinter::print", "src/config.rs Config", "src/formatter.rs Formatter::format_one"]}
{"id": "C63", "title": "Beyond some width the width does not matter", "statement": "For every tree there is a width such that all greater values of max_width give the same result.", "quantifier": "all syntax trees, all indentations, both build profiles, all sufficiently great widths", "why_tests_cant": "It is a statement about infinitely many settings of max_width at once.", "anchors": ["src/doc.rs PrettyPrinter::fits", "src/doc.rs PrettyPrinter::print"]}
{"id": "C64", "title": "More width, not more lines", "statement": "A greater max_width never makes the output have more lines; in particular no width gives fewer lines than a sufficiently great one.", "quantifier": "all syntax trees, all pairs of line widths, all indentations, both build profiles", "why_tests_cant": "Breaking one group moves everything behind it; the number of lines at two widths can only be compared by an argument over all decisions of the printer.", "anchors": ["src/doc.rs PrettyPrinter::fits", "src/doc.rs PrettyPrinter::print", "src/doc_builder.rs group"]}
{"id": "C65", "title": "The indentation size multiplies the indentation", "statement": "At sufficiently great widths the texts formatted with different indent_size have the same lines but for their indentation, and the indentation of a line is indent_size times a level that does not depend on indent_size.", "quantifier": "all syntax trees, all positive indentation sizes, all line widths beyond one that depends on the tree and the size, both build profiles", "why_tests_cant": "The indentation enters the documents in every construct and the printer joins blanks behind indentation; that no size changes anything but the number of blanks needs an argument over all documents and all sizes.", "anchors": ["src/doc_builder.rs indent", "src/doc_builder.rs dedent", "src/doc.rs PrettyPrinter::print", "src/doc.rs insert_newline_with_indent"]}
{"id": "C66", "title": "The members of a file are formatted independently", "statement": "For a file whose members (classes, enums, interfaces, triggers) have no comments between them: if every member, as the only member of the file, is formatted, and contains no comments or is formatted to a text that begins with a visible character, then the whole file is formatted, and the result is the texts of the members one below the other in the order of the source, with one empty line between two members exactly where the source has at least one row between them. No member's text depends on the other members, not on its position, and not on comments in other members. Replacing one member by another that takes the same rows changes only the text of this member. A file without comments whose members follow the grammar is always formatted this way by the release build. A file that follows the grammar, with comments inside of its members only, can be formatted by the release build exactly if each of its members alone can be formatted. A member that is moved to another file is formatted to the same text there.", "quantifier": "all syntax trees with distinct node ids, all members and nesting depths, all widths and indentation sizes, both build profiles", "why_tests_cant": "Independence is a statement about every pair of members: a constructor that looks at a sibling or at the parent, a comment attached across members, or a group whose look-ahead runs past the line break shows only for particular neighbours.", "anchors": ["src/data_model.rs Root", "src/enum_def.rs BodyMember::has_trailing_newline", "src/utility.rs collect_comments", "src/doc_builder.rs intersperse_body_members", "src/doc.rs PrettyPrinter::print", "src/doc.rs PrettyPrinter::fits", "src/context.rs Punctuation::from"]}
