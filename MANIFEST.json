{"claims": [
{"property": "C01", "status": "proved", "theorems": ["Afmt.C01_max_width_only_whitespace", "Afmt.C01_width_only_whitespace_doc"], "note": ""},
{"property": "C02", "status": "proved", "theorems": ["Afmt.C02_indent_size_only_whitespace", "Afmt.C02_indent_zero_fails"], "note": ""},
{"property": "C03", "status": "proved", "theorems": ["Afmt.C03_terminates", "Afmt.C03_prints_all_text"], "note": ""},
{"property": "C04", "status": "proved", "theorems": ["Afmt.C04_kept_line_fits"], "note": ""},
{"property": "C05", "status": "proved", "theorems": ["Afmt.C05_fitting_group_one_line"], "note": ""},
{"property": "C06", "status": "proved", "theorems": ["Afmt.C06_forced_break_breaks_group", "Afmt.C06_forced_break_after_group_ignored"], "note": ""},
{"property": "C07", "status": "proved", "theorems": ["Afmt.C07_column_exact", "Afmt.C07_column_bounded"], "note": ""},
{"property": "C08", "status": "proved", "theorems": ["Afmt.C08_file_indentation_multiple", "Afmt.C08_indentation_exact", "Afmt.C08_indentation_multiple"], "note": ""},
{"property": "C09", "status": "proved", "theorems": ["Afmt.C09_line_comment_never_swallows_code", "Afmt.C09_line_comment_ends_line"], "note": ""},
{"property": "C10", "status": "proved", "theorems": ["Afmt.C10_ends_with_newline"], "note": ""},
{"property": "C11", "status": "partial", "theorems": ["Afmt.C11_blank_lines_partial", "Afmt.C11_body_text", "Afmt.C11_row_zero_false", "Afmt.C11_row_zero_always_wrong"], "note": "False for members on the first row of the file (C11_row_zero_false, C11_row_zero_always_wrong); proved for all others, given that the member documents begin with text or a group."},
{"property": "C12", "status": "proved", "theorems": ["Afmt.C12_intersperse", "Afmt.C12_surround_nonempty", "Afmt.C12_surround_empty", "Afmt.C12_surround_panics_iff"], "note": ""},
{"property": "C13", "status": "proved", "theorems": ["Afmt.C13_body_layout", "Afmt.C13_empty_body"], "note": ""},
{"property": "C14", "status": "proved", "theorems": ["Afmt.C14_every_comment_attached_once", "Afmt.C14_text_kept", "Afmt.C14_owner", "Afmt.C14_owner_is_near"], "note": ""},
{"property": "C15", "status": "proved", "theorems": ["Afmt.C15_every_code_node_has_bucket", "Afmt.Gram.C15_no_missing_bucket"], "note": "buckets exist exactly for the code nodes of every tree (C15_every_code_node_has_bucket); no tree that follows the grammar as reconstructed in Gram/Grammar.lean makes the formatter ask for a missing bucket (C15_no_missing_bucket)"},
{"property": "C16", "status": "partial", "theorems": ["Afmt.C16_order_can_be_reversed", "Afmt.C16_source_order_partial"], "note": "false in general: C16_order_can_be_reversed is a counterexample; C16_source_order_partial proves it without it"},
{"property": "C17", "status": "proved", "theorems": ["Afmt.C17_no_comment_lost", "Afmt.C17_comment_text_in_output"], "note": ""},
{"property": "C18", "status": "partial", "theorems": ["Afmt.C18_comment_only_file_fails"], "note": "the property is false of the code: C18_comment_only_file_fails proves that every comment-only file fails"},
{"property": "C19", "status": "partial", "theorems": ["Afmt.C19_comment_printed_twice", "Afmt.Gram.C19_exactly_once_partial"], "note": "false of the code: C19_comment_printed_twice; proved for all trees that follow the grammar with no comment next to the type of a WITH clause (C19_exactly_once_partial)"},
{"property": "C20", "status": "proved", "theorems": ["Afmt.C20_comment_groups"], "note": ""},
{"property": "C21", "status": "proved", "theorems": ["Afmt.C21_punctuation_not_swallowed"], "note": ""},
{"property": "C22", "status": "proved", "theorems": ["Afmt.C22_line_comment_text"], "note": ""},
{"property": "C23", "status": "proved", "theorems": ["Afmt.C23_reformat_block_comment"], "note": ""},
{"property": "C24", "status": "proved", "theorems": ["Afmt.C24_block_comment_content", "Afmt.C24_javadoc_adds_star"], "note": ""},
{"property": "C25", "status": "proved", "theorems": ["Afmt.C25_rows", "Afmt.C25_after_comments_layout", "Afmt.C25_collected_proper"], "note": ""},
{"property": "C26", "status": "proved", "theorems": ["Afmt.C26_one_result_per_file", "Afmt.C26_schedule_independent", "Afmt.C26_terminates"], "note": ""},
{"property": "C27", "status": "partial", "theorems": ["Afmt.C27_any_order_possible", "Afmt.C27_single_file_partial"], "note": "false of the code: C27_any_order_possible shows every order of results is returned by some schedule; holds for a single file, which is all the CLI uses"},
{"property": "C28", "status": "partial", "theorems": ["Afmt.C28_isolation_partial", "Afmt.C28_stack_overflow_kills_batch"], "note": "holds whenever format returns; false for stack overflow (C28_stack_overflow_kills_batch)"},
{"property": "C29", "status": "proved", "theorems": ["Afmt.C29_syntax_error_never_formatted", "Afmt.C29_format_one", "Afmt.C29_only_errors_rejected", "Afmt.C29_format_yields_err", "Afmt.C29_write_leaves_file"], "note": ""},
{"property": "C30", "status": "proved", "theorems": ["Afmt.C30_last_innermost_error"], "note": ""},
{"property": "C31", "status": "partial", "theorems": ["Afmt.C31_truncate_snippet_partial", "Afmt.C31_ascii_safe", "Afmt.C31_straddling_character_panics"], "note": "false of the code when a character straddles byte 80 (C31_straddling_character_panics); exact behaviour proved for all texts, safe for ASCII"},
{"property": "C32", "status": "proved", "theorems": ["Afmt.C32_ids_irrelevant", "Afmt.C32_map_order_irrelevant"], "note": "for trees with distinct node ids (tree-sitter guarantees this)"},
{"property": "C33", "status": "proved", "theorems": ["Afmt.C33_once_per_thread", "Afmt.C33_first_write_wins"], "note": ""},
{"property": "C34", "status": "proved", "theorems": ["Afmt.C34_check", "Afmt.C34_check_conflicts_with_write"], "note": ""},
{"property": "C35", "status": "proved", "theorems": ["Afmt.C35_dry_run", "Afmt.C35_never_writes"], "note": ""},
{"property": "C36", "status": "proved", "theorems": ["Afmt.C36_write"], "note": ""},
{"property": "C37", "status": "partial", "theorems": ["Afmt.C37_crash_loses_file", "Afmt.C37_crash_content_partial"], "note": "false of the code: C37_crash_loses_file; C37_crash_content_partial says what is left after a crash at any point"},
{"property": "C38", "status": "proved", "theorems": ["Afmt.C38_check_then_write"], "note": ""},
{"property": "C39", "status": "proved", "theorems": ["Afmt.C39_exit_code"], "note": ""},
{"property": "C40", "status": "proved", "theorems": ["Afmt.C40_defaults", "Afmt.C40_overrides", "Afmt.C40_bad_config_fails_first"], "note": ""},
{"property": "C41", "status": "partial", "theorems": ["Afmt.C41_same_meaning_partial", "Afmt.C41_double_negation_unreadable"], "note": "Proved for all conditions, all truth assignments and every reading of the printed tokens, except a NOT directly inside a NOT; there the property is false (C41_double_negation_unreadable). Connectives with dangling comments are excluded."},
{"property": "C42", "status": "proved", "theorems": ["Afmt.Gram.C42_conditions_terminate", "Afmt.Gram.C42_other_kinds_never_terminate"], "note": "proved for trees that follow the grammar as reconstructed in Gram/Grammar.lean; for any other kind of node the constructors recurse forever (C42_other_kinds_never_terminate)"},
{"property": "C43", "status": "partial", "theorems": ["Afmt.Gram.C43_for_updates_lost", "Afmt.Gram.C43_empty_consequence_doubled", "Afmt.Gram.C43_modifiers_reordered", "Afmt.Gram.C43_qualified_super_dot_lost", "Afmt.Gram.C43_code_preserved_partial", "Afmt.Gram.C43_tokens_preserved_partial", "Afmt.Gram.C43_source_preserved_partial"], "note": "proved for all trees of the grammar in Gram/Grammar.lean, which leaves out the constructs known to lose or change tokens (C44 and findings in DESIGN.md)"},
{"property": "C44", "status": "partial", "theorems": ["Afmt.Gram.C44_otherwise_printed_partial", "Afmt.Gram.C44_enhanced_for_modifiers_lost", "Afmt.Gram.C44_declarator_dimensions_lost", "Afmt.Gram.C44_method_dimensions_lost", "Afmt.Gram.C44_annotation_parentheses_lost", "Afmt.Gram.C44_query_scope_lost", "Afmt.Gram.C44_query_update_lost"], "note": "false of the code: six constructs lose tokens (C44_*_lost); proved for every such node in trees of the grammar, which leaves exactly these constructs out"},
{"property": "C45", "status": "partial", "theorems": ["Afmt.Gram.C45_read_back_partial", "Afmt.Gram.C45_minus_minus"], "note": "false of the code for a sign before the same sign (C45_minus_minus); C45_read_back_partial characterises exactly which nestings are read back unchanged"},
{"property": "C46", "status": "partial", "theorems": ["Afmt.Gram.C46_group_iff", "Afmt.Gram.C46_one_group", "Afmt.Gram.C46_break_together_partial", "Afmt.Gram.C46_no_group", "Afmt.Gram.C46_array_access_broken"], "note": "Proved: at most one access of a chain opens a group, which one, and that all dots of a chain ending in a dot access break together. False for chains that end in an array access or stand in an array index (C46_no_group, C46_array_access_broken)."},
{"property": "C47", "status": "proved", "theorems": ["Afmt.Gram.C47_group_iff", "Afmt.Gram.C47_break_together", "Afmt.Gram.C47_operators_have_precedence"], "note": ""},
{"property": "C48", "status": "partial", "theorems": ["Afmt.Gram.C48_layout", "Afmt.Gram.C48_indented_alike_partial", "Afmt.Gram.C48_blank_line_outdents", "Afmt.Gram.C48_outdented_file"], "note": "The layout of every constructor body is proved (C48_layout). The claim holds without a blank line after the call (C48_indented_alike_partial) and is false with one (C48_blank_line_outdents, C48_outdented_file)."},
{"property": "C49", "status": "proved", "theorems": ["Afmt.Gram.C49_only_these_failures", "Afmt.Gram.C49_comment_free_succeeds"], "note": "for the grammar in Gram/Grammar.lean"},
{"property": "C50", "status": "proved", "theorems": ["Afmt.C50_only_the_skeleton_matters", "Afmt.C50_failures_too", "Afmt.C50_positions", "Afmt.C50_leading_empty_lines"], "note": "for trees with distinct node ids; the skeleton is Verif/Skel.lean"},
{"property": "C51", "status": "partial", "theorems": ["Afmt.C51_comment_not_idempotent", "Afmt.C51_comma_not_idempotent", "Afmt.C51_idempotent_partial", "Afmt.C51_idempotent_with_comments_partial"], "note": "For trees that follow the grammar of Gram/Grammar.lean and have no comments (C51_idempotent_partial) or only comments in bodies, in lines of their own or at the end of the last line of a member, not in the first line (C51_idempotent_with_comments_partial). False with comments elsewhere (C51_comment_not_idempotent, C51_comma_not_idempotent). Missing: harmless comments inside statements and declarations, token-losing constructs, the parser."},
{"property": "C52", "status": "partial", "theorems": ["Afmt.C52_members_lined_partial", "Afmt.C52_members_and_comments_lined_partial"], "note": "For trees that follow the grammar of Gram/Grammar.lean and have no comments, and with C52_members_and_comments_lined_partial for those whose comments are in bodies, in lines of their own or at the end of the last line of a member (settled). Missing: comments elsewhere (inside statements and declarations), token-losing constructs."},
{"property": "C53", "status": "proved", "theorems": ["Afmt.C53_more_stack_fewer_checks", "Afmt.C53_one_text", "Afmt.C53_checks_irrelevant", "Afmt.C53_one_line_class"], "note": ""},
{"property": "C54", "status": "partial", "theorems": ["Afmt.Gram.C54_words_kept_partial", "Afmt.Gram.C54_words_partial", "Afmt.Gram.C54_letters_partial", "Afmt.Gram.C54_source_words_partial", "Afmt.Gram.C54_object_super_joined"], "note": "proved for all trees of the grammar in Gram/Grammar.lean, with and without comments; the full statement is false (C54_object_super_joined)"},
{"property": "C55", "status": "partial", "theorems": ["Afmt.Gram.C55_no_trailing_white_space_partial", "Afmt.Gram.C55_for_header_trails", "Afmt.Gram.C55_block_comment_trails", "Afmt.Gram.C55_no_trailing_white_space_with_comments_partial", "Afmt.Gram.C55_comment_line_trails", "Afmt.Gram.C55_call_comment_trails"], "note": "Proved for all trees of the grammar in Gram/Grammar.lean whose `for` statements have an update and whose comments, if any, are between members, have no empty lines and do not follow a lone explicit constructor call; the full statement is false without the update (C55_for_header_trails), for comments in other places (C55_block_comment_trails), with empty lines (C55_comment_line_trails) or after such a call (C55_call_comment_trails)."},
{"property": "C56", "status": "partial", "theorems": ["Afmt.Gram.C56_comments_keep_their_place_partial", "Afmt.Gram.C56_no_name_crossed_partial", "Afmt.Gram.C56_comment_moved_behind_names"], "note": "Proved for all trees of the grammar in Gram/Grammar.lean with comments in all positions but directly after the field list of an object in a RETURNING clause, where the full statement is false (C56_comment_moved_behind_names)."},
{"property": "C57", "status": "partial", "theorems": ["Afmt.Gram.C57_comments_at_owner_partial", "Afmt.Gram.C57_comments_beside_code_stay_partial", "Afmt.Gram.C57_comment_moved_before_operator"], "note": "Proved for all trees of the grammar in Gram/Grammar.lean and all comments but those that dangle in an empty node and those at the nodes excluded by keepsBefore and keepsAfter (before `,`, `;`, FOR clauses and the fields of a RETURNING clause, after the latter and after accessors), which are moved over one token. Without the hypothesis that nothing but comments is in between, the second part is false (C57_comment_moved_before_operator)."},
{"property": "C58", "status": "partial", "theorems": ["Afmt.Gram.C58_blanks_only_indent_partial", "Afmt.Gram.C58_comment_doubles_blank", "Afmt.Gram.C58_blanks_only_indent_with_comments_partial"], "note": "Proved for all trees of the grammar in Gram/Grammar.lean whose `for` statements have an update and whose comments, if any, are between members, have no two blanks in a row and no empty lines and do not follow a lone explicit constructor call; the full statement is false with comments in other places (C58_comment_doubles_blank)."},
{"property": "C59", "status": "partial", "theorems": ["Afmt.Gram.C59_indentation_is_nesting_partial", "Afmt.Gram.C59_else_branch", "Afmt.Gram.C59_anonymous_class", "Afmt.Gram.C59_constructor_call"], "note": "Proved for all trees of the grammar whose comments are between members, without empty lines in comments, whose `for` statements have an update, without a comment after a lone constructor call, and that are `regulars`; the full statement is false for anonymous classes, an empty line after a constructor call, and multi-line `else` branches without braces (C59_anonymous_class, C59_constructor_call, C59_else_branch)."},
{"property": "C60", "status": "partial", "theorems": ["Afmt.Gram.C60_list_with_comment_lost", "Afmt.Gram.C60_bodies_keep_braces_partial", "Afmt.Gram.C60_call_parentheses_lost", "Afmt.Gram.C60_parameter_parentheses_lost"], "note": "False of the code: argument lists, formal parameters, array and map initializers with nothing but a comment are printed as the comment alone, without brackets (C60_list_with_comment_lost for all of them, with two whole-file witnesses). Proved for class, interface, enum and constructor bodies and blocks (C60_bodies_keep_braces_partial)."},
{"property": "C61", "status": "partial", "theorems": ["Afmt.Gram.C61_spacing_partial", "Afmt.Gram.C61_operators_between_blanks_partial", "Afmt.Gram.C61_ternary_between_blanks_partial", "Afmt.Gram.C61_no_blanks_at_brackets_partial", "Afmt.Gram.C61_empty_alternative_apart", "Afmt.Gram.C61_comment_before_comma"], "note": "Proved for all trees of the grammar without comments whose printed words are spaced themselves (`apart`) and whose `for` statements have an update; with key-value annotations a single = may be tight everywhere. False with comments (C61_comment_before_comma) and for an empty `else` branch, which is outside of the grammar (C61_empty_alternative_apart)."},
{"property": "C62", "status": "partial", "theorems": ["Afmt.Gram.C62_longest_line_is_enough_partial", "Afmt.Gram.C62_longest_line_is_enough_with_comments_partial", "Afmt.Gram.C62_comment_breaks_line"], "note": "Proved for all trees of the grammar whose comments, if any, are between members, whose printed words have no line breaks and no white space at their ends and whose `for` statements have an update. False with comments inside statements (C62_comment_breaks_line)."},
{"property": "C63", "status": "proved", "theorems": ["Afmt.Gram.C63_wide_enough"], "note": "For every tree, with or without comments, inside or outside of the grammar."},
{"property": "C64", "status": "partial", "theorems": ["Afmt.Gram.C64_widest_has_fewest_lines_partial", "Afmt.Gram.C64_narrowest_has_most_lines_partial", "Afmt.Gram.C64_wider_gives_more_lines"], "note": "Proved for every tree: no width gives fewer lines than a sufficiently great one, and none gives more than width 0. False for arbitrary pairs of widths (C64_wider_gives_more_lines)."},
{"property": "C65", "status": "proved", "theorems": ["Afmt.Gram.C65_indent_size_scales", "Afmt.Gram.C65_narrow_width"], "note": "For every tree and all sizes; the bound on the width is needed (C65_narrow_width)."},
{"property": "C66", "status": "proved", "theorems": ["Afmt.C66_members_apart", "Afmt.C66_edit_stays_local", "Afmt.C66_comment_free", "Afmt.C66_moved_member", "Afmt.C66_formatted_iff_members"], "note": "No comments between the members; the texts of members with comments begin with a visible character (C66_comment_free and members without comments need no such condition); row 0 excluded for later members (C11_row_zero_false)."}
]}
