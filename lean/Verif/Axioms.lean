import Verif.PropsPrinter
import Verif.PropsCollect
import Verif.PropsFormat
import Verif.PropsComments
import Verif.PropsBody
import Verif.PropsOnce
import Verif.PropsErrors
import Verif.PropsThreads
import Verif.PropsCli
import Verif.PropsTokens
import Verif.PropsSoql
import Verif.PropsLoss
import Verif.PropsChains
import Verif.PropsCtor
import Verif.PropsShape
import Verif.PropsMono
import Verif.PropsIdem
import Verif.PropsWords
import Verif.PropsTrail
import Verif.PropsAgain
import Verif.PropsPlaces
import Verif.PropsBlanks
import Verif.PropsLevels
import Verif.PropsSettled
import Verif.PropsEnds
import Verif.PropsDangling
import Verif.PropsGap
import Verif.PropsWidth
import Verif.PropsSolo

/-!
# The axioms each property theorem depends on
-/

#print axioms Afmt.C01_max_width_only_whitespace
#print axioms Afmt.C01_width_only_whitespace_doc
#print axioms Afmt.C02_indent_size_only_whitespace
#print axioms Afmt.C02_indent_zero_fails
#print axioms Afmt.C03_terminates
#print axioms Afmt.C03_prints_all_text
#print axioms Afmt.C04_kept_line_fits
#print axioms Afmt.C05_fitting_group_one_line
#print axioms Afmt.C06_forced_break_breaks_group
#print axioms Afmt.C06_forced_break_after_group_ignored
#print axioms Afmt.C07_column_exact
#print axioms Afmt.C07_column_bounded
#print axioms Afmt.C08_file_indentation_multiple
#print axioms Afmt.C08_indentation_exact
#print axioms Afmt.C08_indentation_multiple
#print axioms Afmt.C09_line_comment_never_swallows_code
#print axioms Afmt.C09_line_comment_ends_line
#print axioms Afmt.C10_ends_with_newline
#print axioms Afmt.C11_blank_lines_partial
#print axioms Afmt.C11_body_text
#print axioms Afmt.C11_row_zero_false
#print axioms Afmt.C11_row_zero_always_wrong
#print axioms Afmt.C12_intersperse
#print axioms Afmt.C12_surround_nonempty
#print axioms Afmt.C12_surround_empty
#print axioms Afmt.C12_surround_panics_iff
#print axioms Afmt.C13_body_layout
#print axioms Afmt.C13_empty_body
#print axioms Afmt.C14_every_comment_attached_once
#print axioms Afmt.C14_text_kept
#print axioms Afmt.C14_owner
#print axioms Afmt.C14_owner_is_near
#print axioms Afmt.C15_every_code_node_has_bucket
#print axioms Afmt.Gram.C15_no_missing_bucket
#print axioms Afmt.C16_order_can_be_reversed
#print axioms Afmt.C16_source_order_partial
#print axioms Afmt.C17_no_comment_lost
#print axioms Afmt.C17_comment_text_in_output
#print axioms Afmt.C18_comment_only_file_fails
#print axioms Afmt.C19_comment_printed_twice
#print axioms Afmt.Gram.C19_exactly_once_partial
#print axioms Afmt.C20_comment_groups
#print axioms Afmt.C21_punctuation_not_swallowed
#print axioms Afmt.C22_line_comment_text
#print axioms Afmt.C23_reformat_block_comment
#print axioms Afmt.C24_block_comment_content
#print axioms Afmt.C24_javadoc_adds_star
#print axioms Afmt.C25_rows
#print axioms Afmt.C25_after_comments_layout
#print axioms Afmt.C25_collected_proper
#print axioms Afmt.C26_one_result_per_file
#print axioms Afmt.C26_schedule_independent
#print axioms Afmt.C26_terminates
#print axioms Afmt.C27_any_order_possible
#print axioms Afmt.C27_single_file_partial
#print axioms Afmt.C28_isolation_partial
#print axioms Afmt.C28_stack_overflow_kills_batch
#print axioms Afmt.C29_syntax_error_never_formatted
#print axioms Afmt.C29_format_one
#print axioms Afmt.C29_only_errors_rejected
#print axioms Afmt.C29_format_yields_err
#print axioms Afmt.C29_write_leaves_file
#print axioms Afmt.C30_last_innermost_error
#print axioms Afmt.C31_truncate_snippet_partial
#print axioms Afmt.C31_ascii_safe
#print axioms Afmt.C31_straddling_character_panics
#print axioms Afmt.C32_ids_irrelevant
#print axioms Afmt.C32_map_order_irrelevant
#print axioms Afmt.C33_once_per_thread
#print axioms Afmt.C33_first_write_wins
#print axioms Afmt.C34_check
#print axioms Afmt.C34_check_conflicts_with_write
#print axioms Afmt.C35_dry_run
#print axioms Afmt.C35_never_writes
#print axioms Afmt.C36_write
#print axioms Afmt.C37_crash_loses_file
#print axioms Afmt.C37_crash_content_partial
#print axioms Afmt.C38_check_then_write
#print axioms Afmt.C39_exit_code
#print axioms Afmt.C40_defaults
#print axioms Afmt.C40_overrides
#print axioms Afmt.C40_bad_config_fails_first
#print axioms Afmt.C41_same_meaning_partial
#print axioms Afmt.C41_double_negation_unreadable
#print axioms Afmt.Gram.C42_conditions_terminate
#print axioms Afmt.Gram.C42_other_kinds_never_terminate
#print axioms Afmt.Gram.C43_for_updates_lost
#print axioms Afmt.Gram.C43_empty_consequence_doubled
#print axioms Afmt.Gram.C43_modifiers_reordered
#print axioms Afmt.Gram.C43_qualified_super_dot_lost
#print axioms Afmt.Gram.C43_code_preserved_partial
#print axioms Afmt.Gram.C43_tokens_preserved_partial
#print axioms Afmt.Gram.C43_source_preserved_partial
#print axioms Afmt.Gram.C44_otherwise_printed_partial
#print axioms Afmt.Gram.C44_enhanced_for_modifiers_lost
#print axioms Afmt.Gram.C44_declarator_dimensions_lost
#print axioms Afmt.Gram.C44_method_dimensions_lost
#print axioms Afmt.Gram.C44_annotation_parentheses_lost
#print axioms Afmt.Gram.C44_query_scope_lost
#print axioms Afmt.Gram.C44_query_update_lost
#print axioms Afmt.Gram.C45_read_back_partial
#print axioms Afmt.Gram.C45_minus_minus
#print axioms Afmt.Gram.C46_group_iff
#print axioms Afmt.Gram.C46_one_group
#print axioms Afmt.Gram.C46_break_together_partial
#print axioms Afmt.Gram.C46_no_group
#print axioms Afmt.Gram.C46_array_access_broken
#print axioms Afmt.Gram.C47_group_iff
#print axioms Afmt.Gram.C47_break_together
#print axioms Afmt.Gram.C47_operators_have_precedence
#print axioms Afmt.Gram.C48_layout
#print axioms Afmt.Gram.C48_indented_alike_partial
#print axioms Afmt.Gram.C48_blank_line_outdents
#print axioms Afmt.Gram.C48_outdented_file
#print axioms Afmt.Gram.C49_only_these_failures
#print axioms Afmt.Gram.C49_comment_free_succeeds
#print axioms Afmt.C50_only_the_skeleton_matters
#print axioms Afmt.C50_failures_too
#print axioms Afmt.C50_positions
#print axioms Afmt.C50_leading_empty_lines
#print axioms Afmt.C51_comment_not_idempotent
#print axioms Afmt.C51_comma_not_idempotent
#print axioms Afmt.C51_idempotent_partial
#print axioms Afmt.C51_idempotent_with_comments_partial
#print axioms Afmt.C52_members_lined_partial
#print axioms Afmt.C52_members_and_comments_lined_partial
#print axioms Afmt.C53_more_stack_fewer_checks
#print axioms Afmt.C53_one_text
#print axioms Afmt.C53_checks_irrelevant
#print axioms Afmt.C53_one_line_class
#print axioms Afmt.Gram.C54_words_kept_partial
#print axioms Afmt.Gram.C54_words_partial
#print axioms Afmt.Gram.C54_letters_partial
#print axioms Afmt.Gram.C54_source_words_partial
#print axioms Afmt.Gram.C54_object_super_joined
#print axioms Afmt.Gram.C55_no_trailing_white_space_partial
#print axioms Afmt.Gram.C55_for_header_trails
#print axioms Afmt.Gram.C55_block_comment_trails
#print axioms Afmt.Gram.C55_no_trailing_white_space_with_comments_partial
#print axioms Afmt.Gram.C55_comment_line_trails
#print axioms Afmt.Gram.C55_call_comment_trails
#print axioms Afmt.Gram.C56_comments_keep_their_place_partial
#print axioms Afmt.Gram.C56_no_name_crossed_partial
#print axioms Afmt.Gram.C56_comment_moved_behind_names
#print axioms Afmt.Gram.C57_comments_at_owner_partial
#print axioms Afmt.Gram.C57_comments_beside_code_stay_partial
#print axioms Afmt.Gram.C57_comment_moved_before_operator
#print axioms Afmt.Gram.C58_blanks_only_indent_partial
#print axioms Afmt.Gram.C58_comment_doubles_blank
#print axioms Afmt.Gram.C58_blanks_only_indent_with_comments_partial
#print axioms Afmt.Gram.C59_indentation_is_nesting_partial
#print axioms Afmt.Gram.C59_else_branch
#print axioms Afmt.Gram.C59_anonymous_class
#print axioms Afmt.Gram.C59_constructor_call
#print axioms Afmt.Gram.C60_list_with_comment_lost
#print axioms Afmt.Gram.C60_bodies_keep_braces_partial
#print axioms Afmt.Gram.C60_call_parentheses_lost
#print axioms Afmt.Gram.C60_parameter_parentheses_lost
#print axioms Afmt.Gram.C61_spacing_partial
#print axioms Afmt.Gram.C61_operators_between_blanks_partial
#print axioms Afmt.Gram.C61_ternary_between_blanks_partial
#print axioms Afmt.Gram.C61_no_blanks_at_brackets_partial
#print axioms Afmt.Gram.C61_empty_alternative_apart
#print axioms Afmt.Gram.C61_comment_before_comma
#print axioms Afmt.Gram.C62_longest_line_is_enough_partial
#print axioms Afmt.Gram.C62_longest_line_is_enough_with_comments_partial
#print axioms Afmt.Gram.C62_comment_breaks_line
#print axioms Afmt.Gram.C63_wide_enough
#print axioms Afmt.Gram.C64_widest_has_fewest_lines_partial
#print axioms Afmt.Gram.C64_narrowest_has_most_lines_partial
#print axioms Afmt.Gram.C64_wider_gives_more_lines
#print axioms Afmt.Gram.C65_indent_size_scales
#print axioms Afmt.Gram.C65_narrow_width
#print axioms Afmt.C66_members_apart
#print axioms Afmt.C66_edit_stays_local
#print axioms Afmt.C66_comment_free
#print axioms Afmt.C66_moved_member
#print axioms Afmt.C66_formatted_iff_members
