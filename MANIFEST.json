{
 "claims": [
  {
   "property": "C01",
   "status": "proved",
   "theorems": [
    "Crm.C01_path_roundtrip",
    "Crm.C01_trailing_slash",
    "Crm.C01_split_raises_iff",
    "Crm.C01_split_injective",
    "Crm.C01_root_is_lost",
    "Crm.C01_relative_path_is_misread"
   ],
   "note": "For every non-empty list of components. The root path / is the documented exception (C01_root_is_lost), and relative paths are misread rather than rejected (C01_relative_path_is_misread)."
  },
  {
   "property": "C02",
   "status": "proved",
   "theorems": [
    "Crm.C02_one_slash",
    "Crm.C02_append_walks"
   ],
   "note": ""
  },
  {
   "property": "C03",
   "status": "proved",
   "theorems": [
    "Crm.C03_path_semantics",
    "Crm.C03_comments_invisible",
    "Crm.C03_contains_value_ignores_comments",
    "Crm.C03_insert_comment",
    "Crm.C03_index_tables",
    "Crm.C03_emptied_element_becomes_comment"
   ],
   "note": "For trees in which no value-less node with its own comment has only comment lines below it; outside of that the claim is false of the code (C03_emptied_element_becomes_comment)."
  },
  {
   "property": "C04",
   "status": "proved",
   "theorems": [
    "Crm.C04_keyError_iff",
    "Crm.C04_default_missing",
    "Crm.C04_default_existing",
    "Crm.C04_contains_total",
    "Crm.C04_contains_iff_lookup"
   ],
   "note": "Assumes the YAML loader itself does not raise KeyError."
  },
  {
   "property": "C05",
   "status": "proved",
   "theorems": [
    "Crm.C05_one_path_per_value",
    "Crm.C05_paths_lead_to_values",
    "Crm.C05_listed_paths_exist",
    "Crm.C05_paths_distinct",
    "Crm.C05_numeric_key_violation"
   ],
   "note": "For regular documents (distinct, non-numeric, slash-free sibling keys; a mapping or list at the top). A numeric key is a counterexample outside of that (C05_numeric_key_violation)."
  },
  {
   "property": "C06",
   "status": "partial",
   "theorems": [
    "Crm.C06_collections_rejected",
    "Crm.C06_find_value_exact",
    "Crm.C06_find_value_partial",
    "Crm.C06_key_name_violation"
   ],
   "note": "C06_find_value_exact says exactly what is returned. Missing, because false of the code: a key without a value is also reported when its own name is searched for (C06_key_name_violation)."
  },
  {
   "property": "C07",
   "status": "proved",
   "theorems": [
    "Crm.C07_test",
    "Crm.C07_missing"
   ],
   "note": ""
  },
  {
   "property": "C08",
   "status": "partial",
   "theorems": [
    "Crm.C08_rejected_unchanged_partial",
    "Crm.C08_move_residue",
    "Crm.C08_move_loses_source"
   ],
   "note": "A failed patch (False or an exception) leaves the recipe as it was for every operation except move. Missing, because false of the code: a move that fails after its removal step loses the source (C08_move_residue says exactly what is left, C08_move_loses_source is a concrete case)."
  },
  {
   "property": "C09",
   "status": "proved",
   "theorems": [
    "Crm.C09_remove",
    "Crm.C09_remove_root"
   ],
   "note": "Removing a bare scalar (addressed by its own value) is refused; everything else is removed exactly. What a path elsewhere reads is C17."
  },
  {
   "property": "C10",
   "status": "proved",
   "theorems": [
    "Crm.C10_new_key",
    "Crm.C10_missing_parent",
    "Crm.C10_existing",
    "Crm.C10_below_list_value_violation",
    "Crm.C10_readback",
    "Crm.C10_text_becomes_number"
   ],
   "note": "For a parent that is a key, the root or a list element that is itself a mapping. Below a scalar list element the code inserts in front of it instead (C10_below_list_value_violation), and texts are re-read as YAML (C10_text_becomes_number)."
  },
  {
   "property": "C11",
   "status": "proved",
   "theorems": [
    "Crm.C11_append",
    "Crm.C11_insert",
    "Crm.C11_out_of_range",
    "Crm.C11_collection_overwritten",
    "Crm.C11_readback"
   ],
   "note": "Proved for lists of scalars as stated. Beyond the property: an index past the end raises IndexError (C11_out_of_range) and adding at the index of a mapping element overwrites it (C11_collection_overwritten)."
  },
  {
   "property": "C12",
   "status": "partial",
   "theorems": [
    "Crm.C12_mapping_in_list_violation",
    "Crm.C12_replace",
    "Crm.C12_replace_element",
    "Crm.C12_out_of_range",
    "Crm.C12_missing",
    "Crm.C12_readback"
   ],
   "note": "Proved: what replaces what, the frame, and the value read back after a list item or a key is replaced. A missing last component of a replace is reported by C12_missing. Missing because false of the code: a mapping in a list that is replaced by a text is not read as the text (C12_mapping_in_list_violation)."
  },
  {
   "property": "C13",
   "status": "proved",
   "theorems": [
    "Crm.C13_onto_itself",
    "Crm.C13_missing_source",
    "Crm.C13_remove_then_add",
    "Crm.C13_move_succeeds"
   ],
   "note": "A move is exactly a remove followed by an add; a move onto itself returns True and does nothing even if the place does not exist (C13_onto_itself). What is left after a failing move is C08."
  },
  {
   "property": "C14",
   "status": "proved",
   "theorems": [
    "Crm.C14_copy_is_add",
    "Crm.C14_unreadable_source",
    "Crm.C14_source_kept",
    "Crm.C14_sibling_kept"
   ],
   "note": "A copy is the add of the value read at the source; the source and its siblings read as before under the guard stated in C14_source_kept / C14_sibling_kept."
  },
  {
   "property": "C15",
   "status": "proved",
   "theorems": [
    "Crm.C15_rejected_iff",
    "Crm.C15_no_effect"
   ],
   "note": "Assumes the YAML loader does not itself raise the validation exception."
  },
  {
   "property": "C16",
   "status": "proved",
   "theorems": [
    "Crm.C16_initially_false",
    "Crm.C16_modified_iff",
    "Crm.C16_stays_true",
    "Crm.C16_unmodified_without_failed_move"
   ],
   "note": "For every history of calls, the dependency calls included. The converse direction (not modified implies unchanged) is C16_unmodified_without_failed_move: a move that fails after its removal step changes the recipe without setting the flag."
  },
  {
   "property": "C17",
   "status": "proved",
   "theorems": [
    "Crm.C17_elsewhere",
    "Crm.C17_after_remove",
    "Crm.C17_after_insert",
    "Crm.C17_after_append"
   ],
   "note": "For every operation but move, which C13 reduces to remove and add. Guard: the edited node does not become a mere comment, see C03_emptied_element_becomes_comment."
  },
  {
   "property": "C18",
   "status": "partial",
   "theorems": [
    "Crm.C18_true_iff_partial",
    "Crm.C18_otherwise_iff",
    "Crm.C18_no_match",
    "Crm.C18_stale_paths_violation"
   ],
   "note": "Proved: the result is true exactly if the patch succeeds at every match, in order. Missing, because false of the code: the matches are computed up front, so an edit that shifts elements makes later paths stale (C18_stale_paths_violation)."
  },
  {
   "property": "C19",
   "status": "partial",
   "theorems": [
    "Crm.C19_meaning",
    "Crm.C19_initially",
    "Crm.C19_agrees_partial",
    "Crm.C19_queries_partial",
    "Crm.C19_comment_violation",
    "Crm.C19_failed_move_violation"
   ],
   "note": "Proved for every history of calls, the dependency calls included, that avoids the exceptions of keepsIndex. Missing, because false of the code: add_comment with a bracketed text is not indexed (C19_comment_violation) and a move that fails half way leaves a stale entry (C19_failed_move_violation)."
  },
  {
   "property": "C20",
   "status": "partial",
   "theorems": [
    "Crm.C20_elsewhere",
    "Crm.C20_replace_readable_partial",
    "Crm.C20_comment_lost_violation",
    "Crm.C20_plain_comment_kept",
    "Crm.C20_errors"
   ],
   "note": "First half proved: the selector is readable and nothing else changes. Second half is false of the code in REPLACE mode (C20_comment_lost_violation); in AND/OR mode a plain comment is kept (C20_plain_comment_kept)."
  },
  {
   "property": "C21",
   "status": "partial",
   "theorems": [
    "Crm.C21_text",
    "Crm.C21_and_partial",
    "Crm.C21_or_partial",
    "Crm.C21_and_violation",
    "Crm.C21_or_violation"
   ],
   "note": "AND is proved when the old selector has no or, OR when it has no and. Missing, because false of the code: mixed operators, as the code joins without parentheses (C21_and_violation, C21_or_violation)."
  },
  {
   "property": "C22",
   "status": "proved",
   "theorems": [
    "Crm.C22_none",
    "Crm.C22_no_such_path",
    "Crm.C22_removed",
    "Crm.C22_elsewhere",
    "Crm.C22_usual_shapes"
   ],
   "note": "For one-line comments. The rest of the comment is kept up to white space and # signs, and exactly in the usual shapes."
  },
  {
   "property": "C23",
   "status": "partial",
   "theorems": [
    "Crm.C23_added_partial",
    "Crm.C23_errors",
    "Crm.C23_bracket_violation"
   ],
   "note": "Proved for one-line texts without brackets. Missing, because false of the code: a text with a closing bracket becomes part of the selector (C23_bracket_violation)."
  },
  {
   "property": "C24",
   "status": "partial",
   "theorems": [
    "Crm.C24_no_side_effects_partial",
    "Crm.C24_second_answer_violation"
   ],
   "note": "Everything but a repeated get_selector_paths for the same selector. Missing, because false of the code: the second answer is always a single empty path (C24_second_answer_violation)."
  },
  {
   "property": "C25",
   "status": "partial",
   "theorems": [
    "Crm.C25_right_associative",
    "Crm.C25_boolean_expression_partial",
    "Crm.C25_precedence_wrong",
    "Crm.C25_parentheses_ignored",
    "Crm.C25_applies"
   ],
   "note": "Proved: the code groups and/or to the right with equal precedence (C25_right_associative), which is the intended Boolean meaning whenever no 'and' precedes an 'or' (C25_boolean_expression_partial). Missing, because false of the code: mixed expressions (C25_precedence_wrong) and parentheses (C25_parentheses_ignored)."
  },
  {
   "property": "C26",
   "status": "proved",
   "theorems": [
    "Crm.C26_case_and_spacing",
    "Crm.C26_words_total",
    "Crm.C26_unknown_word",
    "Crm.C26_fuel_is_enough"
   ],
   "note": "ASCII letter case; white space exact."
  },
  {
   "property": "C27",
   "status": "proved",
   "theorems": [
    "Crm.C27_eq_sound",
    "Crm.C27_eq_equivalence",
    "Crm.C27_render_roundtrip",
    "Crm.C27_eq_incomplete"
   ],
   "note": "Soundness of equality, and the render round trip. The converse (same platforms imply equal) is not claimed and false (C27_eq_incomplete)."
  },
  {
   "property": "C28",
   "status": "proved",
   "theorems": [
    "Crm.C28_platforms_by_os",
    "Crm.C28_platforms_by_arch",
    "Crm.C28_os_partition",
    "Crm.C28_nonempty",
    "Crm.C28_names"
   ],
   "note": ""
  },
  {
   "property": "C29",
   "status": "proved",
   "theorems": [
    "Crm.C29_values",
    "Crm.C29_order",
    "Crm.C29_del_unknown",
    "Crm.C29_initial_nodup"
   ],
   "note": ""
  },
  {
   "property": "C30",
   "status": "partial",
   "theorems": [
    "Crm.C30_v0_literals_partial",
    "Crm.C30_quoted_text_violation",
    "Crm.C30_v0_definitions_partial",
    "Crm.C30_v0_set_del_partial",
    "Crm.C30_v1_edits_invisible",
    "Crm.C30_v1_violation"
   ],
   "note": "V0 recipes: proved (one definition line per variable, whose right side is a Python literal for the value, C30_v0_literals_partial); texts with double quotes, backslashes or line breaks are written unescaped (C30_quoted_text_violation). V1 recipes: false of the code, edits of variables never reach the rendered text (C30_v1_edits_invisible, C30_v1_violation)."
  },
  {
   "property": "C31",
   "status": "partial",
   "theorems": [
    "Crm.C31_layout_does_not_matter_partial",
    "Crm.C31_free_layout_partial",
    "Crm.C31_free_layout_round_trip_partial",
    "Crm.C31_unindented_list_violation",
    "Crm.C31_remark_is_lost_violation",
    "Crm.C31_tree_is_written",
    "Crm.C31_text_is_read",
    "Crm.C31_recipe_text_is_read",
    "Crm.C31_render",
    "Crm.C31_written_recipe_is_read_back_partial",
    "Crm.C31_round_trip_partial",
    "Crm.C31_render_is_stable_partial",
    "Crm.C31_text_is_kept_partial",
    "Crm.C31_nested_empty_key_is_lost",
    "Crm.C31_trailing_text_grows",
    "Crm.C31_text_at_the_end_cannot_be_read",
    "Crm.C31_quotes_are_lost",
    "Crm.C31_repeated_entry_splits",
    "Crm.C31_empty_first_key_captures",
    "Crm.C31_wide_indentation_moves",
    "Crm.C31_constraint_is_lost"
   ],
   "note": "Proved for every document (any depth and width) in the layout that render produces: Spec/Document.lean defines documents, their text and their tree without the parser or renderer. Reading the text gives the tree, writing the tree gives the text, reading what render wrote gives the same recipe (tree, comments, variables, schema, selectors), and a text in this layout is kept character by character. Missing: trees outside Document, where the claim is false; witnesses are the C31_* violation theorems (nested empty key, text at the end of a section or file, lost quotes, repeated first entry, wide indentation, lists that are not indented, constraint after a colon, remarks to Jinja)."
  },
  {
   "property": "C32",
   "status": "proved",
   "theorems": [
    "Crm.C32_stable_sort",
    "Crm.C32_unique",
    "Crm.C32_idempotent",
    "Crm.C32_layout",
    "Crm.C32_tables_small",
    "Crm.C32_sort_subtree",
    "Crm.C32_rename",
    "Crm.C32_sort_again"
   ],
   "note": "Stable sort specification, uniqueness, idempotence, layout (comments, known keys, rest) and effect on a recipe."
  },
  {
   "property": "C33",
   "status": "proved",
   "theorems": [
    "Crm.C33_equal_iff",
    "Crm.C33_equal_same_digest",
    "Crm.C33_digest_separates",
    "Crm.C33_diff_unmodified",
    "Crm.C33_diff_modified",
    "Crm.C33_fresh"
   ],
   "note": ""
  },
  {
   "property": "C34",
   "status": "proved",
   "theorems": [
    "Crm.C34_round_trip",
    "Crm.C34_converts_iff",
    "Crm.C34_unknown",
    "Crm.C34_injective"
   ],
   "note": "Exact characterisation of str_to_dependency_section, both directions, and injectivity per schema."
  },
  {
   "property": "C35",
   "status": "proved",
   "theorems": [
    "Crm.C35_names_to_path",
    "Crm.C35_valueError",
    "Crm.C35_duplicate_raises",
    "Crm.C35_keyError_iff"
   ],
   "note": "Success, ValueError and KeyError are each characterised for every recipe and loader."
  },
  {
   "property": "C36",
   "status": "partial",
   "theorems": [
    "Crm.C36_all_dependencies_partial",
    "Crm.C36_entry_iff",
    "Crm.C36_text_section_violation",
    "Crm.C36_number_entry_violation",
    "Crm.C36_empty_section_violation",
    "Crm.C36_requirements_no_mapping"
   ],
   "note": "Proved when every known section is a list of texts and empty entries; C36_text_section_violation, C36_number_entry_violation and C36_empty_section_violation show that a section written as one text is read letter by letter and that a number as an entry, or a section without entries, makes the call raise."
  },
  {
   "property": "C37",
   "status": "partial",
   "theorems": [
    "Crm.C37_valid_path_iff",
    "Crm.C37_invalid_path",
    "Crm.C37_no_requirements",
    "Crm.C37_append",
    "Crm.C37_ignore",
    "Crm.C37_replace",
    "Crm.C37_exact",
    "Crm.C37_new_section_partial",
    "Crm.C37_appended",
    "Crm.C37_replaced",
    "Crm.C37_section_created",
    "Crm.C37_append_selector",
    "Crm.C37_replace_selector",
    "Crm.C37_selector_preserved",
    "Crm.C37_selector_joined",
    "Crm.C37_exact_selector",
    "Crm.C37_exact_joined",
    "Crm.C37_remove",
    "Crm.C37_new_section_selector_violation"
   ],
   "note": "Proved for every mode, with and without selectors; C37_new_section_selector_violation: a selector on a dependency in a new section also lands on the section's line."
  },
  {
   "property": "C38",
   "status": "proved",
   "theorems": [
    "Crm.C38_first",
    "Crm.C38_no_entry",
    "Crm.C38_unknown",
    "Crm.C38_errors_iff",
    "Crm.C38_table",
    "Crm.C38_lookup",
    "Crm.C38_variables",
    "Crm.C38_no_mapping"
   ],
   "note": "Table construction and lookup, for every file, query and default."
  },
  {
   "property": "C39",
   "status": "partial",
   "theorems": [
    "Crm.C39_edges_partial",
    "Crm.C39_firsts_iff",
    "Crm.C39_none_name_violation"
   ],
   "note": "False when the name of a package is read as None: networkx refuses the node and no graph is built at all (C39_none_name_violation). Proved for all other recipes in which names that Python holds to be equal are the same value, numbers included."
  },
  {
   "property": "C40",
   "status": "partial",
   "theorems": [
    "Crm.C40_stats_partial",
    "Crm.C40_contains",
    "Crm.C40_from_disk_partial",
    "Crm.C40_from_disk_distinct",
    "Crm.C40_same_recipe_violation"
   ],
   "note": "Proved under the conditions of C39 on names. Files with the same recipe are counted once (C40_same_recipe_violation); with distinct digests all are counted."
  },
  {
   "property": "C41",
   "status": "proved",
   "theorems": [
    "Crm.C41_fetch_ok_iff",
    "Crm.C41_fetch_error",
    "Crm.C41_http",
    "Crm.C41_git",
    "Crm.C41_git_results"
   ],
   "note": ""
  },
  {
   "property": "C42",
   "status": "partial",
   "theorems": [
    "Crm.C42_target",
    "Crm.C42_checkout_partial",
    "Crm.C42_tag_violation",
    "Crm.C42_tag_violation_witness",
    "Crm.C42_tag_and_branch_violation",
    "Crm.C42_local_violation",
    "Crm.C42_retry_violation"
   ],
   "note": "Proved when neither tag nor revision is given. With one, the branch (or nothing) is checked out instead (C42_tag_violation, C42_tag_and_branch_violation); local repositories are never fetched (C42_local_violation); after a failed checkout no fetch succeeds (C42_retry_violation)."
  },
  {
   "property": "C43",
   "status": "proved",
   "theorems": [
    "Crm.C43_list",
    "Crm.C43_single",
    "Crm.C43_none"
   ],
   "note": "For source sections made of mappings."
  },
  {
   "property": "C44",
   "status": "proved",
   "theorems": [
    "Crm.C44_first_success",
    "Crm.C44_all_fail",
    "Crm.C44_crash",
    "Crm.C44_cases"
   ],
   "note": "Every pattern of attempts; the sleep after the last failure is part of the statement."
  },
  {
   "property": "C45",
   "status": "partial",
   "theorems": [
    "Crm.C45_success",
    "Crm.C45_untouched_partial",
    "Crm.C45_codes",
    "Crm.C45_write_failure_violation"
   ],
   "note": "Proved for everything but a failure in the middle of the final write (C45_write_failure_violation)."
  },
  {
   "property": "C46",
   "status": "partial",
   "theorems": [
    "Crm.C46_build_number_partial",
    "Crm.C46_refused",
    "Crm.C46_both_flags_violation"
   ],
   "note": "Increment, reset and refusals proved; with both options the code increments instead of resetting (C46_both_flags_violation)."
  },
  {
   "property": "C47",
   "status": "partial",
   "theorems": [
    "Crm.C47_failed_downloads",
    "Crm.C47_failure_violation",
    "Crm.C47_any_order_partial",
    "Crm.C47_template_source_violation"
   ],
   "note": "Proved for every pair of completion orders when the numbered sources are mappings in the recipe's tree; C47_failed_downloads: when every failure is a failed download, every order ends with the documented exit code. Missing, because false of the code: sources that are templates (C47_template_source_violation), and mixed kinds of failures (C47_failure_violation)."
  },
  {
   "property": "C48",
   "status": "partial",
   "theorems": [
    "Crm.C48_variable",
    "Crm.C48_field_partial",
    "Crm.C48_number_violation",
    "Crm.C48_v1_violation",
    "Crm.C48_unused_variable_violation"
   ],
   "note": "Proved for V0 recipes with a version variable and for recipes without one when YAML reads the version as text; violated for number-like versions, V1 context versions and unused version variables."
  },
  {
   "property": "C49",
   "status": "partial",
   "theorems": [
    "Crm.C49_success",
    "Crm.C49_refused",
    "Crm.C49_invalid",
    "Crm.C49_raised",
    "Crm.C49_cases_partial",
    "Crm.C49_unusable",
    "Crm.C49_atomic_violation",
    "Crm.C49_rewrite_violation"
   ],
   "note": "Exit 0 exactly when all patches apply in order; the file then holds the fully patched recipe; each failure mode has its code. The command is not atomic: with a failing patch the earlier ones stay in the file (C49_atomic_violation), and a failing run still rewrites the file (C49_rewrite_violation)."
  },
  {
   "property": "C50",
   "status": "partial",
   "theorems": [
    "Crm.C50_reached",
    "Crm.C50_passed_partial",
    "Crm.C50_threshold_violation",
    "Crm.C50_self_check_violation",
    "Crm.C50_few",
    "Crm.C50_converted",
    "Crm.C50_failed",
    "Crm.C50_stats",
    "Crm.C50_results",
    "Crm.C50_self_check_partial"
   ],
   "note": "Classification, statistics and histograms are proved for every result list. The expected number of successes is off by the recipes failing in pre-processing or not V0 (C50_self_check_violation); the threshold is compared with the rounded rate, so it can pass half a hundredth below (C50_threshold_violation)."
  },
  {
   "property": "C51",
   "status": "partial",
   "theorems": [
    "Crm.C51_first_result",
    "Crm.C51_original_untouched_partial",
    "Crm.C51_copy",
    "Crm.C51_second_call_differs"
   ],
   "note": "Proved: a conversion, returning or raising, leaves the object's own recipe unchanged; the first conversion depends on nothing but the text that the recipe renders (C51_first_result). Not true and refuted: that every conversion does; the converted copy and the messages are kept, so a second call gives another answer."
  },
  {
   "property": "C52",
   "status": "partial",
   "theorems": [
    "Crm.C52_results",
    "Crm.C52_stats",
    "Crm.C52_debug",
    "Crm.C52_build",
    "Crm.C52_reached",
    "Crm.C52_passed_partial",
    "Crm.C52_debug_violation"
   ],
   "note": "Accounting, error extraction and debug entries are proved. A failing recipe without an Error: line is in no debug entry (C52_debug_violation); the threshold is compared with the rounded rate (C52_passed_partial)."
  },
  {
   "property": "C53",
   "status": "proved",
   "theorems": [
    "Crm.C53_answer",
    "Crm.C53_identifier",
    "Crm.C53_known",
    "Crm.C53_combination",
    "Crm.C53_unlimited_violation",
    "Crm.C53_letters_within_a_word_violation"
   ],
   "note": "C53_answer says for every text, database and matcher what the answer is. Observed: the answer for Unlimited is not an SPDX identifier (C53_unlimited_violation), and letters within a word (Borceux, Standard) make a licence look like a combination (C53_letters_within_a_word_violation)."
  },
  {
   "property": "C54",
   "status": "partial",
   "theorems": [
    "Crm.C54_reported",
    "Crm.C54_once",
    "Crm.C54_order",
    "Crm.C54_python",
    "Crm.C54_not_also_for_tests_partial",
    "Crm.C54_sections",
    "Crm.C54_messages",
    "Crm.C54_python_for_tests_violation",
    "Crm.C54_relative_import_violation"
   ],
   "note": "C54_reported says exactly what is reported. Missing, because false of the code: a test file that imports a module called python makes Python a test dependency too (C54_python_for_tests_violation). Relative imports of the project's own modules are reported as packages (C54_relative_import_violation)."
  },
  {
   "property": "C55",
   "status": "partial",
   "theorems": [
    "Crm.C55_reported_partial",
    "Crm.C55_no_project",
    "Crm.C55_text_violation",
    "Crm.C55_exception_violation",
    "Crm.C55_dependencies_without_elements",
    "Crm.C55_no_table"
   ],
   "note": "Proved for every project table whose entries are lists of texts. Missing, because false of the code: a text instead of the list is reported letter by letter, other values raise instead of giving a message (C55_text_violation, C55_exception_violation)."
  },
  {
   "property": "C56",
   "status": "proved",
   "theorems": [
    "Crm.C56_messages",
    "Crm.C56_totals"
   ],
   "note": ""
  },
  {
   "property": "C57",
   "status": "proved",
   "theorems": [
    "Crm.C57_dedupe",
    "Crm.C57_dedupe_unique"
   ],
   "note": ""
  },
  {
   "property": "C58",
   "status": "proved",
   "theorems": [
    "Crm.C58_read",
    "Crm.C58_read_in_quotes",
    "Crm.C58_read_filled",
    "Crm.C58_unread",
    "Crm.C58_markers_restored_in_order",
    "Crm.C58_line_roundtrip",
    "Crm.C58_own_marker_breaks_roundtrip"
   ],
   "note": "A line that contains the marker text itself is changed (C58_own_marker_breaks_roundtrip); the property excludes it."
  },
  {
   "property": "C59",
   "status": "partial",
   "theorems": [
    "Crm.C59_statistics_partial",
    "Crm.C59_no_statistics",
    "Crm.C59_counters",
    "Crm.C59_order",
    "Crm.C59_average_violation",
    "Crm.C59_tests",
    "Crm.C59_phases",
    "Crm.C59_log",
    "Crm.C59_logs"
   ],
   "note": "Totals, order, tests and log reading are proved for every list of results. Missing, because false of the code: a percentage is divided by the number of all results, also of those that do not have it (C59_average_violation); sums of floating-point numbers are only as order-independent as the addition."
  },
  {
   "property": "C60",
   "status": "proved",
   "theorems": [
    "Crm.C60_set_key",
    "Crm.C60_truthy"
   ],
   "note": ""
  },
  {
   "property": "C61",
   "status": "partial",
   "theorems": [
    "Crm.C61_empty_key_partial",
    "Crm.C61_violation"
   ],
   "note": "False of the code: get_value answers with the loader's reading of the key's own name (C61_violation). C61_empty_key_partial says exactly what is returned."
  },
  {
   "property": "C62",
   "status": "partial",
   "theorems": [
    "Crm.C62_single_text_partial",
    "Crm.C62_longer_list",
    "Crm.C62_single_scalar_violation"
   ],
   "note": "Proved for a single text and for two or more scalars (up to what the YAML loader makes of the lines). Missing, because false of the code: a list whose only element is not a text comes back as that element (C62_single_scalar_violation)."
  },
  {
   "property": "C63",
   "status": "proved",
   "theorems": [
    "Crm.C63_expressions",
    "Crm.C63_quoted",
    "Crm.C63_json_quoting_roundtrip",
    "Crm.C63_quote_or_same",
    "Crm.C63_special_is_quoted",
    "Crm.C63_text_of_a_value"
   ],
   "note": ""
  },
  {
   "property": "C64",
   "status": "proved",
   "theorems": [
    "Crm.C64_search",
    "Crm.C64_search_comments"
   ],
   "note": "For any predicate on texts standing for the compiled expression."
  },
  {
   "property": "C65",
   "status": "proved",
   "theorems": [
    "Crm.C65_join_absolute",
    "Crm.C65_trailing_slash",
    "Crm.C65_leading_slash",
    "Crm.C65_join_root",
    "Crm.C65_package_paths",
    "Crm.C65_single_package",
    "Crm.C65_outputs_without_elements"
   ],
   "note": ""
  },
  {
   "property": "C66",
   "status": "proved",
   "theorems": [
    "Crm.C66_text_kept",
    "Crm.C66_name",
    "Crm.C66_names"
   ],
   "note": "For every MatchSpec behaviour."
  },
  {
   "property": "C67",
   "status": "partial",
   "theorems": [
    "Crm.C67_order_partial",
    "Crm.C67_order_violation"
   ],
   "note": "False when two recipes have a package of the same name (C67_order_violation); proved when names are distinct, under the conditions of C39 on names."
  },
  {
   "property": "C68",
   "status": "partial",
   "theorems": [
    "Crm.C68_digest_partial",
    "Crm.C68_digest_violation"
   ],
   "note": "Proved when no fetch follows; a later failed fetch leaves an incomplete archive readable (C68_digest_violation)."
  },
  {
   "property": "C69",
   "status": "partial",
   "theorems": [
    "Crm.C69_own_hash_partial",
    "Crm.C69_variable",
    "Crm.C69_number_violation"
   ],
   "note": "Proved for plain hashes that YAML reads back as text; C69_number_violation: a hash that looks like a number loses its leading zeros."
  },
  {
   "property": "C70",
   "status": "partial",
   "theorems": [
    "Crm.C70_file_partial",
    "Crm.C70_free_layout_partial",
    "Crm.C70_new_format_partial",
    "Crm.C70_after_session_partial",
    "Crm.C70_block_text_violation",
    "Crm.C70_session_from_free_layout_partial",
    "Crm.C70_distinct",
    "Crm.C70_references_partial",
    "Crm.C70_substring_violation"
   ],
   "note": "C70_distinct is unconditional; C70_references_partial says exactly which paths are listed: those whose value has the name anywhere in a template expression. C70_file_partial, C70_free_layout_partial, C70_new_format_partial and C70_after_session_partial say the same in terms of the lines of a file: the paths of the value lines that use the variable, in the order of the file. C70_substring_violation: a variable whose name is part of another name is listed too. C70_block_text_violation: a use in a text of several lines is missed."
  },
  {
   "property": "C71",
   "status": "partial",
   "theorems": [
    "Crm.C71_cleaned_partial",
    "Crm.C71_order_violation",
    "Crm.C71_comment_violation",
    "Crm.C71_as_listed_partial"
   ],
   "note": "Proved for texts of lines that do not end in a definition (unless they are one) with at most one hash key per line. Violations: order dependence and commented-out definitions."
  },
  {
   "property": "C72",
   "status": "partial",
   "theorems": [
    "Crm.C72_none",
    "Crm.C72_bulk",
    "Crm.C72_single_partial",
    "Crm.C72_one_recipe_violation"
   ],
   "note": "Proved for bulk and single runs; a directory with exactly one recipe is treated as a single file, its output goes to the given path and not next to the recipe (C72_one_recipe_violation)."
  },
  {
   "property": "C73",
   "status": "partial",
   "theorems": [
    "Crm.C73_expressions_are_evaluated_partial",
    "Crm.C73_rejected_texts_are_evaluated",
    "Crm.C73_block_texts_are_evaluated",
    "Crm.C73_text_is_kept_without_substitution",
    "Crm.C73_a_version_becomes_a_number",
    "Crm.C73_an_undefined_variable_gets_a_dollar_sign",
    "Crm.C73_third_operand_violation",
    "Crm.C73_braces_violation",
    "Crm.C73_sum_in_a_call_violation",
    "Crm.C73_plain_values_are_kept"
   ],
   "note": "Proved for texts whose expressions are a name with optional index and filter, a sum of two operands, or any other expression of the characters the tool looks at that has no filter lower or upper, no number in brackets directly behind a word and no plus between operands, such as compiler('c'), version.split('.')[0] or name | replace('-', '_') (it is kept; with filters and indices too if it is a call or has a dot or an operator in it, and no plus, and the names of the variables are words), and whose variable values contain no brace (a value with braces would be evaluated again); the result must be a scalar (a list or mapping is walked again). Values without expressions, lists and mappings of any depth included, are the same with and without substitution (C73_plain_values_are_kept). Of a sum of more than two operands only the first two count (C73_third_operand_violation); braces in values: C73_braces_violation. Missing: several indices or filters behind one name, and filters in sums; C73_sum_in_a_call_violation shows that two filters are applied in a fixed order, and that a sum within a call takes the place of the call. Violations proved: a quoted version such as 1.10 comes back as the number 1.1 because the result is read as YAML again; an undefined variable at the start of a V0 text gets a dollar sign."
  },
  {
   "property": "C74",
   "status": "proved",
   "theorems": [
    "Crm.C74_table",
    "Crm.C74_plain",
    "Crm.C74_selector_is_left_out",
    "Crm.C74_text_is_noted",
    "Crm.C74_selector_only",
    "Crm.C74_usual",
    "Crm.C74_brackets_in_the_text_are_lost"
   ],
   "note": "For comments on one line (the parser produces no other). A bracket anywhere in a comment counts as a selector: C74_brackets_in_the_text_are_lost shows the text that is lost."
  },
  {
   "property": "C75",
   "status": "proved",
   "theorems": [
    "Crm.C75_selector_at_path",
    "Crm.C75_no_such_path"
   ],
   "note": "For comments on one line."
  },
  {
   "property": "C76",
   "status": "proved",
   "theorems": [
    "Crm.C76_text_of_several_lines",
    "Crm.C76_structured_value",
    "Crm.C76_text_in_a_list_becomes_a_list",
    "Crm.C76_final_line_break_is_lost"
   ],
   "note": "Texts of several lines and structured values below an existing key, for add and replace. In a list a text of several lines becomes a list (C76_text_in_a_list_becomes_a_list), and a final line break is lost (C76_final_line_break_is_lost)."
  },
  {
   "property": "C77",
   "status": "proved",
   "theorems": [
    "Crm.C77_schema_version",
    "Crm.C77_v1_variables",
    "Crm.C77_v0_variables",
    "Crm.C77_unchanged"
   ],
   "note": "Schema version, V0 and V1 variables, modification flag."
  },
  {
   "property": "C78",
   "status": "proved",
   "theorems": [
    "Crm.C78_returned",
    "Crm.C78_refusals_reported",
    "Crm.C78_no_errors",
    "Crm.C78_messages_kept"
   ],
   "note": "The changes are the Recipe operations of the model; str(p) of a patch is the model's pyStr."
  },
  {
   "property": "C79",
   "status": "proved",
   "theorems": [
    "Crm.C79_sections_ordered",
    "Crm.C79_result"
   ],
   "note": "A /context that is not a mapping gives no variables in the model, as in the constructor."
  },
  {
   "property": "C80",
   "status": "partial",
   "theorems": [
    "Crm.C80_deprecated_partial",
    "Crm.C80_duplicate_stays"
   ],
   "note": "C80_deprecated_partial: for every section without repeated names, exactly the obsolete fields go and each is reported once. The full statement fails for repeated names: C80_duplicate_stays. The whole section steps are in C81_build_partial and C81_about_partial."
  },
  {
   "property": "C81",
   "status": "partial",
   "theorems": [
    "Crm.C81_spelling_partial",
    "Crm.C81_sources_partial",
    "Crm.C81_build_partial",
    "Crm.C81_requirements_partial",
    "Crm.C81_about_partial",
    "Crm.C81_package_partial",
    "Crm.C81_homepage_lost",
    "Crm.C81_source_skipped"
   ],
   "note": "C81_package_partial composes C81_spelling_partial, C81_sources_partial, C81_build_partial, C81_requirements_partial, C81_about_partial and C84_tests_partial: from a relation on the children of the package that says what every step does, the new children and the messages follow, and nothing else in the recipe changes. The relations exclude what makes a patch fail. The full statement fails: C81_homepage_lost (an existing value is overwritten silently), C81_source_skipped (a source of one key)."
  },
  {
   "property": "C84",
   "status": "partial",
   "theorems": [
    "Crm.C84_script_lost_violation",
    "Crm.C84_requirements_lost_violation",
    "Crm.C84_python_version_violation",
    "Crm.C84_single_command_violation",
    "Crm.C84_empty_test_violation",
    "Crm.C84_list_of_tests_violation",
    "Crm.C84_tests_partial",
    "Crm.C84_all_tests_kept"
   ],
   "note": "C84_tests_partial: what becomes of the test section; C84_all_tests_kept: the list of tests holds every entry of the renamed test exactly once. The full statement is false: commands overwrite a script, the requirements go with a lone pip check, python with a version and a command that is not a list are not recognised, a section without entries becomes a test called test, a list of tests can end the conversion (the violations). Missing: tests where one of the fields cannot be read or put."
  },
  {
   "property": "C85",
   "status": "partial",
   "theorems": [
    "Crm.C85_script_env_partial",
    "Crm.C85_number_crash",
    "Crm.C85_single_number_crash"
   ],
   "note": "C85_script_env_partial for every list of texts and mappings with then/else. The full statement fails: an entry that is a number ends the conversion (C85_number_crash, C85_single_number_crash)."
  },
  {
   "property": "C86",
   "status": "partial",
   "theorems": [
    "Crm.C86_licence_partial",
    "Crm.C86_not_a_text",
    "Crm.C86_not_a_text_violation"
   ],
   "note": "C86_licence_partial for every licence that is read as text or missing, C86_not_a_text for the others, where the look-up raises (C86_not_a_text_violation: the claim fails there); what the look-up gives is C53."
  },
  {
   "property": "C88",
   "status": "proved",
   "theorems": [
    "Crm.C88_selector_text",
    "Crm.C88_other_selectors",
    "Crm.C88_comparison"
   ],
   "note": "The text of the selector only; where the selector stands and what becomes of the line is C82. The pass of the code that looks for `not py27` never finds anything, since `py27` has been replaced by then: `not py27` becomes `not match(python, \"==2.7\")`, which is what the theorem says. The rewriting does not look at word boundaries: a name such as `mypy310` is rewritten inside."
  },
  {
   "property": "C82",
   "status": "partial",
   "theorems": [
    "Crm.C82_selectors_partial",
    "Crm.C82_list_selector_violation",
    "Crm.C82_two_switches_violation"
   ],
   "note": "Exact result of the step (tree, messages) for every recipe whose selector lines are independent of each other; C82_list_selector_violation and C82_two_switches_violation show two ways in which the full claim fails in the code."
  },
  {
   "property": "C83",
   "status": "partial",
   "theorems": [
    "Crm.C83_context_unique",
    "Crm.C83_jinja_partial",
    "Crm.C83_reference_violation",
    "Crm.C83_not_a_text"
   ],
   "note": "Exact result of the step (tree, messages) in any visiting order; C83_reference_violation shows that the meaning of a variable that refers to another one is lost."
  },
  {
   "property": "C89",
   "status": "partial",
   "theorems": [
    "Crm.C89_report",
    "Crm.C89_gone_lines_partial",
    "Crm.C89_substitution_violation",
    "Crm.C89_selector_violation"
   ],
   "note": "Proved: the comments reported are exactly those whose line is gone from the tree when all sections have been converted (C89_gone_lines_partial, C89_report). The full claim is false: C89_substitution_violation and C89_selector_violation lose a comment of a line that stays, without a message."
  },
  {
   "property": "C90",
   "status": "partial",
   "theorems": [
    "Crm.C90_no_entries_violation",
    "Crm.C90_conversion_partial"
   ],
   "note": "C90_conversion_partial: for every recipe for which the steps of the specification (Spec/ConvWhole.Conversion) are possible, the conversion ends without an exception, its tree, schema version, variables and messages are exactly the specified ones, and the original is unchanged. Missing: recipes outside the specification's side conditions (an empty recipe, comments of several lines, edits of selectors or substitutions that lie within each other, two variables of one name, list elements with a comment of their own as outputs, and steps that end with an exception)."
  },
  {
   "property": "C87",
   "status": "proved",
   "theorems": [
    "Crm.C87_pre_process"
   ],
   "note": "C87_pre_process: for every text, the result of pre-processing is the only text that the specification's steps (Spec/PreProcess.PreProcessed, nine passes in plain left-to-right rewriting terms) allow."
  },
  {
   "property": "C91",
   "status": "partial",
   "theorems": [
    "Crm.C91_call_partial",
    "Crm.C91_two_calls_violation",
    "Crm.C91_quoted_text_violation",
    "Crm.C91_two_environs_violation",
    "Crm.C91_first_line_violation"
   ],
   "note": "C91_call_partial: a call in a single substitution with plain text around it becomes a filter. Counterexamples: two calls on a line, a dot in a quoted text, two environ look-ups on a line, a quoted text at the start of the file."
  },
  {
   "property": "C92",
   "status": "proved",
   "theorems": [
    "Crm.C92_dependency_paths",
    "Crm.C92_text_section",
    "Crm.C92_number_section",
    "Crm.C92_section_without_elements"
   ],
   "note": "C92_dependency_paths is an equivalence with the specification. C92_text_section: a section written as one text has a path per letter, none of which can be looked up; C92_number_section: a number ends the call."
  },
  {
   "property": "C93",
   "status": "partial",
   "theorems": [
    "Crm.C93_object_partial",
    "Crm.C93_replaced_partial",
    "Crm.C93_text_partial",
    "Crm.C93_top_list_violation",
    "Crm.C93_inner_mappings_violation",
    "Crm.C93_top_empty_violation",
    "Crm.C93_inner_empty_violation",
    "Crm.C93_element_empty_violation",
    "Crm.C93_only_comment_violation",
    "Crm.C93_quoted_number_violation",
    "Crm.C93_inline_list_violation"
   ],
   "note": "Proved for all documents whose top-level entries are values, block texts, mappings or lists of mappings, and whose inner entries are values, block texts, lists of values or mappings that begin with a key that has a value (keys distinct); exact equality including errors, with and without replacing variables. The other shapes violate the property: see the _violation theorems."
  },
  {
   "property": "C94",
   "status": "partial",
   "theorems": [
    "Crm.C94_plot_partial",
    "Crm.C94_plot_all",
    "Crm.C94_answers",
    "Crm.C94_session",
    "Crm.C94_no_recipes",
    "Crm.C94_lonely_package_violation",
    "Crm.C94_capital_letter_violation",
    "Crm.C94_python_3_11_violation",
    "Crm.C94_all_with_direction_violation"
   ],
   "note": "Proved: the tree drawn for a known package with at least one arrow is exactly the closure of the dependency relation (C94_plot_partial), plot all (C94_plot_all), every other answer (C94_answers), sessions (C94_session) and the exit without recipes. Missing, because the code does otherwise: packages without arrows, names with capital letters, Python 3.11, a direction in front of all (see the violation theorems)."
  },
  {
   "property": "C95",
   "status": "partial",
   "theorems": [
    "Crm.C95_converted",
    "Crm.C95_file_to_file_partial",
    "Crm.C95_output_is_read_partial",
    "Crm.C95_failed",
    "Crm.C95_targets"
   ],
   "note": "C95_converted and C95_failed hold for every converter; C95_file_to_file_partial gives the text written for a recipe that meets the conditions of C90 and whose converted tree is the tree of a document (block or plain values, no comments or flow forms left over); C95_output_is_read_partial reads that text back, given that schema_version: 1 is in the converted tree. The claim is false outside of them: a conversion can leave texts that are read differently (see C72, C31, C90 in the table of violations)."
  },
  {
   "property": "C96",
   "status": "proved",
   "theorems": [
    "Crm.C96_name_places",
    "Crm.C96_recipe_name",
    "Crm.C96_name_of_the_root"
   ],
   "note": "For every recipe and environment; a value that cannot be read raises the same error as get_value."
  },
  {
   "property": "C97",
   "status": "partial",
   "theorems": [
    "Crm.C97_paths_kept",
    "Crm.C97_sections_kept",
    "Crm.C97_texts_kept",
    "Crm.C97_left_alone",
    "Crm.C97_conversion_leaves_alone_partial"
   ],
   "note": "C97_sections_kept: after selectors and substitutions are replaced, the rest of the conversion keeps every key outside the listed sections and fields, at the top and in every output. C97_texts_kept: the first half keeps what stands apart from the replaced lines. C97_left_alone and C97_conversion_leaves_alone_partial: get_value gives the same before and after. Missing: conversions that the relation of C90 does not describe (failing ones and the side conditions listed there), and tests, which is treated as changed even where test is absent."
  },
  {
   "property": "C98",
   "status": "partial",
   "theorems": [
    "Crm.C98_selection",
    "Crm.C98_negative",
    "Crm.C98_repeatable",
    "Crm.C98_fetched",
    "Crm.C98_files_partial",
    "Crm.C98_nothing_else",
    "Crm.C98_same_name_violation",
    "Crm.C98_exclude_directories_violation"
   ],
   "note": "Selection, numbers and that nothing else is written are proved in full. The files are proved when the picked repositories have different names; C98_same_name_violation: for two organisations with a repository of the same name the one file depends on the schedule. C98_exclude_directories_violation: exclusions without the organisation exclude nothing."
  },
  {
   "property": "C99",
   "status": "partial",
   "theorems": [
    "Crm.C99_edits_are_written_partial",
    "Crm.C99_saved_edits_are_read_back_partial",
    "Crm.C99_replace_changes_one_line_partial",
    "Crm.C99_replace_item_changes_one_line_partial",
    "Crm.C99_selector_lost_violation",
    "Crm.C99_comment_returns_violation",
    "Crm.C99_edit_changes_its_lines_partial",
    "Crm.C99_top_edit_changes_its_lines_partial",
    "Crm.C99_remove_key_lines_partial",
    "Crm.C99_remove_item_line_partial",
    "Crm.C99_add_item_line_partial",
    "Crm.C99_add_key_lines_partial",
    "Crm.C99_transfer_partial",
    "Crm.C99_copy_key_partial",
    "Crm.C99_move_key_partial"
   ],
   "note": "Proved for every document of the usual layout and every list of patches (replace, add, insert, append, remove; scalars, lists and mappings): the patches answer True, the rendered text is that of the edited document, opening it gives that document, get_value and contains_value agree with the recipe in memory at every path; a replaced value changes one line, a removed or added entry removes or adds its own lines, at any depth, and no other line changes; copies and moves too (C99_transfer_partial, C99_copy_key_partial, C99_move_key_partial). Missing: comments and selectors. Replacing a value drops the selector from the file while the API still reports it, and it may come back with a later edit (C99_selector_lost_violation, C99_comment_returns_violation)."
  },
  {
   "property": "C100",
   "status": "partial",
   "theorems": [
    "Crm.C100_bump_changes_only_these_lines_partial",
    "Crm.C100_selector_lost_violation",
    "Crm.C100_layout_violation",
    "Crm.C100_new_format_partial",
    "Crm.C100_new_format_free_layout_partial",
    "Crm.C100_bump_free_layout_partial",
    "Crm.C100_layout_does_not_matter_partial"
   ],
   "note": "Proved for every recipe in the layout of Spec/Document.lean (any definitions, depth and width) that uses no old hash-type key, for every network and download order: Spec/BumpFile.lean (old format) and Spec/BumpNew.lean (new format) say which keys and variables are set; the run ends with code 0, the text is that of the edited document, and the lines differ only by the listed changes. For a file in any layout of Spec/Layout.lean the written text is the canonical text with these changes (C100_bump_free_layout_partial, C100_new_format_free_layout_partial). C100_layout_does_not_matter_partial: for every run, successful or not, the layout of the file has no influence on the result. Missing: that the layout of the other lines is kept (C100_layout_violation: the whole file is laid out anew), comments on the edited lines (C100_selector_lost_violation), a version or hash that a variable gives in the new format (C48_v1_violation)."
  },
  {
   "property": "C101",
   "status": "partial",
   "theorems": [
    "Crm.C101_add_selector_partial",
    "Crm.C101_remove_selector_partial",
    "Crm.C101_add_comment_partial",
    "Crm.C101_element_selector_lost_violation",
    "Crm.C101_single_item_violation",
    "Crm.C101_first_line_violation"
   ],
   "note": "Proved for keys, empty sections, sections with more than one entry and items of lists: add_selector (all modes), remove_selector and add_comment give the text of the edited document, one line differs and only in its comment; if the line is not the first of a list element, the text read again gives the same answers, the selector table included. The full claim fails for mappings in lists (selector never written), for sections with one item (written twice) and for first lines of list elements (the element gets the selector when read again)."
  },
  {
   "property": "C102",
   "status": "partial",
   "theorems": [
    "Crm.C102_append_partial",
    "Crm.C102_replace_partial",
    "Crm.C102_replace_keeps_selector_partial",
    "Crm.C102_exact_partial",
    "Crm.C102_replace_joins_selector_partial",
    "Crm.C102_exact_joins_selector_partial",
    "Crm.C102_exact_keeps_selector_partial",
    "Crm.C102_remove_partial",
    "Crm.C102_new_section_partial",
    "Crm.C102_comment_lost_violation",
    "Crm.C102_append_to_lines_partial",
    "Crm.C102_append_selector_to_lines_partial",
    "Crm.C102_replace_lines_partial"
   ],
   "note": "Proved for all documents in the layout of C31: append (with or without selector), replace and EXACT_POSITION (with or without selector; in the AND and OR modes the old selector is kept, or joined to the new one), a new section (a block of two lines at the end of requirements) and remove; one line is added, changed or gone, and the file read again answers as the recipe in memory. Assumed: the dependency text is a YAML scalar of one line, the section reads as a list; C102_append_to_lines_partial, C102_append_selector_to_lines_partial and C102_replace_lines_partial say this in terms of the lines of the section, expressions included (old format). The full claim fails where the comment behind a replaced entry is lost and where the selector of a dependency is written on its new section."
  },
  {
   "property": "C103",
   "status": "partial",
   "theorems": [
    "Crm.C103_session_from_free_layout_partial",
    "Crm.C103_session_is_saved_partial",
    "Crm.C103_replaced_line_violation"
   ],
   "note": "Proved for histories of any length of patch, search_and_patch, set_variable, del_variable, add_selector, remove_selector, add_comment, add_dependency and remove_dependency on files in the layout of C31 or in any layout of Spec/Layout.lean (C103_session_from_free_layout_partial); each patch is a test, is refused, or is of one of thirteen shapes (set, replace, add, append or remove a key, an item or a list element, by a value, a list or a mapping) that loses no comment, or a copy or move made of them, and each dependency edit is of one of the shapes of C102. Missing: patches over lines with a comment (C103_replaced_line_violation), variable edits on recipes of the new format, the first line of a list element for comments (C101)."
  },
  {
   "property": "C104",
   "status": "partial",
   "theorems": [
    "Crm.C104_dependencies_are_the_lines_partial",
    "Crm.C104_after_session_partial",
    "Crm.C104_from_free_layout_partial"
   ],
   "note": "Proved from the text of the file to the answer, for files of the document grammar with sections that are lists of texts, and again for the recipe in memory after any session of edits of C103 (C104_after_session_partial, and C104_from_free_layout_partial for files in any layout of Spec/Layout.lean); what YAML reads (the loader) is a hypothesis, lines that start with an expression included (Spec/YamlText.lean); what the expressions stand for is spelled out (Fills, C73). Where it fails: a section without entries or with an entry that is no text makes the call raise, a section written as one text is read letter by letter."
  },
  {
   "property": "C105",
   "status": "partial",
   "theorems": [
    "Crm.C105_value_after_session_partial",
    "Crm.C105_value_partial",
    "Crm.C105_missing_partial",
    "Crm.C105_element_violation",
    "Crm.C105_single_key_element_violation",
    "Crm.C105_value_as_key_violation",
    "Crm.C105_quoted_number_violation",
    "Crm.C105_value_from_free_layout_partial"
   ],
   "note": "Proved from the text of the file to the answer for every entry but list elements and keys without a value, for missing paths no component of which is a text that the file has as a value, and for the recipe in memory after any session of edits of C103 (C105_value_after_session_partial, and C105_value_from_free_layout_partial for files in any layout of Spec/Layout.lean). It fails for list elements (C105_element_violation, C105_single_key_element_violation), keys without a value (C61_violation), lists of one number (C62_single_scalar_violation), paths through values (C105_value_as_key_violation) and quoted numbers (C105_quoted_number_violation)."
  },
  {
   "property": "C106",
   "status": "partial",
   "theorems": [
    "Crm.C106_file_partial",
    "Crm.C106_free_layout_partial",
    "Crm.C106_after_session_partial",
    "Crm.C106_comment_line_violation",
    "Crm.C106_session_from_free_layout_partial"
   ],
   "note": "Proved for files whose content is a document of Spec/Document.lean, in canonical or free layout, and after sessions of edits: list_selectors, contains_selector, get_selector_at_path and contains_selector_at_path in full; get_selector_paths for selectors that stand in no comment-only line (for those the claim is false, see the violation); get_comments_table where the lines at a path have one comment. Keys named / are excluded for the two path listings."
  },
  {
   "property": "C107",
   "status": "partial",
   "theorems": [
    "Crm.C107_file_partial",
    "Crm.C107_free_layout_partial",
    "Crm.C107_after_session_partial",
    "Crm.C107_search_violation",
    "Crm.C107_empty_file_violation",
    "Crm.C107_session_from_free_layout_partial"
   ],
   "note": "Proved for non-empty files whose content is a document of Spec/Document.lean (no key named /), in canonical or free layout, and after sessions of edits: list_value_paths and find_value of None in full, find_value where no key without a value has the value as its name, search as ValueLine.text says. Missing, because false of the code: see C107_search_violation, C107_empty_file_violation and C06_key_name_violation."
  },
  {
   "property": "C108",
   "status": "partial",
   "theorems": [
    "Crm.C108_layout_does_not_matter_partial",
    "Crm.C108_unindented_list_violation"
   ],
   "note": "Proved for every pair of files whose pre-processed texts are layouts (Spec/Layout.lean) of the same definitions and the same document, for every outcome of the conversion. Missing: layouts outside of that, where it fails (C108_unindented_list_violation)."
  },
  {
   "property": "C109",
   "status": "partial",
   "theorems": [
    "Crm.C109_directory_partial",
    "Crm.C109_edges_are_the_lines_partial"
   ],
   "note": "C109_directory_partial: for all directories of files (canonical or free layout, requirements as lists of texts as in C104) in which some files cannot be read or are no recipes and packages may have equal names: the edges are the lines of the first package of a name. C109_edges_are_the_lines_partial: the same without the word first if names are distinct. Missing, because false of the code or outside of the layouts: files with equal digests (C40_same_recipe_violation), a name read as None (C39_none_name_violation), names that Python holds to be equal but are not the same."
  },
  {
   "property": "C110",
   "status": "partial",
   "theorems": [
    "Crm.C110_hash_of_the_new_archive_partial",
    "Crm.C110_new_format_violation",
    "Crm.C110_file_partial"
   ],
   "note": "The URL is the one get_value gives for the source in the recipe with the new version in its variable version; for files of the old format (C110_file_partial) it is what YAML makes of the text of the url line under the file's definitions with the new version. The hash is read back in the recipe whose rendering is written. False of new-format files whose version is a variable (C110_new_format_violation): the version in the file stays, the hash is that of the new archive. Not covered: hashes that look like numbers, list elements written as templates (C69, C47)."
  },
  {
   "property": "C111",
   "status": "partial",
   "theorems": [
    "Crm.C111_definitions_are_used_partial",
    "Crm.C111_file_partial",
    "Crm.C111_definitions_in_free_layout_partial",
    "Crm.C111_after_set_variable_partial",
    "Crm.C111_block_text_partial",
    "Crm.C111_context_is_used_partial",
    "Crm.C111_section_partial",
    "Crm.C111_section_in_free_layout_partial",
    "Crm.C111_list_of_one_line_partial"
   ],
   "note": "Proved for one-line values and list items, for block texts and for whole sections (C111_section_partial: lists and mappings, lines that start with an expression included), in files of the document grammar (canonical layout; free layout for the old format), with the expressions of C73; the value of a text must be a scalar and no variable's value may contain a brace. New-format files: as opened (set_variable on them is not rendered, C30)."
  },
  {
   "property": "C112",
   "status": "proved",
   "theorems": [
    "Crm.C112_file",
    "Crm.C112_free_layout",
    "Crm.C112_after_session"
   ],
   "note": "Proved for files whose content is a document of Spec/Document.lean, in canonical or free layout, and after the sessions of C103 (there without saying which line stands before the arrow of a use). str() returns a text and no recipe, so it changes nothing; json.dumps of the variables and the name of the class are parameters."
  },
  {
   "property": "C113",
   "status": "partial",
   "theorems": [
    "Crm.C113_past_the_end_violation",
    "Crm.C113_patch_file_partial",
    "Crm.C113_edits_partial",
    "Crm.C113_layout_does_not_matter_partial"
   ],
   "note": "For files in canonical or free layout and patches that describe edits of their entries, copies and moves, tests of entries that are there, patches of entries that are missing, and objects that are no patches; the layout theorem is for every patch file. Missing: patches whose effect is not an edit of the document (C99's violations); something put behind the end of a list raises and leaves the file as it is (C113_past_the_end_violation)."
  },
  {
   "property": "C114",
   "status": "partial",
   "theorems": [
    "Crm.C114_new_key_partial",
    "Crm.C114_inserted_partial",
    "Crm.C114_appended_partial",
    "Crm.C114_copied_key_partial",
    "Crm.C114_copied_item_partial",
    "Crm.C114_copied_end_partial",
    "Crm.C114_variable",
    "Crm.C114_selector_partial",
    "Crm.C114_dependency_partial",
    "Crm.C114_empty_section_violation",
    "Crm.C114_overwritten_violation",
    "Crm.C114_comment_lost_violation"
   ],
   "note": "Keys, list entries in front of scalars and at the end, added or copied there, new variables, selectors on lines without comment or (AND and OR mode) with a plain one, dependencies at the end of a section. Missing because false of the code: a dependency in a new section leaves the empty section behind (C114_empty_section_violation), adding at the number of a list element with keys overwrites it (C114_overwritten_violation), and a selector in REPLACE mode takes the comment away (C114_comment_lost_violation). The values are those YAML writes as well-formed lines."
  },
  {
   "property": "C115",
   "status": "partial",
   "theorems": [
    "Crm.C115_two_edits_partial",
    "Crm.C115_two_keys_partial",
    "Crm.C115_new_key_partial",
    "Crm.C115_any_order_partial",
    "Crm.C115_set_variable",
    "Crm.C115_delete_variable",
    "Crm.C115_two_variables_partial",
    "Crm.C115_set_and_delete",
    "Crm.C115_two_deletions",
    "Crm.C115_new_keys_violation",
    "Crm.C115_same_list_violation",
    "Crm.C115_new_variables_violation",
    "Crm.C115_emptied_violation"
   ],
   "note": "Proved for edits that part at different keys (existing or not; keys of a section may also be removed) or in different entries of several lines of a list, for a new key of a section against edits at its other keys, for any number of edits in any order, and for variables. Two new keys of one section, items of one list and new variables keep the order of the calls, and nothing can be added to an emptied recipe (violations)."
  },
  {
   "property": "C116",
   "status": "partial",
   "theorems": [
    "Crm.C116_replace",
    "Crm.C116_add_key",
    "Crm.C116_remove_key_partial",
    "Crm.C116_add_selector",
    "Crm.C116_add_comment_partial",
    "Crm.C116_remove_selector",
    "Crm.C116_set_variable",
    "Crm.C116_delete_variable",
    "Crm.C116_dependency_partial",
    "Crm.C116_dependency_ignored",
    "Crm.C116_add_selector_violation",
    "Crm.C116_add_comment_violation",
    "Crm.C116_remove_key_violation"
   ],
   "note": "Proved for replacing a value, adding and removing a key, selectors in REPLACE mode, comments without brackets, variables, and dependencies in REPLACE and IGNORE mode. Selectors joined in AND or OR mode are written twice, a comment that reads like a selector is doubled, and of a duplicate key the second call removes the other line (violations)."
  },
  {
   "property": "C117",
   "status": "partial",
   "theorems": [
    "Crm.C117_remove",
    "Crm.C117_put",
    "Crm.C117_put_back",
    "Crm.C117_item_partial",
    "Crm.C117_selector",
    "Crm.C117_variable",
    "Crm.C117_item_violation"
   ],
   "note": "Proved for any number of edits inside a key that is then replaced, added again or removed, for the old value put back, for edits of a list item that leave it one value, for selectors in REPLACE mode and for variables. Missing because false of the code: a list item that became a mapping does not become a text again (C117_item_violation)."
  },
  {
   "property": "C118",
   "status": "partial",
   "theorems": [
    "Crm.C118_only_content_matters",
    "Crm.C118_interrupted_partial",
    "Crm.C118_free_layout_partial",
    "Crm.C118_list_entry_violation"
   ],
   "note": "C118_only_content_matters holds for all recipes and all later calls. Saving and opening gives back the content for the files and sessions of C103 (canonical and free layout); outside of these what is written may not read back, see C118_list_entry_violation. get_selector_paths is left out of the answers: its first answer empties the stored places (C24_second_answer_violation)."
  },
  {
   "property": "C119",
   "status": "partial",
   "theorems": [
    "Crm.C119_history_partial",
    "Crm.C119_build_number_partial",
    "Crm.C119_no_number_partial",
    "Crm.C119_new_format_partial",
    "Crm.C119_free_layout_partial",
    "Crm.C119_new_format_free_layout_partial",
    "Crm.C119_new_format_build_number_partial"
   ],
   "note": "any history of runs, by induction, for files of both formats and for a first file in any layout of Spec/Layout.lean; k runs with --build-num, also where there is no build number at first (C119_no_number_partial: the first run adds 0). Missing: runs whose writing fails (C45_write_failure_violation), and what C100 leaves out of a single run. The comment behind the build number goes with the first run (C100_selector_lost_violation)."
  },
  {
   "property": "C120",
   "status": "partial",
   "theorems": [
    "Crm.C120_refused",
    "Crm.C120_in_pieces_partial",
    "Crm.C120_exception_violation",
    "Crm.C120_list_entry_violation"
   ],
   "note": "C120_refused holds for all files and patches. In pieces: any number of patch files whose patches are edits and tests of C113, then one with any patches at all, for files in any layout of Spec/Layout.lean. Missing because false of the code: when the command ends with an exception the earlier pieces are kept but the single run loses everything (C120_exception_violation); a file that does not read back (C120_list_entry_violation)."
  },
  {
   "property": "C121",
   "status": "partial",
   "theorems": [
    "Crm.C121_history_partial",
    "Crm.C121_new_format_partial",
    "Crm.C121_layout_does_not_matter_partial"
   ],
   "note": "any history of the two commands, by induction, for files of both formats in the canonical layout; every bump is one of C100 or C45, every list of patches one of C113. C121_layout_does_not_matter_partial: two layouts of one recipe go the same way under every history, with any options, patches and downloads. Missing: what C100 and C113 leave out of a single run, a failing write (C45_write_failure_violation)."
  },
  {
   "property": "C122",
   "status": "proved",
   "theorems": [
    "Crm.C122_dry_run"
   ],
   "note": "Unconditional but for the final write, which is assumed to succeed, as in the statement."
  },
  {
   "property": "C123",
   "status": "partial",
   "theorems": [
    "Crm.C123_not_again_partial"
   ],
   "note": "Composes C95_output_is_read_partial with C95_failed. Missing: conversions outside the relation of C90, output that is not the text of a document of Spec/Document.lean, and output that the pre-processing of C87 would change."
  }
 ]
}
