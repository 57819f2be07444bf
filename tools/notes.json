{
"C01": ["proved", "For every non-empty list of components. The root path / is the documented exception (C01_root_is_lost), and relative paths are misread rather than rejected (C01_relative_path_is_misread)."],
"C03": ["proved", "For trees in which no value-less node with its own comment has only comment lines below it; outside of that the claim is false of the code (C03_emptied_element_becomes_comment)."],
"C04": ["proved", "Assumes the YAML loader itself does not raise KeyError."],
"C05": ["proved", "For regular documents (distinct, non-numeric, slash-free sibling keys; a mapping or list at the top). A numeric key is a counterexample outside of that (C05_numeric_key_violation)."],
"C06": ["partial", "C06_find_value_exact says exactly what is returned. Missing, because false of the code: a key without a value is also reported when its own name is searched for (C06_key_name_violation)."],
"C07": ["proved", ""],
"C08": ["partial", "A failed patch (False or an exception) leaves the recipe as it was for every operation except move. Missing, because false of the code: a move that fails after its removal step loses the source (C08_move_residue says exactly what is left, C08_move_loses_source is a concrete case)."],
"C09": ["proved", "Removing a bare scalar (addressed by its own value) is refused; everything else is removed exactly. What a path elsewhere reads is C17."],
"C10": ["proved", "For a parent that is a key, the root or a list element that is itself a mapping. Below a scalar list element the code inserts in front of it instead (C10_below_list_value_violation), and texts are re-read as YAML (C10_text_becomes_number)."],
"C100": ["partial", "Proved for every recipe in the layout of Spec/Document.lean (any definitions, depth and width) that uses no old hash-type key, for every network and download order: Spec/BumpFile.lean (old format) and Spec/BumpNew.lean (new format) say which keys and variables are set; the run ends with code 0, the text is that of the edited document, and the lines differ only by the listed changes. For a file in any layout of Spec/Layout.lean the written text is the canonical text with these changes (C100_bump_free_layout_partial, C100_new_format_free_layout_partial). C100_layout_does_not_matter_partial: for every run, successful or not, the layout of the file has no influence on the result. Missing: that the layout of the other lines is kept (C100_layout_violation: the whole file is laid out anew), comments on the edited lines (C100_selector_lost_violation), a version or hash that a variable gives in the new format (C48_v1_violation)."],
"C101": ["partial", "Proved for keys, empty sections, sections with more than one entry and items of lists: add_selector (all modes), remove_selector and add_comment give the text of the edited document, one line differs and only in its comment; if the line is not the first of a list element, the text read again gives the same answers, the selector table included. The full claim fails for mappings in lists (selector never written), for sections with one item (written twice) and for first lines of list elements (the element gets the selector when read again)."],
"C102": ["partial", "Proved for all documents in the layout of C31: append (with or without selector), replace and EXACT_POSITION (with or without selector; in the AND and OR modes the old selector is kept, or joined to the new one), a new section (a block of two lines at the end of requirements) and remove; one line is added, changed or gone, and the file read again answers as the recipe in memory. Assumed: the dependency text is a YAML scalar of one line, the section reads as a list; C102_append_to_lines_partial, C102_append_selector_to_lines_partial and C102_replace_lines_partial say this in terms of the lines of the section, expressions included (old format). The full claim fails where the comment behind a replaced entry is lost and where the selector of a dependency is written on its new section."],
"C103": ["partial", "Proved for histories of any length of patch, search_and_patch, set_variable, del_variable, add_selector, remove_selector, add_comment, add_dependency and remove_dependency on files in the layout of C31 or in any layout of Spec/Layout.lean (C103_session_from_free_layout_partial); each patch is a test, is refused, or is of one of thirteen shapes (set, replace, add, append or remove a key, an item or a list element, by a value, a list or a mapping) that loses no comment, or a copy or move made of them, and each dependency edit is of one of the shapes of C102. Missing: patches over lines with a comment (C103_replaced_line_violation), variable edits on recipes of the new format, the first line of a list element for comments (C101)."],
"C104": ["partial", "Proved from the text of the file to the answer, for files of the document grammar with sections that are lists of texts, and again for the recipe in memory after any session of edits of C103 (C104_after_session_partial, and C104_from_free_layout_partial for files in any layout of Spec/Layout.lean); what YAML reads (the loader) is a hypothesis, lines that start with an expression included (Spec/YamlText.lean); what the expressions stand for is spelled out (Fills, C73). Where it fails: a section without entries or with an entry that is no text makes the call raise, a section written as one text is read letter by letter."],
"C105": ["partial", "Proved from the text of the file to the answer for every entry but list elements and keys without a value, for missing paths no component of which is a text that the file has as a value, and for the recipe in memory after any session of edits of C103 (C105_value_after_session_partial, and C105_value_from_free_layout_partial for files in any layout of Spec/Layout.lean). It fails for list elements (C105_element_violation, C105_single_key_element_violation), keys without a value (C61_violation), lists of one number (C62_single_scalar_violation), paths through values (C105_value_as_key_violation) and quoted numbers (C105_quoted_number_violation)."],
"C106": ["partial", "Proved for files whose content is a document of Spec/Document.lean, in canonical or free layout, and after sessions of edits: list_selectors, contains_selector, get_selector_at_path and contains_selector_at_path in full; get_selector_paths for selectors that stand in no comment-only line (for those the claim is false, see the violation); get_comments_table where the lines at a path have one comment. Keys named / are excluded for the two path listings."],
"C107": ["partial", "Proved for non-empty files whose content is a document of Spec/Document.lean (no key named /), in canonical or free layout, and after sessions of edits: list_value_paths and find_value of None in full, find_value where no key without a value has the value as its name, search as ValueLine.text says. Missing, because false of the code: see C107_search_violation, C107_empty_file_violation and C06_key_name_violation."],
"C108": ["partial", "Proved for every pair of files whose pre-processed texts are layouts (Spec/Layout.lean) of the same definitions and the same document, for every outcome of the conversion. Missing: layouts outside of that, where it fails (C108_unindented_list_violation)."],
"C109": ["partial", "C109_directory_partial: for all directories of files (canonical or free layout, requirements as lists of texts as in C104) in which some files cannot be read or are no recipes and packages may have equal names: the edges are the lines of the first package of a name. C109_edges_are_the_lines_partial: the same without the word first if names are distinct. Missing, because false of the code or outside of the layouts: files with equal digests (C40_same_recipe_violation), a name read as None (C39_none_name_violation), names that Python holds to be equal but are not the same."],
"C11": ["proved", "Proved for lists of scalars as stated. Beyond the property: an index past the end raises IndexError (C11_out_of_range) and adding at the index of a mapping element overwrites it (C11_collection_overwritten)."],
"C110": ["partial", "The URL is the one get_value gives for the source in the recipe with the new version in its variable version; for files of the old format (C110_file_partial) it is what YAML makes of the text of the url line under the file's definitions with the new version. The hash is read back in the recipe whose rendering is written. False of new-format files whose version is a variable (C110_new_format_violation): the version in the file stays, the hash is that of the new archive. Not covered: hashes that look like numbers, list elements written as templates (C69, C47)."],
"C111": ["partial", "Proved for one-line values and list items, for block texts and for whole sections (C111_section_partial: lists and mappings, lines that start with an expression included), in files of the document grammar (canonical layout; free layout for the old format), with the expressions of C73; the value of a text must be a scalar and no variable's value may contain a brace. New-format files: as opened (set_variable on them is not rendered, C30)."],
"C112": ["proved", "Proved for files whose content is a document of Spec/Document.lean, in canonical or free layout, and after the sessions of C103 (there without saying which line stands before the arrow of a use). str() returns a text and no recipe, so it changes nothing; json.dumps of the variables and the name of the class are parameters."],
"C113": ["partial", "For files in canonical or free layout and patches that describe edits of their entries, copies and moves, tests of entries that are there, patches of entries that are missing, and objects that are no patches; the layout theorem is for every patch file. Missing: patches whose effect is not an edit of the document (C99's violations); something put behind the end of a list raises and leaves the file as it is (C113_past_the_end_violation)."],
"C114": ["partial", "Keys, list entries in front of scalars and at the end, added or copied there, new variables, selectors on lines without comment or (AND and OR mode) with a plain one, dependencies at the end of a section. Missing because false of the code: a dependency in a new section leaves the empty section behind (C114_empty_section_violation), adding at the number of a list element with keys overwrites it (C114_overwritten_violation), and a selector in REPLACE mode takes the comment away (C114_comment_lost_violation). The values are those YAML writes as well-formed lines."],
"C115": ["partial", "Proved for edits that part at different keys (existing or not; keys of a section may also be removed) or in different entries of several lines of a list, for a new key of a section against edits at its other keys, for any number of edits in any order, and for variables. Two new keys of one section, items of one list and new variables keep the order of the calls, and nothing can be added to an emptied recipe (violations)."],
"C116": ["partial", "Proved for replacing a value, adding and removing a key, selectors in REPLACE mode, comments without brackets, variables, and dependencies in REPLACE and IGNORE mode. Selectors joined in AND or OR mode are written twice, a comment that reads like a selector is doubled, and of a duplicate key the second call removes the other line (violations)."],
"C117": ["partial", "Proved for any number of edits inside a key that is then replaced, added again or removed, for the old value put back, for edits of a list item that leave it one value, for selectors in REPLACE mode and for variables. Missing because false of the code: a list item that became a mapping does not become a text again (C117_item_violation)."],
"C118": ["partial", "C118_only_content_matters holds for all recipes and all later calls. Saving and opening gives back the content for the files and sessions of C103 (canonical and free layout); outside of these what is written may not read back, see C118_list_entry_violation. get_selector_paths is left out of the answers: its first answer empties the stored places (C24_second_answer_violation)."],
"C119": ["partial", "any history of runs, by induction, for files of both formats and for a first file in any layout of Spec/Layout.lean; k runs with --build-num, also where there is no build number at first (C119_no_number_partial: the first run adds 0). Missing: runs whose writing fails (C45_write_failure_violation), and what C100 leaves out of a single run. The comment behind the build number goes with the first run (C100_selector_lost_violation)."],
"C12": ["partial", "Proved: what replaces what, the frame, and the value read back after a list item or a key is replaced. A missing last component of a replace is reported by C12_missing. Missing because false of the code: a mapping in a list that is replaced by a text is not read as the text (C12_mapping_in_list_violation)."],
"C120": ["partial", "C120_refused holds for all files and patches. In pieces: any number of patch files whose patches are edits and tests of C113, then one with any patches at all, for files in any layout of Spec/Layout.lean. Missing because false of the code: when the command ends with an exception the earlier pieces are kept but the single run loses everything (C120_exception_violation); a file that does not read back (C120_list_entry_violation)."],
"C121": ["partial", "any history of the two commands, by induction, for files of both formats in the canonical layout; every bump is one of C100 or C45, every list of patches one of C113. C121_layout_does_not_matter_partial: two layouts of one recipe go the same way under every history, with any options, patches and downloads. Missing: what C100 and C113 leave out of a single run, a failing write (C45_write_failure_violation)."],
"C122": ["proved", "Unconditional but for the final write, which is assumed to succeed, as in the statement."],
"C123": ["partial", "Composes C95_output_is_read_partial with C95_failed. Missing: conversions outside the relation of C90, output that is not the text of a document of Spec/Document.lean, and output that the pre-processing of C87 would change."],
"C13": ["proved", "A move is exactly a remove followed by an add; a move onto itself returns True and does nothing even if the place does not exist (C13_onto_itself). What is left after a failing move is C08."],
"C14": ["proved", "A copy is the add of the value read at the source; the source and its siblings read as before under the guard stated in C14_source_kept / C14_sibling_kept."],
"C15": ["proved", "Assumes the YAML loader does not itself raise the validation exception."],
"C16": ["proved", "For every history of calls, the dependency calls included. The converse direction (not modified implies unchanged) is C16_unmodified_without_failed_move: a move that fails after its removal step changes the recipe without setting the flag."],
"C17": ["proved", "For every operation but move, which C13 reduces to remove and add. Guard: the edited node does not become a mere comment, see C03_emptied_element_becomes_comment."],
"C18": ["partial", "Proved: the result is true exactly if the patch succeeds at every match, in order. Missing, because false of the code: the matches are computed up front, so an edit that shifts elements makes later paths stale (C18_stale_paths_violation)."],
"C19": ["partial", "Proved for every history of calls, the dependency calls included, that avoids the exceptions of keepsIndex. Missing, because false of the code: add_comment with a bracketed text is not indexed (C19_comment_violation) and a move that fails half way leaves a stale entry (C19_failed_move_violation)."],
"C20": ["partial", "First half proved: the selector is readable and nothing else changes. Second half is false of the code in REPLACE mode (C20_comment_lost_violation); in AND/OR mode a plain comment is kept (C20_plain_comment_kept)."],
"C21": ["partial", "AND is proved when the old selector has no or, OR when it has no and. Missing, because false of the code: mixed operators, as the code joins without parentheses (C21_and_violation, C21_or_violation)."],
"C22": ["proved", "For one-line comments. The rest of the comment is kept up to white space and # signs, and exactly in the usual shapes."],
"C23": ["partial", "Proved for one-line texts without brackets. Missing, because false of the code: a text with a closing bracket becomes part of the selector (C23_bracket_violation)."],
"C24": ["partial", "Everything but a repeated get_selector_paths for the same selector. Missing, because false of the code: the second answer is always a single empty path (C24_second_answer_violation)."],
"C25": ["partial", "Proved: the code groups and/or to the right with equal precedence (C25_right_associative), which is the intended Boolean meaning whenever no 'and' precedes an 'or' (C25_boolean_expression_partial). Missing, because false of the code: mixed expressions (C25_precedence_wrong) and parentheses (C25_parentheses_ignored)."],
"C26": ["proved", "ASCII letter case; white space exact."],
"C27": ["proved", "Soundness of equality, and the render round trip. The converse (same platforms imply equal) is not claimed and false (C27_eq_incomplete)."],
"C28": ["proved", ""],
"C29": ["proved", ""],
"C30": ["partial", "V0 recipes: proved (one definition line per variable, whose right side is a Python literal for the value, C30_v0_literals_partial); texts with double quotes, backslashes or line breaks are written unescaped (C30_quoted_text_violation). V1 recipes: false of the code, edits of variables never reach the rendered text (C30_v1_edits_invisible, C30_v1_violation)."],
"C31": ["partial", "Proved for every document (any depth and width) in the layout that render produces: Spec/Document.lean defines documents, their text and their tree without the parser or renderer. Reading the text gives the tree, writing the tree gives the text, reading what render wrote gives the same recipe (tree, comments, variables, schema, selectors), and a text in this layout is kept character by character. Missing: trees outside Document, where the claim is false; witnesses are the C31_* violation theorems (nested empty key, text at the end of a section or file, lost quotes, repeated first entry, wide indentation, lists that are not indented, constraint after a colon, remarks to Jinja)."],
"C32": ["proved", "Stable sort specification, uniqueness, idempotence, layout (comments, known keys, rest) and effect on a recipe."],
"C33": ["proved", ""],
"C34": ["proved", "Exact characterisation of str_to_dependency_section, both directions, and injectivity per schema."],
"C35": ["proved", "Success, ValueError and KeyError are each characterised for every recipe and loader."],
"C36": ["partial", "Proved when every known section is a list of texts and empty entries; C36_text_section_violation, C36_number_entry_violation and C36_empty_section_violation show that a section written as one text is read letter by letter and that a number as an entry, or a section without entries, makes the call raise."],
"C37": ["partial", "Proved for every mode, with and without selectors; C37_new_section_selector_violation: a selector on a dependency in a new section also lands on the section's line."],
"C38": ["proved", "Table construction and lookup, for every file, query and default."],
"C39": ["partial", "False when the name of a package is read as None: networkx refuses the node and no graph is built at all (C39_none_name_violation). Proved for all other recipes in which names that Python holds to be equal are the same value, numbers included."],
"C40": ["partial", "Proved under the conditions of C39 on names. Files with the same recipe are counted once (C40_same_recipe_violation); with distinct digests all are counted."],
"C41": ["proved", ""],
"C42": ["partial", "Proved when neither tag nor revision is given. With one, the branch (or nothing) is checked out instead (C42_tag_violation, C42_tag_and_branch_violation); local repositories are never fetched (C42_local_violation); after a failed checkout no fetch succeeds (C42_retry_violation)."],
"C43": ["proved", "For source sections made of mappings."],
"C44": ["proved", "Every pattern of attempts; the sleep after the last failure is part of the statement."],
"C45": ["partial", "Proved for everything but a failure in the middle of the final write (C45_write_failure_violation)."],
"C46": ["partial", "Increment, reset and refusals proved; with both options the code increments instead of resetting (C46_both_flags_violation)."],
"C47": ["partial", "Proved for every pair of completion orders when the numbered sources are mappings in the recipe's tree; C47_failed_downloads: when every failure is a failed download, every order ends with the documented exit code. Missing, because false of the code: sources that are templates (C47_template_source_violation), and mixed kinds of failures (C47_failure_violation)."],
"C48": ["partial", "Proved for V0 recipes with a version variable and for recipes without one when YAML reads the version as text; violated for number-like versions, V1 context versions and unused version variables."],
"C49": ["partial", "Exit 0 exactly when all patches apply in order; the file then holds the fully patched recipe; each failure mode has its code. The command is not atomic: with a failing patch the earlier ones stay in the file (C49_atomic_violation), and a failing run still rewrites the file (C49_rewrite_violation)."],
"C50": ["partial", "Classification, statistics and histograms are proved for every result list. The expected number of successes is off by the recipes failing in pre-processing or not V0 (C50_self_check_violation); the threshold is compared with the rounded rate, so it can pass half a hundredth below (C50_threshold_violation)."],
"C51": ["partial", "Proved: a conversion, returning or raising, leaves the object's own recipe unchanged; the first conversion depends on nothing but the text that the recipe renders (C51_first_result). Not true and refuted: that every conversion does; the converted copy and the messages are kept, so a second call gives another answer."],
"C52": ["partial", "Accounting, error extraction and debug entries are proved. A failing recipe without an Error: line is in no debug entry (C52_debug_violation); the threshold is compared with the rounded rate (C52_passed_partial)."],
"C53": ["proved", "C53_answer says for every text, database and matcher what the answer is. Observed: the answer for Unlimited is not an SPDX identifier (C53_unlimited_violation), and letters within a word (Borceux, Standard) make a licence look like a combination (C53_letters_within_a_word_violation)."],
"C54": ["partial", "C54_reported says exactly what is reported. Missing, because false of the code: a test file that imports a module called python makes Python a test dependency too (C54_python_for_tests_violation). Relative imports of the project's own modules are reported as packages (C54_relative_import_violation)."],
"C55": ["partial", "Proved for every project table whose entries are lists of texts. Missing, because false of the code: a text instead of the list is reported letter by letter, other values raise instead of giving a message (C55_text_violation, C55_exception_violation)."],
"C56": ["proved", ""],
"C57": ["proved", ""],
"C58": ["proved", "A line that contains the marker text itself is changed (C58_own_marker_breaks_roundtrip); the property excludes it."],
"C59": ["partial", "Totals, order, tests and log reading are proved for every list of results. Missing, because false of the code: a percentage is divided by the number of all results, also of those that do not have it (C59_average_violation); sums of floating-point numbers are only as order-independent as the addition."],
"C60": ["proved", ""],
"C61": ["partial", "False of the code: get_value answers with the loader's reading of the key's own name (C61_violation). C61_empty_key_partial says exactly what is returned."],
"C62": ["partial", "Proved for a single text and for two or more scalars (up to what the YAML loader makes of the lines). Missing, because false of the code: a list whose only element is not a text comes back as that element (C62_single_scalar_violation)."],
"C63": ["proved", ""],
"C64": ["proved", "For any predicate on texts standing for the compiled expression."],
"C65": ["proved", ""],
"C66": ["proved", "For every MatchSpec behaviour."],
"C67": ["partial", "False when two recipes have a package of the same name (C67_order_violation); proved when names are distinct, under the conditions of C39 on names."],
"C68": ["partial", "Proved when no fetch follows; a later failed fetch leaves an incomplete archive readable (C68_digest_violation)."],
"C69": ["partial", "Proved for plain hashes that YAML reads back as text; C69_number_violation: a hash that looks like a number loses its leading zeros."],
"C70": ["partial", "C70_distinct is unconditional; C70_references_partial says exactly which paths are listed: those whose value has the name anywhere in a template expression. C70_file_partial, C70_free_layout_partial, C70_new_format_partial and C70_after_session_partial say the same in terms of the lines of a file: the paths of the value lines that use the variable, in the order of the file. C70_substring_violation: a variable whose name is part of another name is listed too. C70_block_text_violation: a use in a text of several lines is missed."],
"C71": ["partial", "Proved for texts of lines that do not end in a definition (unless they are one) with at most one hash key per line. Violations: order dependence and commented-out definitions."],
"C72": ["partial", "Proved for bulk and single runs; a directory with exactly one recipe is treated as a single file, its output goes to the given path and not next to the recipe (C72_one_recipe_violation)."],
"C73": ["partial", "Proved for texts whose expressions are a name with optional index and filter, a sum of two operands, or any other expression of the characters the tool looks at that has no filter lower or upper, no number in brackets directly behind a word and no plus between operands, such as compiler('c'), version.split('.')[0] or name | replace('-', '_') (it is kept; with filters and indices too if it is a call or has a dot or an operator in it, and no plus, and the names of the variables are words), and whose variable values contain no brace (a value with braces would be evaluated again); the result must be a scalar (a list or mapping is walked again). Values without expressions, lists and mappings of any depth included, are the same with and without substitution (C73_plain_values_are_kept). Of a sum of more than two operands only the first two count (C73_third_operand_violation); braces in values: C73_braces_violation. Missing: several indices or filters behind one name, and filters in sums; C73_sum_in_a_call_violation shows that two filters are applied in a fixed order, and that a sum within a call takes the place of the call. Violations proved: a quoted version such as 1.10 comes back as the number 1.1 because the result is read as YAML again; an undefined variable at the start of a V0 text gets a dollar sign."],
"C74": ["proved", "For comments on one line (the parser produces no other). A bracket anywhere in a comment counts as a selector: C74_brackets_in_the_text_are_lost shows the text that is lost."],
"C75": ["proved", "For comments on one line."],
"C76": ["proved", "Texts of several lines and structured values below an existing key, for add and replace. In a list a text of several lines becomes a list (C76_text_in_a_list_becomes_a_list), and a final line break is lost (C76_final_line_break_is_lost)."],
"C77": ["proved", "Schema version, V0 and V1 variables, modification flag."],
"C78": ["proved", "The changes are the Recipe operations of the model; str(p) of a patch is the model's pyStr."],
"C79": ["proved", "A /context that is not a mapping gives no variables in the model, as in the constructor."],
"C80": ["partial", "C80_deprecated_partial: for every section without repeated names, exactly the obsolete fields go and each is reported once. The full statement fails for repeated names: C80_duplicate_stays. The whole section steps are in C81_build_partial and C81_about_partial."],
"C81": ["partial", "C81_package_partial composes C81_spelling_partial, C81_sources_partial, C81_build_partial, C81_requirements_partial, C81_about_partial and C84_tests_partial: from a relation on the children of the package that says what every step does, the new children and the messages follow, and nothing else in the recipe changes. The relations exclude what makes a patch fail. The full statement fails: C81_homepage_lost (an existing value is overwritten silently), C81_source_skipped (a source of one key)."],
"C82": ["partial", "Exact result of the step (tree, messages) for every recipe whose selector lines are independent of each other; C82_list_selector_violation and C82_two_switches_violation show two ways in which the full claim fails in the code."],
"C83": ["partial", "Exact result of the step (tree, messages) in any visiting order; C83_reference_violation shows that the meaning of a variable that refers to another one is lost."],
"C84": ["partial", "C84_tests_partial: what becomes of the test section; C84_all_tests_kept: the list of tests holds every entry of the renamed test exactly once. The full statement is false: commands overwrite a script, the requirements go with a lone pip check, python with a version and a command that is not a list are not recognised, a section without entries becomes a test called test, a list of tests can end the conversion (the violations). Missing: tests where one of the fields cannot be read or put."],
"C85": ["partial", "C85_script_env_partial for every list of texts and mappings with then/else. The full statement fails: an entry that is a number ends the conversion (C85_number_crash, C85_single_number_crash)."],
"C86": ["partial", "C86_licence_partial for every licence that is read as text or missing, C86_not_a_text for the others, where the look-up raises (C86_not_a_text_violation: the claim fails there); what the look-up gives is C53."],
"C87": ["proved", "C87_pre_process: for every text, the result of pre-processing is the only text that the specification's steps (Spec/PreProcess.PreProcessed, nine passes in plain left-to-right rewriting terms) allow."],
"C88": ["proved", "The text of the selector only; where the selector stands and what becomes of the line is C82. The pass of the code that looks for `not py27` never finds anything, since `py27` has been replaced by then: `not py27` becomes `not match(python, \"==2.7\")`, which is what the theorem says. The rewriting does not look at word boundaries: a name such as `mypy310` is rewritten inside."],
"C89": ["partial", "Proved: the comments reported are exactly those whose line is gone from the tree when all sections have been converted (C89_gone_lines_partial, C89_report). The full claim is false: C89_substitution_violation and C89_selector_violation lose a comment of a line that stays, without a message."],
"C90": ["partial", "C90_conversion_partial: for every recipe for which the steps of the specification (Spec/ConvWhole.Conversion) are possible, the conversion ends without an exception, its tree, schema version, variables and messages are exactly the specified ones, and the original is unchanged. Missing: recipes outside the specification's side conditions (an empty recipe, comments of several lines, edits of selectors or substitutions that lie within each other, two variables of one name, list elements with a comment of their own as outputs, and steps that end with an exception)."],
"C91": ["partial", "C91_call_partial: a call in a single substitution with plain text around it becomes a filter. Counterexamples: two calls on a line, a dot in a quoted text, two environ look-ups on a line, a quoted text at the start of the file."],
"C92": ["proved", "C92_dependency_paths is an equivalence with the specification. C92_text_section: a section written as one text has a path per letter, none of which can be looked up; C92_number_section: a number ends the call."],
"C93": ["partial", "Proved for all documents whose top-level entries are values, block texts, mappings or lists of mappings, and whose inner entries are values, block texts, lists of values or mappings that begin with a key that has a value (keys distinct); exact equality including errors, with and without replacing variables. The other shapes violate the property: see the _violation theorems."],
"C94": ["partial", "Proved: the tree drawn for a known package with at least one arrow is exactly the closure of the dependency relation (C94_plot_partial), plot all (C94_plot_all), every other answer (C94_answers), sessions (C94_session) and the exit without recipes. Missing, because the code does otherwise: packages without arrows, names with capital letters, Python 3.11, a direction in front of all (see the violation theorems)."],
"C95": ["partial", "C95_converted and C95_failed hold for every converter; C95_file_to_file_partial gives the text written for a recipe that meets the conditions of C90 and whose converted tree is the tree of a document (block or plain values, no comments or flow forms left over); C95_output_is_read_partial reads that text back, given that schema_version: 1 is in the converted tree. The claim is false outside of them: a conversion can leave texts that are read differently (see C72, C31, C90 in the table of violations)."],
"C96": ["proved", "For every recipe and environment; a value that cannot be read raises the same error as get_value."],
"C97": ["partial", "C97_sections_kept: after selectors and substitutions are replaced, the rest of the conversion keeps every key outside the listed sections and fields, at the top and in every output. C97_texts_kept: the first half keeps what stands apart from the replaced lines. C97_left_alone and C97_conversion_leaves_alone_partial: get_value gives the same before and after. Missing: conversions that the relation of C90 does not describe (failing ones and the side conditions listed there), and tests, which is treated as changed even where test is absent."],
"C98": ["partial", "Selection, numbers and that nothing else is written are proved in full. The files are proved when the picked repositories have different names; C98_same_name_violation: for two organisations with a repository of the same name the one file depends on the schedule. C98_exclude_directories_violation: exclusions without the organisation exclude nothing."],
"C99": ["partial", "Proved for every document of the usual layout and every list of patches (replace, add, insert, append, remove; scalars, lists and mappings): the patches answer True, the rendered text is that of the edited document, opening it gives that document, get_value and contains_value agree with the recipe in memory at every path; a replaced value changes one line, a removed or added entry removes or adds its own lines, at any depth, and no other line changes; copies and moves too (C99_transfer_partial, C99_copy_key_partial, C99_move_key_partial). Missing: comments and selectors. Replacing a value drops the selector from the file while the API still reports it, and it may come back with a later edit (C99_selector_lost_violation, C99_comment_returns_violation)."]
}
