# Formal model of conda-recipe-manager in Lean 4

## Layout

| where | what |
|---|---|
| `lean/Verif/Model/*.lean` | the model: one Lean function per Python function, each citing file and lines |
| `lean/Verif/Spec/*.lean` | small, independent specifications (what the English properties talk about) |
| `lean/Verif/Lemmas/*.lean` | helper lemmas; nothing here is a claim |
| `lean/Verif/Props/*.lean` | the property theorems, their non-vacuity examples, and counterexamples where the code breaks the property |
| `properties.jsonl`, `MANIFEST.json` | the properties and which theorems prove them |
| `seeded/LOG.jsonl` | log of the seeded-bug experiments |

## Modelling conventions

* Python `str` is `List Char` (`Str`); JSON/YAML values are an inductive `PyVal` with Python's `==` as a function.
* A Python reference to a tree node is its position (a list of child indices); in-place mutation is a functional
  update at the position.
* Exceptions are values (`Except PyErr`). A mutating method returns its outcome *and* the state it leaves behind, so
  that "raised after having mutated" is visible.
* PyYAML, `ast.literal_eval`, `float()`, `conda.MatchSpec`, `difflib`, hashing, the network, the file system, git and
  user-supplied regular expressions are parameters of the model (an `Env` structure or function arguments). Theorems
  quantify over all of them; where a theorem needs an assumption about one, it is a hypothesis of the theorem.
* The project's own regular expressions are transcribed into a small backtracking regex engine.
* Unicode: letters/digits tests (`isdigit`, `lower`, `\w`, `\d`) are modelled for ASCII; white space is modelled exactly.

## Plan per property

| id | what is modelled | how it is proved |
|---|---|---|
| C01 | `str_to_stack_path`, `stack_path_to_str` | algebraic laws by induction on components |
| C02 | `append_to_path` | case analysis, composed with path resolution |
| C03 | index maps, `traverse` | map = positions of non-comment children; invariance under comment insertion by induction on trees |
| C04 | `contains_value`, `get_value` | case analysis on the traversal |
| C05 | `traverse_all`, `list_value_paths` | mutual induction on well-formed trees |
| C06 | `find_value` | refinement to a filter over all places |
| C07-C14, C17 | the six patch operations | decision logic + tree-edit specification, frame lemma over positions |
| C15 | `JSON_PATCH_SCHEMA` | validator transcribed, characterised as a predicate |
| C16 | all mutators | invariant over operation lists |
| C18 | `search`, `search_and_patch` | counterexample for removals; partial theorem |
| C19 | `_rebuild_selectors` and all mutators | invariant over operation lists; counterexample for `add_comment` |
| C20-C23 | `add_selector`, `remove_selector`, `add_comment` | string lemmas about the selector regex |
| C24 | `get_selector_paths` with its destructive stack use | counterexample + partial theorem |
| C25-C28 | `SelectorParser`, platform tables | shunting-yard correctness by induction on token lists; finite tables by `decide` |
| C29-C30 | variable table, V0/V1 render | ordered-map refinement over operation lists; counterexample for V1 |
| C31 | line parser and renderer | simulation between the indentation stack and the tree, by induction on trees; for files as people write them (`Spec/Layout.lean`) the same simulation with free white space, blank lines and quotes, and an induction over the lines for definitions and remarks between them |
| C32 | sort | stable sort lemmas |
| C33 | `__eq__`, `calc_sha256`, `diff` | congruence |
| C34-C37 | dependency API | decision logic, induction on lists |
| C38 | CBC parser | induction on the entry list |
| C39-C40 | graph construction | invariant over the recipe list |
| C41-C43 | fetchers | state machine invariant over histories; list induction |
| C44-C49 | bump-recipe and patch commands | step-by-step command semantics with explicit effects (file writes, exit codes) |
| C50, C52, C59 | bulk statistics | counting lemmas by induction |
| C51 | converter entry | state separation |
| C53 | SPDX matcher | decision logic, `get_close_matches` is a parameter |
| C54-C55 | scanners | set-level algebra |
| C56-C58, C60 | utilities | induction |
| C61-C62 | `get_value` | case analysis on the node that is read; counterexamples where the YAML loader unwraps or re-reads |
| C63 | quoting of special strings | character-level induction |
| C64 | `search` | refinement to a filter over all places |
| C65 | package paths | case analysis |
| C66 | dependency strings, `MatchSpec` as a parameter | case analysis |
| C67 | graph construction under permutations of the recipes | permutation induction; counterexample for equal names |
| C68 | artifact fetchers over histories | state-machine invariant; counterexample for a failed later fetch |
| C69 | bump-recipe hash update | composition of C47 with the patch theorems |
| C70 | `get_variable_references` | filter over all places + regex characterisation; for files, in any layout and after any session, the paths of the value lines that use the variable |
| C71 | hash-type pre-processing of text | line-wise specification, induction on the lines |
| C72 | `convert` command, file effects | command semantics with an explicit file system |
| C73 | Jinja rendering (`_render_jinja_vars`, `_set_on_schema_version`…) | an expression grammar as specification; printed expressions are found and evaluated, by induction on the text |
| C74-C75 | comments table, selector of a line | string specification of the selector regex |
| C76 | patching values of several lines, lists, mappings | generated subtree = parsed dump, read back by the same loader |
| C77 | the constructor: schema version and variables | composition of parser lemmas |
| C78-C79 | the whole conversion to V1 | every step is one of six kinds of change; trace induction |
| C80-C81, C84-C86 | the conversion's section upgrades | small-step relations on the children of a section (Spec/ConvSection, Spec/ConvPackage), each method refines its relation; frame: nothing outside the section changes |
| C82 | selectors to conditionals | as C80; the selector text is C88 |
| C83 | Jinja to `context` | as C80 |
| C87 | the text pre-processing before a conversion | pass-by-pass specification of the text substitutions |
| C88 | Python-version selectors | character-level specification of the rewriting rules |
| C90 | the conversion of a whole recipe, with outputs | the relations of C80-C86 for every package path, composed; the outputs by induction on their number |
| C91 | method calls become filters | through C87's passes for one call in plain text; counterexamples for the rest |
| C92 | paths of dependencies | induction on sections and outputs against the sizes that `get_value` gives |
| C93 | `render_to_object` | the data of a document as specification (Spec/Object), induction on the document; counterexamples for the shapes that fail |
| C94 | the `graph` command: the words of a line, the drawing as its set of arrows, the breadth-first search written out | invariant of the search loop with a decreasing count of unvisited nodes; case analysis on the words |
| C95 | `crm convert` of one file: what is printed, what is written, the exit code | the converter steps composed with C90, C50 and C31; the message table as the list of messages in order |
| C96 | where the name of a recipe is read | `lookup` of the `outputs` key decides the path; C04 for the default |
| C97 | what a conversion leaves alone | a frame relation (`Stays`, `StaysBelow`, `RecipeStays`) proved for each step relation of C82–C90 and composed; paths by `lookup` |
| C98 | fetching recipes at random | `Model/RandomSelect.lean`: web, csv rows, sample and write order are parameters; invariant over the list of writes, for every permutation; the picks depend only on the set of allowed entries |
| C99 | documents as text, JSON patches as edits of the document (copies and moves: `Spec/Transfer.lean`), rendering and reopening | a tree shows a document (lemma relation, comments at unrendered places left open); each patch keeps that, rendering and reading of values follow by induction over the document; a copy is an add of the value read, a move also a removal (C13, C14) |
| C100 | `bump-recipe` on files of both formats in the layout of C31 | the reads agree between the recipe in memory and the file (simulation of C99), each edit is a document edit, line lemmas by induction on the path |
| C101 | `add_selector`, `remove_selector`, `add_comment` on files in the layout of C31 | the place of the line by induction on the path, the tree after the edit is the tree of the edited document, line lemmas of C100, reopening by C31 |
| C102 | `add_dependency`, `remove_dependency` on files in the layout of C31 | C37 gives the patch, the tree after a patch of a list item is the tree of the edited document, the selector by C101, line lemmas by induction on the path, reopening by C31 |
| C103 | histories of `patch`, `search_and_patch`, `set_variable`, `del_variable`, `add_selector`, `remove_selector`, `add_comment`, `add_dependency`, `remove_dependency` on files in the layout of C31, and `render` | invariant: the recipe in memory has the tree, the variables and the selector table of the file its document describes; one step lemma per call, induction over the history, reopening by C31 |
| C104 | `get_all_dependencies` on a file in the layout of C31, from its text to the answer | a small specification collects the lines `- text  # comment` under `requirements`; the path of a line is followed in the document and in the tree, the mapping YAML reads is matched with the lines section by section, then C36 |
| C105 | `get_value`, `contains_value` on a file in the layout of C31, from its text to the answer | paths are followed in the document (`LeadsTo`), an inductive specification says what each kind of entry means; both directions between paths in the document and in the tree by induction on the path; counterexamples |
| C106 | the selector queries and `get_comments_table` on a file, from its text (canonical or in any layout of C31) to the answers, also after a session of edits | `commentsOf` lists the comments of the lines of a document with their paths; visiting the tree sees exactly these, with the value of a one-line key repeating its key, by induction on the document; then C19, C74 and C75; counterexample |
| C107 | `list_value_paths`, `find_value` and `search` on a file, from its text (canonical or in any layout of C31) to the answers, also after a session of edits | `valuesOf` lists the value lines of a document with path, value, text and comment; visiting the tree sees exactly these, by induction on the document; counterexamples |
| C108 | `crm convert` on two layouts of one document | parsing gives the same recipe but for the stored text; no step of the conversion looks at that (closure over all steps) |
| C109 | the graph of a directory of files | C104 for each file, C39/C40 for the list of packages they give |
| C110 | the archive hashed by a bump to a version | the value of `/source` is that of the recipe with the variable set (frame of the edits), the table of fetchers by induction on the list, C69 for the hashes; for files C111 says what the section is read as |
| C111 | lines and sections that use variables, in files and after sessions | C105 for the place of the line and the variables, C73 for the text; for sections the placeholders are put back in order (C58, induction on the value) and the texts filled one by one |
| C112 | `str(recipe)` (`Model/Debug.lean`) for files in canonical or free layout and after sessions of edits; `json.dumps` and the class name are parameters | induction on the document: the lines of the tree are the outline of the document (`Spec.Doc.outline`); the selectors and their uses from C106 |
| C113 | `crm patch` (`Model/Commands.lean`) on a file given by its entries and any layout of them; the patches by what they do to the entries (`Spec/PatchFile.lean`) | induction on the list of patches over C99's effect of an edit, C105's values and C04's missing paths; the file before by C31's free layout |
| C114 | two calls in a row of `patch`, of the selector, variable and dependency calls; `Spec.Restored` says that nothing is different | induction on the place: the change of C10 and C11 and the one of C09 compose to the identity, since the path of the removal leads to the new node; for dependencies the document of C102 |
| C115 | two and more calls of `patch` (`add`, `remove`, `replace`, `test`), `add_selector`, `remove_selector`, `add_comment`, `set_variable`, `del_variable`; `Spec.Apart` says when two places are independent | an edit below a place only depends on what is there and only changes that (`Lemmas/Local.lean`), a step beside it still leads to the same child, and two updates at different positions commute; keys of one section are rewritten, removed or appended in the list of its lines, which commutes for different keys; any order by induction on the permutation |
| C116 | the same call twice: `patch` (`replace`, `add` of a key, `remove` of a key), `add_selector`, `remove_selector`, `add_comment`, `set_variable`, `del_variable`, `add_dependency`; `Spec.Repeatable` | what the first call put in its place is found by the same path, and the second call puts the same there (`Lemmas/Local.lean`); for dependencies the document after the first call, as in C102 |
| C117 | any number of calls inside a place and one call that puts a value there or removes it; `Spec.Covered`; selectors in REPLACE mode and variables | an edit inside a key only changes what is below the key (as in C115), which the last call does not read; induction on the list of edits |
| C118 | any history of calls on an opened file, then `render` and opening the text, then any calls at all; `Spec.GoesOn` compares the answers and the content | every call reads only the lines, variables and format (case by case over the calls, induction on the history); that these are read back is C103 |
| C119 | a list of runs, each with its own options and downloads, each on the file the last one left (`Spec.fileAfter`); `Spec.BumpRuns` says what they make of definitions and document | induction on the list of runs: a written run is C100, dry and failed runs are C45; the k-th build number by induction on k |
| C120 | `Spec.patchOnce` with all patches against `Spec.patchEach`, which runs the command with one patch file after the other | the loop over patches splits at any place; a patch reads only lines, variables and format (C118), which are read back (C103); induction on the patch files |
| C121 | a list of commands, `bump-recipe` or `patch`, each on the file the last one left (`Spec.runCommands`); `Spec.CommandRuns` says how they end and what they make of definitions and document | induction on the list: C100, C45, C113 for the single runs, the text each leaves is read back by C31 |
| C122 | the command with and without `--dry-run` in the same surroundings | the edits do not read the option; case by case over the ways a run ends |
| C123 | `convert` on a file whose text is the output of a conversion | the output is read back as a recipe of the new format (C95), which the command refuses |
| C89 | comments that a conversion drops | comparison of the two comment tables; counterexample |

Every property listed can be expressed in the model; none is marked `not_applicable`.

## How statements are kept independent of the model

`Spec/*.lean` imports the model only for its data types (`Node`, `PyVal`, `Recipe`, `Env`, …), apart from the function
under test that a theorem calls. Documents, paths, selectors, sorting, selectors' truth, bulk statistics, source sections,
dependency lists, log summaries and the conversion's section changes each have their own specification there, written as
relations or closed formulas rather than by calling the helper that the code uses. The comment on every theorem is the
English claim. An `example` after it applies the theorem to a concrete case.

## Where the code does not do what the property says

For each of these a theorem with a concrete witness is in `Props/`; the property is marked `partial` unless its statement
excludes the case. The witnesses are executions of the model, checked by the kernel.

| id | what happens | theorem |
|---|---|---|
| C01 | a relative path is misread | `C01_relative_path_is_misread` |
| C03 | a list element whose last value is removed turns into a comment | `C03_emptied_element_becomes_comment` |
| C05 | a numeric key is taken for an index | `C05_numeric_key_violation` |
| C06 | searching for a key's own name finds the key if it has no value | `C06_key_name_violation` |
| C08 | a move that fails half way loses its source | `C08_move_loses_source` |
| C10 | adding below a scalar list element inserts in front of it; texts are re-read as YAML | `C10_below_list_value_violation`, `C10_text_becomes_number` |
| C11 | adding past the end raises; adding at a mapping overwrites it | `C11_out_of_range`, `C11_collection_overwritten` |
| C18 | `search_and_patch` uses stale paths | `C18_stale_paths_violation` |
| C19 | the selector index misses `add_comment` and half-done moves | `C19_comment_violation`, `C19_failed_move_violation` |
| C20 | replacing a selector deletes the rest of the comment | `C20_comment_lost_violation` |
| C21 | AND/OR join without parentheses | `C21_and_violation`, `C21_or_violation` |
| C23 | a bracket in a comment becomes part of the selector | `C23_bracket_violation` |
| C24 | asking twice for the paths of a selector gives an empty path | `C24_second_answer_violation` |
| C25 | `and`/`or` have one precedence and group to the right; parentheses are ignored | `C25_precedence_wrong`, `C25_parentheses_ignored` |
| C30 | variable edits of a V1 recipe are not rendered | `C30_v1_violation` |
| C30 | a text with a double quote is written between double quotes without escapes, so the definition is no literal | `C30_quoted_text_violation` |
| C36 | a section written as a text is read letter by letter | `C36_text_section_violation`, `C36_number_entry_violation` |
| C36, C104 | a section without entries makes the whole call raise | `C36_empty_section_violation` |
| C37 | the selector of a dependency lands on the new section | `C37_new_section_selector_violation` |
| C39 | a package whose name is read as `None` (a variable with the text `null`) stops the construction of the graph | `C39_none_name_violation` |
| C40 | equal recipes are counted once | `C40_same_recipe_violation` |
| C42 | tag and revision are not checked out | `C42_tag_violation`, `C42_tag_and_branch_violation`, `C42_local_violation`, `C42_retry_violation` |
| C45 | a write error leaves a damaged file | `C45_write_failure_violation` |
| C46 | both build-number options together increment | `C46_both_flags_violation` |
| C47 | the hash of a source written as a template becomes a list element of its own, in a place that depends on the order of the downloads | `C47_template_source_violation` |
| C48 | versions that look like numbers, V1 versions, unused variables | see `Props/Bump*.lean` |
| C49 | the patch command is not atomic and rewrites on failure | `C49_atomic_violation`, `C49_rewrite_violation` |
| C50, C52 | self-check and threshold of the bulk statistics | `C50_self_check_violation`, `C50_threshold_violation`, `C52_debug_violation` |
| C51 | converting twice gives another answer | `C51_second_call_differs` |
| C53 | `Unlimited` has no SPDX identifier; letters within words | `C53_unlimited_violation`, `C53_letters_within_a_word_violation` |
| C54-C55 | scanner corner cases | `C54_python_for_tests_violation`, `C54_relative_import_violation`, `C55_text_violation`, `C55_exception_violation` |
| C59 | averages divide by the wrong count | `C59_average_violation` |
| C61-C62 | a key without value reads as its name; a one-number list reads as the number | `C61_violation`, `C62_single_scalar_violation` |
| C67 | graphs depend on the order for equal names | `C67_order_violation` |
| C68 | a failed fetch leaves a readable partial archive | `C68_digest_violation` |
| C69 | a hash that looks like a number is changed | `C69_number_violation` |
| C70 | a variable whose name is part of another | `C70_substring_violation` |
| C70 | a variable used in a text of several lines | `C70_block_text_violation` |
| C71 | order dependence, commented-out definitions | see `Props/Utils.lean` |
| C72 | a directory with one recipe is treated as a file | `C72_one_recipe_violation` |
| C73 | an evaluated version becomes a number; an undefined variable gets a dollar sign | `C73_a_version_becomes_a_number`, `C73_an_undefined_variable_gets_a_dollar_sign` |
| C74, C76 | brackets in comments; texts in lists; final line breaks | `C74_brackets_in_the_text_are_lost`, `C76_text_in_a_list_becomes_a_list`, `C76_final_line_break_is_lost` |
| C80 | a repeated obsolete field stays | `C80_duplicate_stays` |
| C81 | `home` overwrites `homepage`; a source of one key breaks the next one | `C81_homepage_lost`, `C81_source_skipped` |
| C82 | the selector of a key above a list stays, without a message; equal keys get each other's condition | `C82_list_selector_violation`, `C82_two_switches_violation` |
| C83 | a variable that names another one becomes a text | `C83_reference_violation` |
| C84 | `commands` overwrite `script`; all requirements of a test go with a lone `pip check`; `python >=3` in host and a command that is no list are not recognised; an empty section becomes a test called `test`; a list of tests with `python` ends the conversion | `C84_script_lost_violation`, `C84_requirements_lost_violation`, `C84_python_version_violation`, `C84_single_command_violation`, `C84_empty_test_violation`, `C84_list_of_tests_violation` |
| C85 | a number in `script_env` ends the conversion | `C85_number_crash`, `C85_single_number_crash` |
| C89 | comments of lines that stay are lost without a message | `C89_substitution_violation`, `C89_selector_violation` |
| C91 | of two method calls or `environ` look-ups on one line only one is converted, or the line is broken; quoted text is changed; a quoted text with `\n` on the first line stays on one line | `C91_two_calls_violation`, `C91_two_environs_violation`, `C91_quoted_text_violation`, `C91_first_line_violation` |
| C93 | `render_to_object` fails on top-level value lists, on inner lists of mappings and on inner mappings that begin with an empty key; it loses or changes other empty keys; replacing variables turns quoted versions into numbers and skips one-line lists | `C93_top_list_violation`, `C93_inner_mappings_violation`, `C93_inner_empty_violation`, `C93_top_empty_violation`, `C93_element_empty_violation`, `C93_only_comment_violation`, `C93_quoted_number_violation`, `C93_inline_list_violation` |
| C94 | `plot` ends with a traceback for a package without any arrow, and for every package before Python 3.12; a package with a capital letter cannot be asked for; `plot <graph> <direction> all`, as the help text writes it, looks for a package called all | `C94_lonely_package_violation`, `C94_python_3_11_violation`, `C94_capital_letter_violation`, `C94_all_with_direction_violation` |
| C98 | repositories of the same name in two organisations share one file; exclusions without organisation exclude nothing | `C98_same_name_violation`, `C98_exclude_directories_violation` |
| C99 | replacing a value takes the comment or selector behind it out of the file, while the recipe in memory still reports the selector; a later edit of the same key can bring it back | `C99_selector_lost_violation`, `C99_comment_returns_violation` |
| C100 | bumping `number: 5  # [win]` writes `number: 6`, the selector is gone; a bump lays the whole file out anew: blank lines, quotes and comment margins of unrelated lines change | `C100_selector_lost_violation`, `C100_layout_violation` |
| C47 | with several failing downloads, whether the run ends with the documented exit code or with an unhandled exception depends on which fails first | `C47_failure_violation` |
| C86 | a licence that is a number or a list ends the conversion with an unhandled exception | `C86_not_a_text_violation` |
| C101 | a selector added to a mapping in a list is never written; on a section with one item it is written behind the item, too; on the first line of a list element the file gives it to the element as well | `C101_element_selector_lost_violation`, `C101_single_item_violation`, `C101_first_line_violation` |
| C102 | replacing a dependency drops the comment behind it, in the AND and OR modes, too; the selector of a dependency lands on its new section (C37) | `C102_comment_lost_violation`, `C37_new_section_selector_violation` |
| C103 | a value written over a line that had a comment: the recipe in memory keeps a selector that is not in the saved file | `C103_replaced_line_violation` |
| C105 | an element of a list with several keys is given to YAML as a text that is no mapping (the project's tests have this case commented out), one with a single key is read as a list | `C105_element_violation`, `C105_single_key_element_violation` |
| C105 | a value is found as if it were a key; a quoted number is read as a number | `C105_value_as_key_violation`, `C105_quoted_number_violation` |
| C31 | a list that is not indented below its key (as many recipes write it) becomes entries next to the key; remarks to Jinja and statements other than definitions are not written back | `C31_unindented_list_violation`, `C31_remark_is_lost_violation` |
| C106 | a selector in a line that holds nothing but a comment is reported by `get_selector_paths` at a path that ends in the printed form of an internal marker and leads nowhere | `C106_comment_line_violation` |
| C107 | `search` takes the name of a key without a value for its value, and with `include_comment` misses the comment behind the marker of a block text; an empty file has one value, at the empty path | `C107_search_violation`, `C107_empty_file_violation` |
| C108 | a list that is not indented below its key is not converted | `C108_unindented_list_violation` |
| C110 | bumping a new-format file whose version is a context variable keeps the version and the URL but writes the hash of the new version's archive | `C110_new_format_violation` |
| C73 | of a sum only the first two operands count; braces in the value of a variable are evaluated again or reach YAML | `C73_third_operand_violation`, `C73_braces_violation` |
| C90 | a file that holds definitions but no entries becomes an empty text; the definitions are lost (each failed edit is reported) | `C90_no_entries_violation` |
| C73 | a sum within a call takes the place of the whole call; of the filters `lower` and `upper` on one name `upper` is applied last, wherever it stands | `C73_sum_in_a_call_violation` |
| C113 | a patch behind the end of a list ends the command with an uncaught IndexError; the patches in front of it are lost | `C113_past_the_end_violation` |
| C114 | removing a dependency that was added to a new section leaves the empty section; add at the number of a list element with keys and remove lose the element; add_selector (REPLACE) and remove_selector lose the comment | `C114_empty_section_violation`, `C114_overwritten_violation`, `C114_comment_lost_violation` |
| C115 | two new keys of one section, and two new variables, stand in the order of the calls; items of one list move when another one is removed; nothing can be added to a recipe that was emptied | `C115_new_keys_violation`, `C115_new_variables_violation`, `C115_same_list_violation`, `C115_emptied_violation` |
| C116 | a selector added twice in AND mode is written twice; a comment with a bracketed word added twice gets a selector; removing a duplicate key twice removes both lines | `C116_add_selector_violation`, `C116_add_comment_violation`, `C116_remove_key_violation` |
| C117 | a list item that was replaced by a mapping and then by a text is written one level too deep | `C117_item_violation` |
| C118 | after a mapping in a list was replaced by a text, the next entry can be removed in memory but not after saving and opening | `C118_list_entry_violation` |
| C120 | when a patch raises, patches of earlier files are kept but those before it in the same file are lost; after a mapping in a list was replaced by a text, removing the next entry works in the same run but not in the next | `C120_exception_violation`, `C120_list_entry_violation` |
| C12 | a mapping in a list that is replaced by a text is read as a list with the text and written one level too deep | `C12_mapping_in_list_violation` |

## Trusted base

* Lean's kernel (4.33.0). No axiom of our own, no `sorry`, no `native_decide` or `bv_decide`. Every theorem depends on a
  subset of `propext`, `Classical.choice` and `Quot.sound`; `vcheck` and `#print axioms` show this. Finite tables and
  concrete witnesses are evaluated with `decide +kernel`, that is, by the kernel.
* The transcription of the Python code in `Verif/Model`, function by function as cited there. The code was read, not run.
* What Python, PyYAML, Jinja, `re`, `difflib`, `ast` and conda do where the model states it (as opposed to taking it as a
  parameter): string methods, dictionary order, `list.sort` being stable, `str()`/`repr()` of values, `json.dumps` of texts.

## What is modelled

| file in `/repo/conda_recipe_manager` | model |
|---|---|
| `types.py` (incl. `MessageTable`), `parser/_types.py`, `parser/types.py`, `parser/enums.py` | `Value`, `Messages`, `Regex`, tables where they are used |
| `parser/_utils.py`, `parser/_is_modifiable.py` | `Parser`, `Utils`, `Reader` |
| `parser/_node.py`, `parser/_traverse.py` | `Node`, `Traverse` |
| `parser/_selector_info.py`, `parser/selector_query.py`, `parser/selector_parser.py`, `parser/platform_types.py` | `Selector`, `Reader` |
| `parser/recipe_reader.py` | `Parser`, `Reader`, `Object` (`render_to_object`), `Debug` (`str(recipe)`) |
| `parser/recipe_parser.py` | `Reader` (patches, selectors, comments), `Sort` |
| `parser/recipe_reader_deps.py`, `parser/recipe_parser_deps.py`, `parser/dependency.py` | `Deps` |
| `parser/recipe_parser_convert.py` | `Convert` |
| `parser/cbc_parser.py` | `Cbc` |
| `fetcher/*.py` | `Fetch` (network, git and file system are parameters) |
| `grapher/recipe_graph.py`, `recipe_graph_from_disk.py` | `Graph`, `GraphShell` (a drawing is its set of arrows; not the layout and the window) |
| `commands/graph.py` | `GraphShell` (the answers and how the command ends; not the wording of the messages) |
| `licenses/spdx_utils.py` | `Spdx` |
| `scanner/dependency/*.py` | `Scanner` (reading the AST is a parameter: the list of its nodes) |
| `commands/bump_recipe.py` | `Bump` |
| `commands/convert.py`, `commands/utils/print.py` | `Commands`, `ConvertMain` (without `--debug`; the JSON report of a bulk run is a parameter) |
| `commands/patch.py`, `commands/rattler_bulk_build.py` | `Commands` |
| `scripts/parse_ci_output.py` | `CiLog` |
| `scripts/randomly_select_recipes.py` | `RandomSelect` (GitHub, the sample and the order of the downloads are parameters) |
| `utils/typing.py` | `Utils` |

## What is not modelled

* Running the command line (`click` option parsing, help texts), logging set-up, colours, timing of processes.
* The YAML, Jinja and JSON libraries themselves, `conda`'s `MatchSpec`, `networkx` drawing, `git`, HTTP.
* Non-ASCII case conversion and digit tests.
* Floating-point rounding, except where a theorem says so (C50, C52, C59).
* Concurrency other than the order in which hash downloads (C47) and recipe downloads (C98) finish.
* YAML dates, sets and bytes as values (`PyVal` has none), and so the failures of `json.dumps` on them.
* `commands/conda_recipe_manager.py` (the entry point), `utils/cryptography/hashing.py` (hashing is a parameter).
