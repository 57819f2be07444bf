#!/usr/bin/env python3
"""Writes /verif/properties.jsonl from the table below (keeps the JSON escaping honest)."""
import json, pathlib

P = "conda_recipe_manager/parser/"
ROWS = []

def prop(id, title, statement, quantifier, why, *anchors):
    ROWS.append(dict(id=id, title=title, statement=statement, quantifier=quantifier, why_tests_cant=why, anchors=list(anchors)))

# ---------------------------------------------------------------- paths and traversal
prop("C01", "Recipe path strings survive the round trip through the internal stack form",
     "Splitting an absolute recipe path such as /a/b/0 into components and rendering it back gives the same path, and a single trailing slash never changes which place a path names.",
     "every non-empty list of non-empty components that contain no slash, of any length",
     "path components are arbitrary strings and paths have unbounded depth",
     P + "_utils.py::str_to_stack_path", P + "_utils.py::stack_path_to_str")
prop("C02", "append_to_path joins a base path and an extension with exactly one slash at the seam",
     "append_to_path(base, ext) names the place reached by walking base and then ext, whether or not base ends with a slash and whether or not ext starts with one.",
     "every base and extension string",
     "both strings are arbitrary",
     P + "recipe_reader.py::RecipeReader.append_to_path")
prop("C03", "Full-line comments never shift list indices",
     "The index i in a recipe path names the i-th list element that is not a comment line. Adding or removing comment lines anywhere in the recipe never changes what a path resolves to.",
     "every recipe tree, every path, every set of comment lines inserted anywhere",
     "the number and position of comments and the shape of the tree are unbounded",
     P + "_traverse.py::remap_child_indices_virt_to_phys", P + "_traverse.py::remap_child_indices_phys_to_virt", P + "_traverse.py::traverse")
prop("C04", "contains_value and get_value agree",
     "get_value(path) raises KeyError exactly when contains_value(path) is False; get_value(path, default=d) returns d exactly in that case and never otherwise substitutes the default.",
     "every recipe, every path, every default",
     "holds for all trees and paths",
     P + "recipe_reader.py::RecipeReader.contains_value", P + "recipe_reader.py::RecipeReader.get_value")
prop("C05", "Every path listed by list_value_paths can be used to look the value up",
     "For a recipe whose sibling keys are distinct, non-numeric and slash-free, every path returned by list_value_paths satisfies contains_value, and paths are listed in document order, one per value.",
     "every such recipe tree",
     "trees have unbounded size and nesting",
     P + "recipe_reader.py::RecipeReader.list_value_paths", P + "_traverse.py::traverse_all")
prop("C06", "find_value returns exactly the places that hold the value",
     "find_value(v) returns, in document order, one path for each value in the recipe with the same Python type and equal to v, and nothing else; it raises ValueError for collections.",
     "every recipe, every value",
     "all trees, all values",
     P + "recipe_reader.py::RecipeReader.find_value")

# ---------------------------------------------------------------- JSON patch
prop("C07", "A JSON-patch test operation never changes the recipe",
     "patch({op: test}) leaves the tree, the variables, the selectors and is_modified() untouched and returns whether the value at the path equals the given value; missing paths give False, not an exception.",
     "every recipe and every test payload",
     "all recipes and payloads",
     P + "recipe_parser.py::RecipeParser._patch_test", P + "recipe_parser.py::RecipeParser.patch")
prop("C08", "A rejected patch leaves the recipe unchanged",
     "Whenever patch() returns False or raises, the recipe is exactly what it was before the call.",
     "every recipe, every well-formed or malformed patch payload",
     "all trees, paths and payloads, including failure in the middle of a compound operation",
     P + "recipe_parser.py::RecipeParser.patch", P + "recipe_parser.py::RecipeParser._patch_move")
prop("C09", "patch remove deletes exactly the addressed element",
     "A successful remove deletes the addressed node and its subtree, keeps every other node (with its comments) in order, and leaves the recipe's other places alone.",
     "every recipe tree, every path",
     "the code deletes by structural equality, so the claim depends on all possible duplicates",
     P + "recipe_parser.py::RecipeParser._patch_remove")
prop("C10", "patch add of a new key appends it and disturbs nothing else",
     "A successful add whose path does not exist yet creates exactly that key as the last child of its parent; all existing siblings stay in order.",
     "every recipe tree, path and value",
     "all trees and paths",
     P + "recipe_parser.py::RecipeParser._patch_add", P + "recipe_parser.py::RecipeParser._patch_add_find_target")
prop("C11", "patch add on a list inserts before the index, and /- appends",
     "For a list of scalars, add at /list/i inserts the new element in front of the i-th element and shifts the rest; add at /list/- appends. Existing elements and comments are preserved in order.",
     "every list of any length with any comments, every index",
     "list length and comment positions are unbounded",
     P + "recipe_parser.py::RecipeParser._patch_add")
prop("C12", "patch replace changes exactly the addressed value",
     "A successful replace substitutes the content at the path, keeps the key and every other element, and never changes the number of list elements when the new value is a scalar.",
     "every recipe tree, path and value",
     "all trees and paths",
     P + "recipe_parser.py::RecipeParser._patch_replace")
prop("C13", "patch move is remove followed by add, and moving a place onto itself does nothing",
     "move(from, path) has the effect of removing from and adding its old value at path; if from equals path the recipe is unchanged; if from does not exist it returns False.",
     "every recipe, every pair of paths",
     "all trees and pairs of paths",
     P + "recipe_parser.py::RecipeParser._patch_move")
prop("C14", "patch copy keeps the source",
     "copy(from, path) has exactly the effect of adding the value found at from to path, and the source value is still there afterwards unless path addresses it.",
     "every recipe, every pair of paths",
     "all trees and pairs of paths",
     P + "recipe_parser.py::RecipeParser._patch_copy")
prop("C15", "Malformed patch payloads are rejected before anything happens",
     "patch raises JsonPatchValidationException exactly for payloads that are not RFC-6902 shaped (unknown op, missing or empty path, missing value or from, unknown fields), and such a call has no effect.",
     "every JSON object offered as a patch",
     "all JSON objects",
     P + "types.py::JSON_PATCH_SCHEMA", P + "recipe_parser.py::RecipeParser.patch")
prop("C16", "is_modified is True exactly when some mutating call succeeded",
     "is_modified() starts False, becomes True with the first successful non-test patch, selector, comment or variable edit, and never goes back to False; it stays False when only rejected calls, test patches and reads happened.",
     "every sequence of API calls of any length",
     "histories are unbounded",
     P + "_is_modifiable.py::IsModifiable", P + "recipe_parser.py::RecipeParser")
prop("C17", "Editing one place never changes another",
     "After a successful patch at one path, every path that does not pass through the edited place (and, for list edits, is not a later element of the same list) resolves to the same subtree as before.",
     "every recipe, every edit path, every other path",
     "all trees and pairs of paths",
     P + "recipe_parser.py::RecipeParser.patch", P + "_traverse.py::traverse")
prop("C18", "search_and_patch applies the patch to every matching value",
     "search_and_patch edits exactly the places that search(regex) reports before the call, and reports True exactly when each of those edits succeeded.",
     "every recipe, regular expression and patch",
     "all recipes and match sets",
     P + "recipe_parser.py::RecipeParser.search_and_patch", P + "recipe_reader.py::RecipeReader.search")

# ---------------------------------------------------------------- selectors and comments
prop("C19", "The selector index always agrees with the comments in the tree",
     "At any time list_selectors / contains_selector / get_selector_paths describe exactly the selectors that appear in the comments of the current tree.",
     "every history of patches, selector edits and comment edits",
     "histories are unbounded",
     P + "recipe_reader.py::RecipeReader._rebuild_selectors", P + "recipe_parser.py::RecipeParser.add_comment")
prop("C20", "add_selector in REPLACE mode makes the selector readable at the path",
     "After add_selector(path, '[x]') succeeds in REPLACE mode, get_selector_at_path(path) returns '[x]' and the human comment on that line is preserved.",
     "every recipe, path and selector",
     "all trees, comments and selectors",
     P + "recipe_parser.py::RecipeParser.add_selector", P + "recipe_reader.py::RecipeReader.get_selector_at_path")
prop("C21", "AND/OR mode of add_selector computes the conjunction/disjunction",
     "After add_selector(path, new, AND) the selector on the line selects exactly the platforms selected by both the old and the new selector; with OR, those selected by either.",
     "every pair of selectors",
     "all selector expressions",
     P + "recipe_parser.py::RecipeParser.add_selector", P + "selector_parser.py::SelectorParser")
prop("C22", "remove_selector removes the selector and only the selector",
     "remove_selector(path) returns the selector that was on the line (None if there was none), afterwards the line has no selector, and the rest of the comment text is kept.",
     "every recipe, path and comment text",
     "all comments",
     P + "recipe_parser.py::RecipeParser.remove_selector")
prop("C23", "add_comment keeps an existing selector",
     "After add_comment(path, text) the line shows text, and get_selector_at_path(path) answers as before.",
     "every recipe, path and comment text",
     "all comments",
     P + "recipe_parser.py::RecipeParser.add_comment")
prop("C24", "Selector queries have no side effects",
     "list_selectors, contains_selector, get_selector_paths, get_selector_at_path can be called any number of times in any order and keep giving the same answers while the recipe is not edited.",
     "every recipe and every sequence of queries",
     "histories are unbounded",
     P + "recipe_reader.py::RecipeReader.get_selector_paths", P + "_utils.py::stack_path_to_str")
prop("C25", "A selector is evaluated as the Boolean expression it denotes",
     "SelectorParser.get_selected_platforms gives the set of platforms for which the selector expression is true, with not binding tighter than and, and and tighter than or, as conda-build evaluates it.",
     "every selector expression over known platforms, operating systems and architectures",
     "expressions have unbounded size",
     P + "selector_parser.py::SelectorParser._parse_selector_tree", P + "selector_parser.py::SelectorParser.get_selected_platforms")
prop("C26", "SelectorParser is total and insensitive to case and spacing",
     "Any text can be parsed as a selector without an exception; letter case of known words and the amount of white space never change the selected platforms; unknown words select nothing.",
     "every string",
     "all strings",
     P + "selector_parser.py::SelectorParser")
prop("C27", "Equal selectors select the same platforms, and render keeps the selector",
     "If two SelectorParser objects compare equal they select the same platforms; parsing the rendering of a selector gives an equal selector.",
     "every pair of selector strings",
     "all strings",
     P + "selector_parser.py::SelectorParser.__eq__", P + "selector_parser.py::SelectorParser.render")
prop("C28", "The platform tables are consistent",
     "Every platform belongs to exactly one of linux, osx and win; unix is linux plus osx; each architecture selects a non-empty subset of the platforms; lookup by enumeration and by (spaced, upper-case) name agree, and unknown names give the empty set.",
     "every platform, operating system and architecture name",
     "names are arbitrary strings",
     P + "platform_types.py::get_platforms_by_arch", P + "platform_types.py::get_platforms_by_os")

# ---------------------------------------------------------------- variables
prop("C29", "Recipe variables behave like an ordered dictionary",
     "get_variable returns the last value set for the name, set_variable on an existing name keeps its position, new names go last, del_variable removes exactly that name, list_variables is duplicate free; get_variable on a missing name raises KeyError unless a default is given.",
     "every sequence of variable operations",
     "histories are unbounded",
     P + "recipe_parser.py::RecipeParser.set_variable", P + "recipe_parser.py::RecipeParser.del_variable", P + "recipe_reader.py::RecipeReader.get_variable")
prop("C30", "Variable edits show up in the rendered recipe",
     "After set_variable(name, value) the rendered file defines name as value, and after del_variable it does not define name.",
     "every recipe of either schema and every sequence of variable edits",
     "all recipes and histories",
     P + "recipe_reader.py::RecipeReader.render", P + "recipe_parser.py::RecipeParser.set_variable")

# ---------------------------------------------------------------- render and parse
prop("C31", "Parsing a rendered recipe gives the recipe back",
     "For every well formed recipe tree, rendering it to text and parsing that text reproduces the same tree, including comments, list markers and multi-line strings.",
     "every well formed tree of any depth and width",
     "the indentation parser works with an unbounded stack",
     P + "recipe_reader.py::RecipeReader.__init__", P + "recipe_reader.py::RecipeReader._render_tree")
prop("C32", "Canonical key sorting is a stable, idempotent permutation",
     "Sorting a section keeps every entry exactly once, puts comments first, known keys in table order, unknown keys last in their old order, and sorting again changes nothing.",
     "every section with any keys",
     "sections have unbounded size",
     P + "recipe_parser.py::RecipeParser._sort_subtree_keys", P + "recipe_reader.py::RecipeReader._canonical_sort_keys_comparison")
prop("C33", "Recipe equality, rendering and hash agree",
     "Two recipes that compare equal have the same rendering, hence the same SHA-256; diff() is empty for an unmodified recipe.",
     "every pair of recipes",
     "all recipes",
     P + "recipe_reader.py::RecipeReader.__eq__", P + "recipe_reader.py::RecipeReader.calc_sha256", P + "recipe_parser.py::RecipeParser.diff")

# ---------------------------------------------------------------- dependencies
prop("C34", "Dependency section names convert both ways",
     "For both schemas, the string of a section converts back to that section; unknown strings give None.",
     "every section, schema and string",
     "strings are arbitrary",
     P + "dependency.py::dependency_section_to_str", P + "dependency.py::str_to_dependency_section")
prop("C35", "get_package_names_to_path is an injective map over all packages",
     "It has one entry per package path; it raises ValueError exactly when two packages share a name and KeyError when some package has no name.",
     "every recipe with any number of outputs",
     "number of outputs is unbounded",
     P + "recipe_reader_deps.py::RecipeReaderDeps.get_package_names_to_path")
prop("C36", "get_all_dependencies lists every dependency exactly once, plus inherited top-level ones",
     "For each package the result lists, in order, each non-blank entry of each known requirements section with its own path and section; every other output additionally inherits the top-level package's entries, re-labelled as required by that output.",
     "every recipe with any number of outputs and dependencies",
     "unbounded number of outputs, sections and entries",
     P + "recipe_reader_deps.py::RecipeReaderDeps.get_all_dependencies", P + "recipe_reader_deps.py::RecipeReaderDeps._add_top_level_dependencies")
prop("C37", "add_dependency honours its conflict mode",
     "IGNORE never changes a recipe that already lists the package in that section; REPLACE replaces the first entry with the same name and otherwise appends; USE_BOTH always appends; EXACT_POSITION replaces exactly the given index; invalid paths change nothing and return False.",
     "every recipe, dependency and mode",
     "lists have unbounded length",
     P + "recipe_parser_deps.py::RecipeParserDeps.add_dependency")

# ---------------------------------------------------------------- CBC
prop("C38", "conda-build-config variables resolve to the first applicable value",
     "get_cbc_variable_value returns the first value, in file order, that has no selector or whose selector applies to the query; KeyError/default exactly when the variable is unknown; ValueError/default when no value applies.",
     "every build-config file, variable and query",
     "number of values and selectors is unbounded",
     P + "cbc_parser.py::CbcParser.get_cbc_variable_value", P + "cbc_parser.py::CbcParser.__init__")

# ---------------------------------------------------------------- graph
prop("C39", "The dependency graphs contain exactly the declared dependencies",
     "For every successfully read recipe with a new set of package names, the build graph has an edge p -> d exactly for each build or host dependency d of package p and the test graph for each run or test one; packages are the only nodes besides dependency names.",
     "every collection of recipes",
     "collections are unbounded",
     "conda_recipe_manager/grapher/recipe_graph.py::RecipeGraph.__init__")
prop("C40", "Package statistics account for every recipe",
     "total_packages is the number of packages that were added, recipes_failed_to_parse the number of recipes that could not be read, duplicates are recorded per package name and never overwrite the first recipe.",
     "every collection of recipes",
     "collections are unbounded",
     "conda_recipe_manager/grapher/recipe_graph.py::RecipeGraph", "conda_recipe_manager/grapher/types.py::PackageStats", "conda_recipe_manager/grapher/recipe_graph_from_disk.py::RecipeGraphFromDisk")

# ---------------------------------------------------------------- fetchers
prop("C41", "Fetcher accessors are guarded by a successful fetch",
     "Before the first successful fetch every accessor raises FetchRequiredError; afterwards none does; a failed fetch never unlocks them.",
     "every sequence of fetches (failing or not) and accesses",
     "histories are unbounded",
     "conda_recipe_manager/fetcher/base_artifact_fetcher.py::BaseArtifactFetcher._fetch_guard", "conda_recipe_manager/fetcher/http_artifact_fetcher.py::HttpArtifactFetcher", "conda_recipe_manager/fetcher/git_artifact_fetcher.py::GitArtifactFetcher")
prop("C42", "A git fetch checks out the requested revision",
     "fetch() leaves the source directory at the tag when one is given, else at the revision, else at the branch, else at the default branch of the repository, for remote and for local repositories.",
     "every combination of branch, tag and revision and every repository",
     "all combinations and repositories",
     "conda_recipe_manager/fetcher/git_artifact_fetcher.py::GitArtifactFetcher._resolve_checkout_target", "conda_recipe_manager/fetcher/git_artifact_fetcher.py::GitArtifactFetcher.fetch")
prop("C43", "from_recipe builds one fetcher per supported source",
     "from_recipe returns one fetcher for every source entry with a url or git_url (git key by schema), keyed by that entry's path; unsupported entries raise, or are skipped when errors are ignored.",
     "every recipe with any number of sources",
     "number of sources is unbounded",
     "conda_recipe_manager/fetcher/artifact_fetcher.py::from_recipe")

# ---------------------------------------------------------------- commands
prop("C44", "Hash fetching retries a bounded number of times with growing delays",
     "The HTTP fetch is attempted at most five times, stops at the first success and returns its hash, waits k times the interval after the k-th failure, and raises after the fifth.",
     "every interval and every pattern of fetch failures",
     "failure schedules are arbitrary",
     "conda_recipe_manager/commands/bump_recipe.py::_get_sha256")
prop("C45", "bump-recipe writes the recipe file at most once and only on success",
     "The recipe file is written exactly once when the command exits with SUCCESS and not in dry-run mode; on every error exit and in dry-run mode the file is untouched.",
     "every recipe, option combination, network behaviour and failing step",
     "every crash point and combination of failures",
     "conda_recipe_manager/commands/bump_recipe.py::bump_recipe")
prop("C46", "bump-recipe sets the build number as asked",
     "After success /build/number is 0 when the version was bumped, and the old number plus one (0 if there was none) when only --build-num was given; a recipe without a build section or with a build number that is not whole is refused and left alone.",
     "every recipe and option",
     "all recipes and integers",
     "conda_recipe_manager/commands/bump_recipe.py::_update_build_num")
prop("C47", "The order in which hash downloads finish does not matter",
     "Updating the source hashes gives the same recipe for every completion order of the parallel downloads.",
     "every schedule of the thread pool",
     "the schedules are not enumerable by tests",
     "conda_recipe_manager/commands/bump_recipe.py::_update_sha256")
prop("C48", "bump-recipe --target-version changes the version in the written file",
     "After success the written recipe's version is the requested one.",
     "every recipe of either schema and every version string",
     "all recipes and version strings",
     "conda_recipe_manager/commands/bump_recipe.py::_update_version")
prop("C49", "The patch command reports success exactly when every patch was applied",
     "Exit code 0 means every patch in the file was applied in order; the file then holds the rendering of the fully patched recipe; otherwise the exit code is nonzero.",
     "every recipe and patch file",
     "patch files have unbounded length",
     "conda_recipe_manager/commands/patch.py::patch")
prop("C50", "Bulk conversion statistics add up",
     "A conversion that runs to its end is classified by its messages (errors, else warnings, else success), one that does not by the step that failed. A bulk conversion has one result per recipe; the lists of recipes with exceptions, errors and warnings, the totals and the histograms count exactly the messages of the results; the expected number of successes (all recipes but those with exceptions or errors) equals the counted one; the exit code is 0 exactly when the success rate meets the threshold.",
     "every directory of recipes and every outcome per recipe",
     "directories are unbounded",
     "conda_recipe_manager/commands/convert.py::convert", "conda_recipe_manager/commands/convert.py::_collect_issue_stats")
prop("C51", "Converting a recipe never changes the recipe object it was called on",
     "render_to_v1_recipe_format leaves render(), variables and selectors of the original recipe as they were.",
     "every recipe",
     "all recipes",
     P + "recipe_parser_convert.py::RecipeParserConvert.render_to_v1_recipe_format")
prop("C52", "Bulk build accounting is exact and debug output is complete",
     "The rattler bulk build counts every recipe once, total = success + failure, the histogram counts every error message, the debug file has one entry per error message with exactly the recipes that show it, and lists every failing recipe; the exit code is 0 exactly when the success rate meets the threshold.",
     "every set of recipes and every build outcome and completion order",
     "sets and schedules are unbounded",
     "conda_recipe_manager/commands/rattler_bulk_build.py")

# ---------------------------------------------------------------- libraries
prop("C53", "SPDX matching returns a known licence or nothing",
     "A licence that is exactly an SPDX identifier is returned unchanged; every answer is an SPDX identifier or what one of the known mistakes stands for; texts that look like a combination of licences give None; otherwise the answer is the identifier of the licence whose name or identifier is the closest match.",
     "every licence string and licence database",
     "all strings",
     "conda_recipe_manager/licenses/spdx_utils.py::SpdxUtils.find_closest_license_match")
prop("C54", "The Python dependency scanner reports each import once and ignores file order",
     "The set of dependencies does not depend on the order the files are visited in; python is always reported, for host and run; a dependency needed at run time is not also reported as test-only.",
     "every project and every order of its files",
     "projects and orders are unbounded",
     "conda_recipe_manager/scanner/dependency/py_dep_scanner.py::PythonDependencyScanner.scan")
prop("C55", "pyproject dependencies are reported under the right section",
     "Each entry of project.dependencies is reported as a run dependency and each entry of project.optional-dependencies as a run constraint, and nothing else is reported; a missing or unreadable file, or one without a project table, gives no dependencies and a message.",
     "every pyproject file",
     "all files",
     "conda_recipe_manager/scanner/dependency/pyproject_dep_scanner.py::PyProjectDependencyScanner.scan")
prop("C56", "MessageTable counts what was added",
     "get_message_count(c) is the number of add_message(c, ..) calls since the last clear, get_messages(c) lists them in order, and categories do not interfere.",
     "every sequence of calls",
     "histories are unbounded",
     "conda_recipe_manager/types.py::MessageTable")
prop("C57", "dedupe_and_preserve_order keeps the first occurrence of each element",
     "The result has no duplicates, has the same elements as the input, and lists them in order of first occurrence.",
     "every list",
     "lists are unbounded",
     P + "_utils.py::dedupe_and_preserve_order")
prop("C58", "Jinja substitution markers are restored in order",
     "The parser hides each {{..}} expression of a line behind a marker and puts the i-th expression back at the i-th marker, so text that contains no marker of its own is unchanged by the round trip.",
     "every line and every list of expressions",
     "lines are arbitrary strings",
     P + "_utils.py::substitute_markers", P + "recipe_reader.py::RecipeReader._parse_yaml")
prop("C59", "CI log aggregation adds up",
     "Every JSON object of a log that names its command is read exactly once and goes to the results of its phase; every counter of the summary is the sum over the results, in any order of the files, and percentages are averaged; each test is listed once with the number of its results.",
     "every set of log files",
     "sets are unbounded",
     "scripts/parse_ci_output.py::aggregate_stats", "scripts/parse_ci_output.py::generate_summary", "scripts/parse_ci_output.py::read_logs")
prop("C60", "Deep merging never drops or overwrites user values unexpectedly",
     "set_key_conditionally stores the key exactly when the value is truthy; all other keys are unchanged.",
     "every dictionary, key and value",
     "all values",
     P + "_utils.py::set_key_conditionally")

prop("C61", "get_value of a key without a value is null",
     "For a key written without a value (`foo:`), get_value returns None.",
     "every recipe and every key without a value",
     "all trees and key names",
     P + "recipe_reader.py::RecipeReader.get_value")
prop("C62", "get_value of a list is a list",
     "For a key whose children are list elements, get_value returns a list, also when the list has one element.",
     "every recipe and every list of scalars",
     "all lists and element types",
     P + "recipe_reader.py::RecipeReader.get_value")
prop("C63", "Quoting special strings loses nothing",
     "A value that is quoted to protect YAML special characters decodes (as a JSON string) back to the original text, every value starting with such a character is quoted, and every other value is left as it is.",
     "every string",
     "all strings, including control and non-BMP characters",
     P + "_utils.py::quote_special_strings")
prop("C64", "search lists exactly the matching values",
     "search(re) returns, in document order, the path of each value whose text matches the expression and of no other; with include_comment the text is followed by the value's comment.",
     "every recipe, every regular expression",
     "all trees and all expressions",
     P + "recipe_reader.py::RecipeReader.search")
prop("C65", "Package paths and path joining",
     "append_to_path joins base and extension with exactly one slash whether or not they carry one; get_package_paths returns the root and one path per output.",
     "every path, every recipe",
     "all paths and any number of outputs",
     P + "recipe_reader.py::RecipeReader.append_to_path", P + "recipe_reader.py::RecipeReader.get_package_paths")
prop("C66", "A dependency's text survives reading",
     "Reading a dependency from its text and rendering it gives the text back; its name is conda's package name for the specification, or the whole text if it has Jinja in it or conda rejects it.",
     "every text and every behaviour of conda's MatchSpec",
     "all specifications",
     P + "dependency.py::dependency_data_from_str", P + "dependency.py::dependency_data_render_as_str")
prop("C67", "Dependency graphs do not depend on the order of the recipes",
     "The edges of the graphs and the package statistics are the same whatever the order in which the recipe files are found.",
     "every collection of recipes, every order of it",
     "collections and orders are unbounded",
     "conda_recipe_manager/grapher/recipe_graph.py::RecipeGraph.__init__", "conda_recipe_manager/grapher/recipe_graph_from_disk.py::RecipeGraphFromDisk")
prop("C68", "The digest reported is that of the archive that was fetched",
     "get_archive_sha256 and get_archive_type describe the archive received by the last successful fetch, whatever fetches fail after it.",
     "every sequence of fetches (failing or not) and accesses",
     "histories are unbounded",
     "conda_recipe_manager/fetcher/http_artifact_fetcher.py::HttpArtifactFetcher.get_archive_sha256", "conda_recipe_manager/fetcher/http_artifact_fetcher.py::HttpArtifactFetcher.fetch")
prop("C69", "Every source gets the hash of its own archive",
     "bump-recipe writes, below each source that has a URL, the sha256 of the archive downloaded for that very source, however many sources there are and in whatever order the downloads finish.",
     "every list of sources, every mapping from source to archive, every schedule",
     "sources and schedules are unbounded; a swap between two sources shows up only for some orders",
     "conda_recipe_manager/commands/bump_recipe.py::_update_sha256", "conda_recipe_manager/commands/bump_recipe.py::_update_sha256_check_hash_var")
prop("C70", "get_variable_references finds exactly the places that use a variable",
     "get_variable_references(v) is the list, without duplicates, of the paths whose value uses the variable v in a template expression.",
     "every recipe, every variable name",
     "recipes and names are unbounded",
     P + "recipe_reader.py::RecipeReader.get_variable_references")
prop("C71", "The hash-type clean-up removes the definitions and rewrites the keys, nothing else",
     "The pre-processing of the hash_type idiom removes the lines that define a hash type variable, turns the keys that are such a variable into sha256, leaves every other character alone, and does not depend on any iteration order.",
     "every recipe text, every iteration order of the set of definitions",
     "texts are unbounded and the order of a Python set changes between runs",
     "conda_recipe_manager/commands/bump_recipe.py::_pre_process_cleanup", P + "recipe_parser.py::RecipeParser.pre_process_remove_hash_type", P + "_types.py::Regex")
prop("C72", "convert --output writes each converted recipe once, next to its source in bulk mode", "Without --output no file is written. For a directory, the output of every conversion that runs to its end is written next to its recipe under the given base name, and nothing else is written. For a single file it is written to the given path.", "every directory of recipes, every converter outcome and every output name", "directories and outcomes are unbounded", "conda_recipe_manager/commands/convert.py::convert_file", "conda_recipe_manager/commands/convert.py::process_recipe", "conda_recipe_manager/commands/convert.py::convert")
prop("C73", "Reading a value with variable substitution evaluates its Jinja expressions", "get_value(path, sub_vars=True) of a text with {{ }} (V0) or ${{ }} (V1) expressions returns what YAML makes of the text in which every expression is replaced by its value: a variable of the recipe (with an optional index and lower/upper filter) by its text, a sum by the sum of two numbers or the quoted concatenation of two texts; an expression on an undefined variable is kept. Without sub_vars the text comes back as written.", "every recipe, path, text made of any number of plain pieces and expressions, every variable table and every YAML loader", "the replacement works by repeated search-and-replace over the whole text with one regular expression per feature; whether one expression's replacement disturbs another depends on all of the text and all of the variable values at once", P+"recipe_reader.py: RecipeReader.get_value, RecipeReader._render_jinja_vars, RecipeReader._set_key_and_matches, RecipeReader._eval_jinja_token, RecipeReader._parse_yaml", P+"_types.py: Regex")
prop("C74", "The comments table shows every comment, without its selector", "get_comments_table maps the path of each value or key that has a comment to that comment. A selector inside the comment is left out, the rest of the text is kept in order and starts with a number sign; a comment that is only a selector, and a line that is only a comment, is not listed. No path occurs twice.", "every recipe tree and every one-line comment text", "whether text is lost depends on where the brackets and number signs stand in the comment; a test fixes a handful of comments", P+"recipe_reader.py: RecipeReader.get_comments_table")
prop("C75", "Reading the selector of a line", "get_selector_at_path returns the selector of the line if contains_selector_at_path is True; otherwise it returns the default if the default is a selector, raises ValueError if the default is not, and KeyError without a default or if the path does not exist.", "every recipe, path, comment and default", "the answer depends on two different regular expression searches over arbitrary comments and defaults", P+"recipe_reader.py: RecipeReader.get_selector_at_path, RecipeReader.contains_selector_at_path")
prop("C76", "Texts of several lines, lists and mappings can be patched into a recipe and read back", "After patch({op: add or replace, path, value}) succeeds on an existing key, get_value(path) returns what the YAML library makes of the new content: for a text with line breaks, a block text (`|`) with exactly the same lines; for a list or mapping, the entries of its YAML text.", "every recipe, every path to a key, every text with a line break, every list or mapping whose YAML text is laid out in the usual way", "tests fix a few values; the claim ranges over all of them", P + "recipe_reader.py:_generate_subtree", P + "recipe_parser.py:patch")
prop("C77", "An opened recipe has the schema version and the variables its text says", "RecipeReader(content) is a V1 recipe exactly if get_value('/schema_version', 0) is the integer 1 (or True); the variables of a V1 recipe are the entries of /context, those of a V0 recipe the `{% set %}` lines it begins with; a recipe that was just opened counts as unmodified.", "every recipe text that can be opened", "tests use a handful of recipe files", P + "recipe_reader.py:__init__", P + "recipe_reader.py:_init_vars_tbl")
prop("C78", "A conversion reports every change it failed to make",
     "render_to_v1_recipe_format changes its copy only by patches, selector removals, key sorts and by setting the variables and schema; every patch that was refused appears among the returned errors, in the order of the attempts; no message given earlier is lost, even if the conversion raises. A conversion that returns without errors has made only changes that succeeded.",
     "every recipe, licence database and visiting order of sets", "a refused patch needs an unusual recipe; tests cannot list all of them",
     P + "recipe_parser_convert.py:render_to_v1_recipe_format", P + "recipe_parser_convert.py:_patch_and_log")
prop("C79", "A converted recipe is a V1 recipe with its variables in context",
     "After a conversion that returns, the text is the rendered copy, the copy has schema V1, so no {% set %} line is rendered, and its variables are exactly the entries of /context.",
     "every recipe that can be converted", "tests convert a fixed list of recipe files",
     P + "recipe_parser_convert.py:render_to_v1_recipe_format")
prop("C80", "Fields that V1 no longer has are removed and each is reported",
     "When a recipe is converted, each obsolete field of the build and about sections that is present is removed and reported by one warning that names its path; every other field of the section stays, in order, and nothing else in the recipe changes.",
     "every recipe and every section of it", "tests use a few recipes; a field that is obsolete may occur in any section, in any order and more than once",
     P + "recipe_parser_convert.py:_patch_deprecated_fields", P + "recipe_parser_convert.py:_upgrade_build_section", P + "recipe_parser_convert.py:_upgrade_about_section")
prop("C81", "Renamed and moved fields keep their values",
     "When a recipe is converted, every field that V1 renames or moves (misspelt keys, sources, build, requirements, about) is found under its new name with the value it had; fields that are not renamed keep their place in the documented order; no other section changes and only the documented messages are given.",
     "every package (top level or output) of every recipe", "the conversion has dozens of renames whose order matters; tests cover a few combinations",
     P + "recipe_parser_convert.py:_upgrade_source_section", P + "recipe_parser_convert.py:_upgrade_build_section", P + "recipe_parser_convert.py:_upgrade_requirements_section", P + "recipe_parser_convert.py:_upgrade_about_section", P + "recipe_parser_convert.py:_correct_common_misspellings")
prop("C84", "The test section becomes a list that holds the same tests",
     "When a recipe is converted, the test section becomes the list tests: files, requirements, commands, imports and downstreams get their V1 names, pip check becomes an explicit flag exactly for packages that need python in host, and every entry is in exactly one element of the list.",
     "every package of every recipe", "the fields of a test section can be combined freely",
     P + "recipe_parser_convert.py:_upgrade_test_section", P + "recipe_parser_convert.py:_upgrade_test_pip_check")
prop("C85", "Every entry of script_env is kept or reported",
     "When a recipe is converted, every entry of build/script_env becomes an environment variable of build/script, a secret of it, or an error message that quotes it; the old script becomes the content of the new one.",
     "every list of entries", "an entry is free text; tests use a few of them",
     P + "recipe_parser_convert.py:_upgrade_build_script_section")
prop("C86", "A licence is corrected only to one it stands for, and every correction is reported",
     "When a recipe is converted, a licence that is already written as in the SPDX list is left alone; any other is replaced by the identifier that the licence look-up gives for it, with a warning that quotes both; if there is none, or no licence is given, the field is left alone and a warning says so.",
     "every licence text, licence database and similarity measure", "licences are free text and the similarity measure is a library",
     P + "recipe_parser_convert.py:_fix_bad_licenses", "conda_recipe_manager/licenses/spdx_utils.py:find_closest_license_match")
prop("C88", "Selectors that name a Python version are rewritten to version matches, and nothing else in them changes", "When a recipe is converted, the text of every selector is read from left to right. A comparison of `py` with a version that starts with 2 or 3 (`py >= 36`) becomes `match(python, \">=3.6\")` with the same operator and digits; then a version name (`py36`) becomes `match(python, \"==3.6\")`; then `py2k` becomes `match(python, \">=2,<3\")` and `py3k` becomes `match(python, \">=3,<4\")`. All digits that follow belong to the version, and every other character is kept.", "every selector text", "Selectors are free text: any spacing, any operator, any number of versions, any surrounding expression. Tests convert a handful of selectors and say nothing about how matches interact (`<` and `<=`, a comparison that looks like a name, `not py27`).", P+"recipe_parser_convert.py: RecipeParserConvert._upgrade_selectors_to_conditionals", P+"_types.py: Regex.SELECTOR_PYTHON_VERSION_REPLACEMENT")
prop("C82", "Selectors become conditionals, and nothing else changes", "A conversion takes up the lines that carry selectors, selector by selector in the order in which they first appear. A list element becomes an `if`/`then` pair with the translated condition; a truth value is replaced by the condition (bare for `build/skip`, an expression elsewhere) and what else its comment said is kept; every other line with a selector is reported by a warning with its path; no other line of the recipe changes.", "all recipes with any number of selector lines", "the set of trees, selectors and positions is unbounded; tests look at a handful of recipes", P+"recipe_parser_convert.py::RecipeParserConvert._upgrade_selectors_to_conditionals", P+"recipe_parser.py::RecipeParser.remove_selector")
prop("C83", "Variables become the context section and substitutions get their dollar", "A conversion turns the variables of a V0 recipe into a `context` section: texts, numbers and truth values as they are, expressions as substitutions, anything else reported and left out; it adds the format version, and puts a `$` before each `{{` of every value that holds a substitution, whatever the order in which the values are visited. Nothing else in the tree changes.", "all recipes, variables and substitution sites", "unbounded values, expressions and trees; the order in which a set is visited is not fixed", P+"recipe_parser_convert.py::RecipeParserConvert._upgrade_jinja_to_context_obj")
prop("C89", "A conversion keeps or reports every comment", "Every comment at the end of a line of the original recipe (selectors left out) is either still on a line of the converted recipe, or a warning of the conversion names it.", "all recipes and all their comments", "the comment can stand on any line of any section, and each conversion step may drop it; tests look at single recipes", P+"recipe_parser_convert.py::RecipeParserConvert.render_to_v1_recipe_format", P+"recipe_reader.py::RecipeReader.get_comments_table")
prop("C90", "What a conversion makes of a whole recipe", "Converting a V0 recipe does the following and nothing else, in this order: selectors become conditions, variables become the entries of the key context and substitutions get a dollar sign, the sections of the top-level package and of every output are converted, the package section is called recipe if there are outputs, name and version of every output go below its key package, comments whose lines are gone are reported, and the top-level sections are put into order. The result is a recipe of schema version 1 whose variables are the entries of context; the messages are those of the steps, in order; the original recipe object is unchanged.", "all recipes, with any number of outputs and any sections in them", "the steps run one after the other on the same tree, over every output; whether one step disturbs what another has done depends on the whole recipe", P+"recipe_parser_convert.py::RecipeParserConvert.render_to_v1_recipe_format", P+"recipe_parser_convert.py::RecipeParserConvert._upgrade_multi_output", P+"recipe_reader.py::RecipeReader.get_package_paths")
prop("C87", "Exactly what pre-processing changes", "Pre-processing the text of a recipe makes the following changes, one after the other and each from left to right, and leaves every other character as it was: in a set statement and in a substitution the last dot before a call on the line becomes a vertical bar; lower() and upper() behind a bar lose their parentheses; a key with a quoted text that holds an escaped line break becomes a key with a block of two lines; min_pin= and max_pin= become lower_bound= and upper_bound=; for each use of environ with a key in brackets the first place of that text becomes a call of env.get; the definitions of a hash type variable are removed, and keys that are such a variable become sha256.", "all texts, whether or not they are recipes, and all orders in which the definitions of a hash type are looked for", "the changes are regular expressions with several greedy wildcards, whose matches depend on all that follows on the line; each change sees the result of the ones before it", P+"recipe_parser_convert.py::RecipeParserConvert.pre_process_recipe_text", P+"recipe_parser.py::RecipeParser.pre_process_remove_hash_type", P+"_types.py::Regex")
prop("C91", "Every method call becomes a filter", "After pre-processing, every call of a method in a template is written as a filter, every look-up in environ is a call of env.get, and texts in quotation marks are unchanged.", "all texts of recipes, any number of templates on a line", "tests have one call on a line; the expressions that find the calls are greedy, so a second call on the line changes what is found", P+"recipe_parser_convert.py::RecipeParserConvert.pre_process_recipe_text", P+"_types.py::Regex")
prop("C92", "get_dependency_paths lists one path per dependency line", "get_dependency_paths lists, first for the top level and then for each output in order, and for each of the sections build, host, run and run constraints (under the name the schema version gives it), one path per element of what get_value returns for the section, numbered from zero, and nothing else. It raises exactly if a section or the list of outputs cannot be read or has nothing to count.", "all recipes of both schema versions, with any number of outputs and dependencies", "the list depends on every section of every output; a wrong index or a forgotten section shows only for some recipes", P+"recipe_reader.py::RecipeReader.get_dependency_paths", P+"dependency.py::dependency_section_to_str")
prop("C93", "render_to_object gives the data of the recipe", "For every recipe, render_to_object() returns the mapping that the recipe's YAML text stands for: every key with its value in the order of the text, lists with their elements in order, keys without a value as None, block texts as YAML reads them; comments leave no trace. With replace_variables=True the only difference is that the variable references in the texts are replaced by their values.", "all recipe trees, schema versions, variable tables and YAML loaders", "the shapes of nested mappings, lists, empty keys and comments are unbounded; tests use a handful of recipe files", P + "recipe_reader.py: RecipeReader.render_to_object, RecipeReader._render_object_tree", P + "_utils.py: normalize_multiline_strings")
prop("C94", "The graph command draws exactly the packages that depend on each other", "In the graph command, plot <graph> depends <package> draws a tree with exactly the packages the package depends on, directly or through other recipes, each arrow a dependency that was read from a recipe; needed-by draws the packages that depend on it, and all draws every dependency. Every known package can be asked for, a line that is not understood or names an unknown package is answered with a message, and the command goes on until the user closes it.", "all sets of recipes, all graphs including cyclic ones, all packages, all sequences of input lines", "the set of packages drawn is a transitive closure over an unbounded, possibly cyclic graph; tests build small graphs and do not run the interactive command", "conda_recipe_manager/commands/graph.py::graph", "conda_recipe_manager/grapher/recipe_graph.py::RecipeGraph.plot")
prop("C95", "crm convert writes the converted recipe, reports every message and ends with the matching exit code", "For every recipe file, crm convert writes the text of the converted recipe to the file given with --output, or prints it when none is given, prints every warning and then every error of the conversion followed by their counts, and ends with the exit code that says whether there were none, only warnings or errors. What it wrote is read by the tool as a V1 recipe with the same variables. A file that cannot be read, pre-processed, parsed or converted, or that is already in the V1 format, leaves no output at all and a message that says which step failed, with its own exit code.", "all recipe texts, output paths, conversion outcomes and message lists", "the output depends on the whole conversion of an unbounded recipe; tests compare a handful of recipe files with stored results", "conda_recipe_manager/commands/convert.py::convert_file, convert, _collect_issue_stats, _get_files_list", "conda_recipe_manager/commands/utils/print.py::print_messages", "conda_recipe_manager/parser/recipe_parser_convert.py::RecipeParserConvert.render_to_v1_recipe_format")
prop("C96", "get_recipe_name gives the name under which the recipe is listed", "get_recipe_name returns, as a text with its variables replaced, the value at /recipe/name in V1 recipes with outputs and at /package/name in all others, and None when there is none; it is the name get_package_names_to_path lists for the recipe itself, and every output is listed under the value at its own name key (package/name in V1 recipes, name in V0 recipes).", "all recipes of both schemas, with and without outputs", "recipe trees, variables and numbers of outputs are unbounded; tests check a few stored recipes", "conda_recipe_manager/parser/recipe_reader.py::RecipeReader.get_recipe_name", "conda_recipe_manager/parser/recipe_reader_deps.py::RecipeReaderDeps.get_package_names_to_path")
prop("C97", "A conversion leaves alone what it does not know", "Converting a recipe to the V1 format leaves every section and field that is not one of the documented changes exactly as it was, with everything below it: get_value returns the same for it before and after. Below build, requirements and about only the listed fields change, in every output as well as at the top; package changes only in recipes with outputs, extra only where there is a misspelt extras; the rest of the text changes only at lines with a selector or a substitution.", "all V0 recipes, all sections, all paths below them and all numbers of outputs", "the sections a recipe may contain and their depth are unbounded; tests compare the conversion of a few stored recipes and cannot show that an unforeseen section survives", "conda_recipe_manager/parser/recipe_parser_convert.py::RecipeParserConvert.render_to_v1_recipe_format, _upgrade_build_section, _upgrade_requirements_section, _upgrade_about_section, _upgrade_multi_output, _correct_common_misspellings")
prop("C98", "Recipes fetched at random are the ones asked for", "The script that fetches recipes at random picks different entries of the given list, none of them named in the file with exclusions, as many as requested or all if there are fewer; it writes for each picked repository the recipe of its main branch (else of master) to that repository's own file, whatever the order in which the downloads finish, writes nothing else, and reports as fetched exactly the repositories for which there was a recipe.", "all lists of repositories, exclusion files, requested numbers, answers of the web, samples and schedules of the worker processes", "the schedules of a process pool, random samples and server answers are unbounded; there are no tests of this script", "scripts/randomly_select_recipes.py::fetch_repo, main")
prop("C99", "A saved edit changes only its own lines, and the file says what the recipe in memory says", "For a recipe in the usual layout and every sequence of JSON patches that replace, add or remove keys, list items, sections and list elements: the rendered text afterwards is the old text with just the edited entries changed, so other lines, comments and selectors stay as they are, on edited lines too; opening that text again gives the edited recipe, with the value and the selector at every path that the recipe in memory reported before saving.", "every document in the layout, every variable list, every finite sequence of patches on it", "tests compare the rendered text of single edits of fixed recipes; agreement of memory and file must hold after every history of edits", "conda_recipe_manager/parser/recipe_parser.py:_patch_replace,_patch_add,_patch_remove", "conda_recipe_manager/parser/recipe_reader.py:_render_tree,render,get_value")
prop("C100", "A bump changes the lines of the number, the version and the hashes, and no other line of the file", "After a successful `bump-recipe` the file (in a dry run, the text printed) is the text from before with the line of the build number, the line that gives the version (the variable if there is one, otherwise the key) and the line that gives each source hash set to the new values, or added when missing; every other line, and comments and selectors on those lines too, are as they were.", "every recipe file in the usual layout, every option, every network behaviour and order of downloads with which the run succeeds", "tests compare the output for a dozen fixture recipes; that nothing else in the file moves must hold for every recipe", "conda_recipe_manager/commands/bump_recipe.py:bump_recipe,_update_build_num,_update_version,_update_sha256", "conda_recipe_manager/parser/recipe_reader.py:render")
prop("C101", "Adding or removing a selector or a comment changes one line of the file, and the file read again says the same", "`add_selector`, `remove_selector` and `add_comment` change, in the text that `render` gives, the comment behind the line the path leads to (set, joined to or taken from what was there) and nothing else; opening that text gives a recipe that answers every question about values, selectors, comments, variables and dependencies as the edited one does.", "every recipe file in the usual layout, every path to a line in it, every selector, mode and comment", "tests check a handful of paths of sample recipes in memory; the claim is about the text of every file and what reading it again gives", "conda_recipe_manager/parser/recipe_parser.py:add_selector, remove_selector, add_comment", "conda_recipe_manager/parser/recipe_reader.py:render, _render_tree, _parse_line_node")
prop("C102", "Adding or removing a dependency adds, changes or removes one line of the file, and the file read again says the same", "`add_dependency` changes one line in the text that `render` gives: a new line at the end of the section for a package that is not there, with the selector of the dependency behind it, or the text of the line that is there, with what stands behind it kept or joined as the mode says; a missing section is added at the end of the requirements. `remove_dependency` takes out one line. All other lines, comments and selectors stay, and opening that text gives the same dependencies, values and selectors as the edited recipe.", "every recipe file in the usual layout, every dependency, position, section and mode", "tests compare a few edits of sample recipes; the claim is about the text of every file and what reading it again gives", "conda_recipe_manager/parser/recipe_parser_deps.py:add_dependency, remove_dependency", "conda_recipe_manager/parser/recipe_reader.py:render", "conda_recipe_manager/parser/recipe_reader_deps.py:get_all_dependencies")
prop("C103", "After any session of edits the saved file and the recipe in memory say the same", "Whatever sequence of patches, variable edits, selector edits, comment edits and dependency edits is made on an opened recipe, the text that `render` gives at the end is the file with each of these edits made in it one after the other, and opening that text gives a recipe that answers every question about values, selectors, comments, variables and dependencies as the recipe in memory does.", "every recipe file in the usual layout and every history of calls, of any length and in any order", "tests run one or two edits on sample recipes and compare with a stored file; drift between memory and file builds up over long histories", "conda_recipe_manager/parser/recipe_parser.py:patch, search_and_patch, set_variable, del_variable, add_selector, remove_selector, add_comment", "conda_recipe_manager/parser/recipe_parser_deps.py:add_dependency, remove_dependency", "conda_recipe_manager/parser/recipe_reader.py:render, __init__")
prop("C104", "The dependencies reported for a file are the lines of its requirements", "For a recipe opened from a file, get_all_dependencies reports for every package exactly the lines of the known sections under that package's requirements, in the order of the file: none is lost, doubled or moved. Each is reported with the section it stands in, the path that leads to its line, its text after the variables have been replaced, and the selector written in the comment behind it. Comment lines between the entries do not disturb the numbering. The packages below the top level are reported with the lines of the top-level requirements after their own.", "every file, every set of variables, any number of packages, sections, lines and comments", "Tests check a few recipe files; that numbering, comments, selectors, variables and inherited lines come out right must hold for every arrangement of lines.", "conda_recipe_manager/parser/recipe_reader_deps.py: get_all_dependencies, get_package_names_to_path, _fetch_optional_selector, _sanitize_dep", "conda_recipe_manager/parser/recipe_reader.py: get_value, get_selector_at_path, __init__")
prop("C105", "get_value gives what the file says", "For a recipe opened from a file, get_value at the path of an entry gives what is written there: the value of a line, the text of a block text, the data of a section, the mapping of a list element, with the variables replaced when sub_vars is set, and contains_value is True. The position of comment lines does not matter. Where the file has no entry, contains_value is False, get_value gives the default, and without a default it raises a KeyError.", "every file, every path, every default, with and without sub_vars", "Tests look up some paths in a few files; the claim is about every file and every path.", "conda_recipe_manager/parser/recipe_reader.py: get_value, contains_value, __init__, _parse_yaml, _render_tree", "conda_recipe_manager/parser/_traverse.py: traverse")
prop("C106", "The selectors and comments reported for a file are those of its lines",
     "For a recipe opened from a file, and after any edits, list_selectors lists every selector written in a comment of the file, once, in the order of the file; contains_selector says whether a selector occurs; get_selector_paths lists the paths of exactly the lines that carry the selector, each once, in the order of the file, and every path it lists leads to such a line; contains_selector_at_path and get_selector_at_path answer by the comment of the line at the path; get_comments_table shows for the path of every commented line the comment without its selector, and nothing else. Comment lines do not disturb the numbering of list entries.",
     "every file, every selector, every path, every sequence of edits",
     "Tests check a few files; that every line is found at its own path and nothing else is reported must hold for every arrangement of lines and comments.",
     "conda_recipe_manager/parser/recipe_reader.py: list_selectors, contains_selector, get_selector_paths, contains_selector_at_path, get_selector_at_path, get_comments_table, _rebuild_selectors",
     "conda_recipe_manager/parser/_traverse.py: traverse_all, remap_child_indices_phys_to_virt")
prop("C107", "The values found in a file are those written in its lines",
     "For a recipe opened from a file, and after any edits, list_value_paths lists the path of every value in the file, in the order of the file, and nothing else; find_value lists the paths of exactly the lines that hold the value, and for None those of the keys without a value and of null; search lists the paths of exactly the values whose text matches the expression, with include_comment those whose text followed by the comment of the line matches. Comment lines do not disturb the numbering of list entries.",
     "every file, every value, every expression, every sequence of edits",
     "Tests check a few files and expressions; that no value is missed, doubled or reported at another path must hold for every arrangement of lines.",
     "conda_recipe_manager/parser/recipe_reader.py: list_value_paths, find_value, search",
     "conda_recipe_manager/parser/_traverse.py: traverse_all, remap_child_indices_phys_to_virt")
prop("C108", "The layout of a recipe file does not change what crm convert makes of it", "Two recipe files that have the same variable definitions and the same content, and differ only in layout (white space, blank lines, quotes, the place of the definitions, remarks to Jinja), are converted to the same text with the same messages and the same exit code, or fail in the same way.", "every pair of layouts of every document, every outcome of the conversion", "documents and layouts are unbounded", "conda_recipe_manager/commands/convert.py::convert_file", "conda_recipe_manager/parser/recipe_parser_convert.py::RecipeParserConvert.render_to_v1_recipe_format")
prop("C109", "The dependency graph of a directory shows exactly the dependency lines of its recipe files", "For every directory of recipe files that can be read: the build graph has an edge from a package to a dependency exactly if one of the files has, for this package or for the whole recipe of which it is an output, a line with that dependency in a build or host section; the test graph likewise for run and test sections. Every package and every file is counted.", "every list of files, every content and layout of each, every number of outputs and dependency lines", "directories, documents and layouts are unbounded; the claim joins reading, variable replacement, dependency collection and graph construction", "conda_recipe_manager/grapher/recipe_graph_from_disk.py::RecipeGraphFromDisk.__init__", "conda_recipe_manager/grapher/recipe_graph.py::RecipeGraph.__init__", "conda_recipe_manager/parser/recipe_reader_deps.py::RecipeReaderDeps.get_all_dependencies")
prop("C110", "After a bump to a version, every source has the hash of the archive its URL names at this version", "When bump-recipe succeeds with a target version, then for every source of the recipe that has a URL, the hash written for this source (in its sha256 field, or in the hash variable this field uses) is the hash of what was downloaded from the URL the written recipe gives this source, with the new version substituted in it - never of the archive of the old version, and never of another source's archive.", "every recipe, every version, every number of sources, every answer of the servers to every URL, every order of the downloads", "the URLs depend on the expressions in the recipe and on the version given; the order of the edits and of the downloads matters", "conda_recipe_manager/commands/bump_recipe.py::bump_recipe", "conda_recipe_manager/commands/bump_recipe.py::_update_version", "conda_recipe_manager/commands/bump_recipe.py::_update_sha256", "conda_recipe_manager/fetcher/artifact_fetcher.py::from_recipe")
prop("C111", "A line that uses variables is read with the definitions of the file, as they are at the time", "For every recipe file and every line of it whose text contains template expressions: get_value with sub_vars gives what YAML makes of the text in which every expression is replaced by its value under the variables the file defines ({% set %} lines in the old format, the context section in the new one). After set_variable, and after any session of edits, the definitions used are those of the text that render() then gives.", "every file (canonical or free layout), every set of definitions, every line, every text with names, indexes, filters and sums, every session of edits", "files, texts and sessions are unbounded; the claim joins parsing, the variable table and evaluation", "conda_recipe_manager/parser/recipe_reader.py::RecipeReader.get_value", "conda_recipe_manager/parser/recipe_reader.py::RecipeReader._render_jinja_vars", "conda_recipe_manager/parser/recipe_reader.py::RecipeReader._init_vars_tbl", "conda_recipe_manager/parser/recipe_parser.py::RecipeParser.set_variable")
prop("C112", "str(recipe) shows every line of the recipe once, in order and at its depth", "For every recipe file in the usual layout (keys, block lists, mappings, block texts, comments): str(recipe) lists the keys, values, list elements and comment lines of the file, each once, in the order of the file and indented by its depth, and below every selector of the file the paths that use it; after any session of edits it does so for the edited file. It never changes the recipe.", "all recipe files of the supported layouts, all sessions of edits", "the text depends on the shape of the whole tree; a test sees a few trees", "conda_recipe_manager/parser/recipe_reader.py:RecipeReader.__str__", "conda_recipe_manager/parser/_node.py:Node.short_str", "conda_recipe_manager/parser/_selector_info.py:SelectorInfo.__str__")
prop("C113", "crm patch makes of a recipe file the text of its edited entries", "For every recipe file and every patch file: crm patch makes the patches in order until one is refused. A test that holds changes nothing; a test that does not hold, or a test, replacement or removal of an entry the file does not have, ends the command with code 106, and something that is no patch with code 4. The recipe file then holds the definitions and entries it had, with the edits the earlier patches describe, in the canonical layout; how the file was laid out before has no influence.", "all recipe files in the supported layouts, all lists of patches", "the result depends on the whole file, its layout and the whole list of patches; a test sees a few files with a few patches", "conda_recipe_manager/commands/patch.py:patch", "conda_recipe_manager/parser/recipe_parser.py:RecipeParser.patch", "conda_recipe_manager/parser/recipe_reader.py:RecipeReader.render")
prop("C114", "An addition can be taken back", "For every recipe: after something new was added, removing it again gives the recipe back, with the same lines, values, comments, order, variables and text. This holds for a new key anywhere, for an entry put into a list or at its end, for a new variable, for a selector put on a line, and for a dependency added to a section.", "all recipes, all places in them, all new keys, entries, variables, selectors and dependencies", "whether the two calls cancel out depends on everything else in the recipe and on the value; a test sees a few recipes", "conda_recipe_manager/parser/recipe_parser.py:patch,add_selector,remove_selector,set_variable,del_variable", "conda_recipe_manager/parser/recipe_parser_deps.py:add_dependency,remove_dependency")
prop("C115", "The order of independent edits does not matter", "If two edits are made at independent places of a recipe (patch operations with one path, changes of selectors or comments, in different sections or in different entries of a list; changes of different variables; a change of a variable and an edit anywhere), each call returns or raises the same whichever is made first, and both orders leave the same lines, comments, variables and text. Any number of such edits may be made in any order.", "all recipes, all pairs and all lists of edits at independent places, all values, selectors and comments, whether the edits succeed or not", "a test fixes two edits of one recipe and one order; independence must hold for every pair of places and every permutation", "conda_recipe_manager/parser/recipe_parser.py:RecipeParser.patch", "conda_recipe_manager/parser/recipe_parser.py:RecipeParser.add_selector", "conda_recipe_manager/parser/recipe_parser.py:RecipeParser.remove_selector", "conda_recipe_manager/parser/recipe_parser.py:RecipeParser.add_comment", "conda_recipe_manager/parser/recipe_parser.py:RecipeParser.set_variable", "conda_recipe_manager/parser/recipe_parser.py:RecipeParser.del_variable")
prop("C116", "An edit can be repeated", "If a call that puts something in its place is made a second time with the same arguments (replacing a value, adding a key, setting a selector or a comment, setting a variable, adding a dependency), it returns or raises what it did the first time and leaves the recipe as the first call left it: the same lines, comments, variables and text. If a call that takes something away is made a second time (removing a key, a selector, a variable), it finds nothing and changes nothing.", "all recipes, all places, keys, values, selectors, comments, variables and dependencies, whether the first call succeeds or not", "a test repeats a few edits of a few recipes; retrying an edit must be safe for every edit of every recipe", "conda_recipe_manager/parser/recipe_parser.py:RecipeParser.patch", "conda_recipe_manager/parser/recipe_parser.py:RecipeParser.add_selector", "conda_recipe_manager/parser/recipe_parser.py:RecipeParser.remove_selector", "conda_recipe_manager/parser/recipe_parser.py:RecipeParser.add_comment", "conda_recipe_manager/parser/recipe_parser.py:RecipeParser.set_variable", "conda_recipe_manager/parser/recipe_parser.py:RecipeParser.del_variable", "conda_recipe_manager/parser/recipe_parser_deps.py:RecipeParserDeps.add_dependency")
prop("C117", "The last edit counts", "If edits are made inside a section of a recipe, or at a value, a list item, a selector or a variable, and then the whole is replaced, added again or removed, the call returns what it would have returned without these edits, and leaves the recipe as it would have without them. Putting the old value back undoes all of them.", "all recipes, all places, all lists of patch operations and changes of selectors and comments inside the place, successful or not, all values", "a test makes a few edits in one section before it is replaced; that none leaves a trace must hold for every sequence of edits", "conda_recipe_manager/parser/recipe_parser.py:RecipeParser.patch", "conda_recipe_manager/parser/recipe_parser.py:RecipeParser.add_selector", "conda_recipe_manager/parser/recipe_parser.py:RecipeParser.remove_selector", "conda_recipe_manager/parser/recipe_parser.py:RecipeParser.add_comment", "conda_recipe_manager/parser/recipe_parser.py:RecipeParser.set_variable")
prop("C118", "The work can be interrupted", "Saving a recipe with `render` and opening the saved text again, at any point between edits, makes no difference to what follows: every later call returns or raises the same as it would have on the recipe in memory, and the recipe that results has the same lines, values, comments, variables and text. In particular no call depends on anything hidden: on the text the recipe was read from, on whether it counts as modified, or on what was asked before.", "all recipe files, all histories of calls before saving and all histories of calls after it, of any length", "a test saves at one point of one history; that no hidden state is lost by saving must hold at every point of every history", "conda_recipe_manager/parser/recipe_reader.py:RecipeReader.render", "conda_recipe_manager/parser/recipe_reader.py:RecipeReader.__init__", "conda_recipe_manager/parser/recipe_parser.py:RecipeParser.patch", "conda_recipe_manager/parser/recipe_parser.py:RecipeParser.search_and_patch", "conda_recipe_manager/parser/recipe_parser_deps.py:RecipeParserDeps.add_dependency")
prop("C119", "Running bump-recipe again and again", "Whatever runs of `bump-recipe` are made one after the other on a recipe file, each works on what the last one left. At the end the file has exactly the lines the runs changed or added, and all other lines as they were; dry runs and runs that fail leave no trace. In particular running `bump-recipe --build-num` k times raises the build number by k.", "all recipe files and all histories of runs of any length, each with its own options and downloads", "a test makes one run, or two; that each run leaves a file the next one can read and that nothing adds up over the runs must hold for every history", "conda_recipe_manager/commands/bump_recipe.py:bump_recipe", "conda_recipe_manager/commands/bump_recipe.py:_update_build_num", "conda_recipe_manager/commands/bump_recipe.py:_update_version", "conda_recipe_manager/commands/bump_recipe.py:_update_sha256")
prop("C120", "One patch file or several", "Running `crm patch` with several patch files one after the other, as long as it succeeds, has the same effect as one run with all their patches in one file: it ends with the same code and leaves the same recipe file. Patches behind one that is refused have no effect, in the same file or in a later one.", "all recipe files and all lists of patch files, with any patches in them", "a test compares one way of cutting one list of patches; that saving and opening the recipe between any two patches makes no difference must hold for every file and every cut", "conda_recipe_manager/commands/patch.py:patch", "conda_recipe_manager/commands/patch.py:_pre_patch_validate", "conda_recipe_manager/parser/recipe_parser.py:RecipeParser.patch", "conda_recipe_manager/parser/recipe_reader.py:RecipeReader.render")
prop("C121", "bump-recipe and patch can be used in any order", "Whatever runs of `crm bump-recipe` and `crm patch` are made on a recipe file, in any order, each finds what the last one left and ends with the code its effect calls for; at the end the file holds the definitions and entries with all edits made one after the other, in the canonical layout. Dry runs, failed bumps and patches that raise leave the file as it was; refused patches leave what was done before them.", "all recipe files and all histories of the two commands, of any length", "a test makes one run of one command; that every command can work on whatever the other left must hold for every history", "conda_recipe_manager/commands/bump_recipe.py:bump_recipe", "conda_recipe_manager/commands/patch.py:patch", "conda_recipe_manager/parser/recipe_reader.py:RecipeReader.render", "conda_recipe_manager/parser/recipe_reader.py:RecipeReader.__init__")
prop("C122", "A dry run shows what the run would do", "With the same recipe file, options and downloads, and if the file can be written, `crm bump-recipe --dry-run` ends with the code that the run without `--dry-run` ends with. If that is a success it prints exactly the text that the run would write; otherwise it prints nothing. The dry run writes nothing, and the run prints no recipe.", "all recipe files, options, answers of the network and orders of downloads", "a test compares the two for one recipe; that the option changes nothing but where the text goes must hold for every recipe and every way a run can end", "conda_recipe_manager/commands/bump_recipe.py:bump_recipe")
prop("C123", "A converted recipe is not converted again", "`crm convert` on a recipe file that `crm convert` has written is refused with exit code 106 and the message that only V0-formatted recipe files can be converted; nothing is printed to the standard output and no file is written, whatever the options are.", "all recipe files that a conversion can write", "a test converts one output again; that every output is recognised as one needs the output of the conversion for every recipe and how it is read back", "conda_recipe_manager/commands/convert.py:convert", "conda_recipe_manager/commands/convert.py:convert_file", "conda_recipe_manager/parser/recipe_parser_convert.py:RecipeParserConvert.render_to_v1_recipe_format", "conda_recipe_manager/parser/recipe_reader.py:RecipeReader.get_schema_version")

out = pathlib.Path(__file__).resolve().parent.parent / "properties.jsonl"
out.write_text("".join(json.dumps(r) + "\n" for r in ROWS))
print(len(ROWS))
