import Verif.Model.Sort
import Verif.Model.Spdx
import Verif.Model.Bump
import Verif.Model.Messages

/-!
# Converting a recipe to the V1 format (`parser/recipe_parser_convert.py`)

An action works on the state of a `RecipeParserConvert` object and returns its outcome together with the state it leaves
behind, so that an exception keeps the work done before it.
-/

namespace Crm

/-- The state of a `RecipeParserConvert` object, `recipe_parser_convert.py:26-40`: the recipe it was built from, the
converted copy, the message table. -/
structure Conv where
  self : Recipe
  v1 : Recipe
  msgs : MsgTable := []
deriving DecidableEq

/-- What the conversion takes from outside: the order in which the interpreter visits a set of strings,
`difflib.get_close_matches` and the licence database. -/
structure ConvWorld where
  order : List Str → List Str
  close : Str → List Str → List Str
  db : List License

/-- A method of the object: outcome and state afterwards. -/
def Act (α : Type) : Type := Conv → Except PyErr α × Conv

namespace Act

/-- `x; f(result of x)`; an exception ends the method. -/
def bind (x : Act α) (f : α → Act β) : Act β := fun c =>
  match x c with
  | (.ok a, c') => f a c'
  | (.error e, c') => (.error e, c')

instance : Monad Act where
  pure a := fun c => (.ok a, c)
  bind := Act.bind

/-- `for x in xs: f(x)`. -/
def each (f : α → Act Unit) : List α → Act Unit
  | [] => pure ()
  | x :: xs => do f x; each f xs

/-- Read something from the converted recipe. -/
def ask (f : Recipe → Except PyErr α) : Act α := fun c => (f c.v1, c)

/-- Call a mutating method of the converted recipe. -/
def edit (f : Recipe → Outcome α) : Act α := fun c => ((f c.v1).1, { c with v1 := (f c.v1).2 })

/-- `self._msg_tbl.add_message(category, text)`. -/
def say (cat : Category) (m : Str) : Act Unit := fun c => (.ok (), { c with msgs := c.msgs.add cat m })

end Act

open Act

/-! ## Patch utilities -/

/-- `{"op": "add", "path": path, "value": value}` -/
def addOp (path : Str) (v : PyVal) : PyVal := .dict [(§"op", .str §"add"), (§"path", .str path), (§"value", v)]
/-- `{"op": "replace", "path": path, "value": value}` -/
def replaceOp (path : Str) (v : PyVal) : PyVal := .dict [(§"op", .str §"replace"), (§"path", .str path), (§"value", v)]
/-- `{"op": "remove", "path": path}` -/
def removeOp (path : Str) : PyVal := .dict [(§"op", .str §"remove"), (§"path", .str path)]
/-- `{"op": "move", "from": old, "path": path}` -/
def moveOp (old path : Str) : PyVal := .dict [(§"op", .str §"move"), (§"from", .str old), (§"path", .str path)]

/-- `_patch_and_log`, `recipe_parser_convert.py:44-54`. -/
def patchAndLog (E : Env) (p : PyVal) : Act Bool := do
  let ok ← edit (·.patch E p)
  if !ok then say .error (§"Failed to patch: " ++ pyStr p)
  pure ok

/-- `contains_value` of the converted recipe. -/
def hasPath (path : Str) : Act Bool := ask (·.containsValue path)

/-- `get_value` of the converted recipe. -/
def valueAt (E : Env) (path : Str) (default : Option PyVal := none) : Act PyVal := ask (·.getValue E path default)

/-- `_sort_subtree_keys` of the converted recipe. -/
def sortKeys (path : Str) (tbl : List (Str × Nat)) : Act Unit :=
  edit fun r => match r.sortSubtreeKeys path tbl with
    | .ok r' => (.ok (), r')
    | .error e => (.error e, r)

/-- `_patch_add_missing_path`, `recipe_parser_convert.py:56-68`. -/
def patchAddMissing (E : Env) (base ext : Str) (v : PyVal := .none) : Act Unit := do
  let path := Recipe.appendToPath base ext
  if !(← hasPath path) then
    let _ ← patchAndLog E (addOp path v)

/-- `_patch_move_base_path`, `recipe_parser_convert.py:70-82`. -/
def patchMoveBase (E : Env) (base oldExt newExt : Str) : Act Unit := do
  let old := Recipe.appendToPath base oldExt
  if ← hasPath old then
    let _ ← patchAndLog E (moveOp old (Recipe.appendToPath base newExt))

/-- `_patch_move_new_path`, `recipe_parser_convert.py:84-103`. -/
def patchMoveNew (E : Env) (base oldExt newPath : Str) (newExt : Option Str := none) : Act Unit := do
  let newExt := newExt.getD oldExt
  if ← hasPath (Recipe.appendToPath base oldExt) then patchAddMissing E base newPath
  patchMoveBase E base oldExt (Recipe.appendToPath newPath newExt)

/-- One round of `_patch_deprecated_fields`, `recipe_parser_convert.py:112-117`. -/
def patchDeprecatedField (E : Env) (base field : Str) : Act Unit := do
  let path := Recipe.appendToPath base field
  if ← hasPath path then
    if ← patchAndLog E (removeOp path) then
      say .warning (§"Field at `" ++ path ++ §"` is no longer supported.")

/-- `_patch_deprecated_fields`, `recipe_parser_convert.py:105-117`. -/
def patchDeprecated (E : Env) (base : Str) (fields : List Str) : Act Unit := each (patchDeprecatedField E base) fields

/-! ## Python operations on the values read -/

/-- `text in value`; values without members raise `TypeError`. -/
def pyIn (s : Str) : PyVal → Except PyErr Bool
  | .str t => .ok (inStr s t)
  | .list xs => .ok (xs.any (pyEq (.str s)))
  | .dict d => .ok (lookupD s d).isSome
  | _ => .error .typeError

/-- `value.split("=")` with the white space around each part removed; only texts can be split. -/
def splitEq : PyVal → Except PyErr (List Str)
  | .str s => .ok ((splitChar '=' s).map strip)
  | _ => .error .attributeError

/-- `"\n".join(values)`; only texts can be joined. -/
def joinLines (xs : List PyVal) : Except PyErr Str :=
  if xs.all (fun x => match x with | .str _ => true | _ => false) then .ok (joinStr §"\n" (xs.map pyStr))
  else .error .typeError

/-! ## Jinja -/

namespace Regex
open Rx

/-- `JINJA_FUNCTION_REPLACE`, `_types.py:181`: `\|\s*(replace)\((.*)\)`. -/
def jinjaFunctionReplace : Rx :=
  cat [chr '|', .star ws, .grp 1 (lit §"replace"), chr '(', .grp 2 (.star dot), chr ')']

/-- `JINJA_FUNCTIONS_SET`, `_types.py:188-195`; the order does not matter for `search_any_regex`. -/
def jinjaFunctionsSet : List Rx :=
  [jinjaFunctionLower, jinjaFunctionUpper, jinjaFunctionReplace, jinjaFunctionIdxAccess, jinjaFunctionAddConcat,
   jinjaFunctionMatch]

/-- `V0_UNSUPPORTED_JINJA`, `_types.py:126`: `\.join\(`. -/
def v0UnsupportedJinja : List Rx := [lit §".join("]

/-- `py\s*(<|>|<=|>=|==|!=)\s*(3|2)([0-9]+)`, `_types.py:159`. -/
def selectorPythonVersion : Rx :=
  cat [lit §"py", .star ws, .grp 1 (alts [lit §"<", lit §">", lit §"<=", lit §">=", lit §"==", lit §"!="]), .star ws,
    .grp 2 (oneOf §"32"), .grp 3 (plus digit)]

/-- `py(3|2)([0-9]+)`, `_types.py:160`. -/
def selectorPythonEq : Rx := cat [lit §"py", .grp 1 (oneOf §"32"), .grp 2 (plus digit)]

/-- `not py(3|2)([0-9]+)`, `_types.py:161`. -/
def selectorPythonNe : Rx := cat [lit §"not py", .grp 1 (oneOf §"32"), .grp 2 (plus digit)]

/-- `py2k`, `_types.py:162`. -/
def selectorPy2k : Rx := lit §"py2k"

/-- `py3k`, `_types.py:163`. -/
def selectorPy3k : Rx := lit §"py3k"

/-- `(\{%\s*set.*=.*)\.(.*\(.*\)\s*%\})`, `_types.py:141-143`. -/
def preProcessDotAssignment : Rx :=
  cat [.grp 1 (cat [lit §"{%", .star ws, lit §"set", .star dot, chr '=', .star dot]), chr '.',
    .grp 2 (cat [.star dot, chr '(', .star dot, chr ')', .star ws, lit §"%}"])]

/-- `(\{\{\s*[a-zA-Z0-9_]*.*)\.([a-zA-Z0-9_]*\(.*\)\s*\}\})`, `_types.py:144-146`. -/
def preProcessDotSubstitution : Rx :=
  cat [.grp 1 (cat [lit §"{{", .star ws, .star word, .star dot]), chr '.',
    .grp 2 (cat [.star word, chr '(', .star dot, chr ')', .star ws, lit §"}}"])]

/-- `(\|\s*(lower|upper))(\(\))`, `_types.py:148-150`. -/
def preProcessEmptyParens : Rx :=
  cat [.grp 1 (cat [chr '|', .star ws, .grp 2 (alts [lit §"lower", lit §"upper"])]), .grp 3 (lit §"()")]

/-- `(\s*)(.*):\s*['\"](.*)\\n(.*)['\"]`, `_types.py:152`. -/
def preProcessQuotedMultiline : Rx :=
  cat [.grp 1 (.star ws), .grp 2 (.star dot), chr ':', .star ws, oneOf §"'\"", .grp 3 (.star dot), lit §"\\n",
    .grp 4 (.star dot), oneOf §"'\""]

end Regex

/-- The text of a group that takes part in every match. -/
def RMatch.grpS (m : RMatch) (n : Nat) : Str := (m.group n).getD []

/-- A variable the V1 format can hold, `recipe_parser_convert.py:131`. -/
def supportedVar : PyVal → Bool
  | .str _ | .int _ | .flt _ | .bool _ => true
  | _ => false

/-- The value a variable gets in `context`, `recipe_parser_convert.py:135-137`. -/
def contextValue : PyVal → PyVal
  | .str s => if searchAnyRegex Regex.jinjaFunctionsSet s then .str (§"{{" ++ s ++ §"}}") else .str s
  | v => v

/-- The loop over the variables, `recipe_parser_convert.py:129-137`. -/
def contextLoop (ctx : List (Str × PyVal)) : List (Str × PyVal) → Act (List (Str × PyVal))
  | [] => pure ctx
  | (name, v) :: rest => do
    if !supportedVar v then
      say .warning (§"The variable `" ++ name ++ §"` is an unsupported type.")
      contextLoop ctx rest
    else contextLoop (insertD name (contextValue v) ctx) rest

/-- `complex_jinja`, `recipe_parser_convert.py:141-145`. -/
def complexJinja (ctx : List (Str × PyVal)) : List Str :=
  (ctx.filter fun kv => match kv.2 with | .str s => searchAnyRegex Regex.v0UnsupportedJinja s | _ => false).map (·.1)

/-- Adding the `context` section, `recipe_parser_convert.py:139-152`. -/
def addContext (E : Env) (ctx : List (Str × PyVal)) : Act Unit := do
  if !ctx.isEmpty then
    if !(complexJinja ctx).isEmpty then
      say .warning (§"The following key(s) contain unsupported syntax: " ++ joinStr §", " (complexJinja ctx))
    let _ ← patchAndLog E (addOp §"/context" (.dict ctx))

/-- `JINJA_REPLACE_V0_STARTING_MARKER.sub("${{", value)`, `recipe_parser_convert.py:170`. -/
def escapeJinja (s : Str) : Str := Regex.jinjaReplaceV0StartingMarker.sub (fun _ => §"${{") s

/-- One round of the loop over the substitutions, `recipe_parser_convert.py:161-171`. -/
def upgradeSubstitution (E : Env) (path : Str) : Act Unit := do
  match ← valueAt E path with
  | .str s => do let _ ← patchAndLog E (replaceOp path (.str (escapeJinja s)))
  | v => say .warning (§"A non-string value was found as a JINJA substitution: " ++ pyStr v)

/-- `_upgrade_jinja_to_context_obj`, `recipe_parser_convert.py:121-171`; the paths are a Python set. -/
def upgradeJinja (E : Env) (W : ConvWorld) : Act Unit := do
  let vars ← ask fun r => .ok r.vars
  let ctx ← contextLoop [] vars
  addContext E ctx
  let _ ← patchAndLog E (addOp §"/schema_version" (.int 1))
  let paths ← ask fun r => .ok (r.search Regex.jinjaV0Sub.test)
  each (upgradeSubstitution E) (W.order (dedupe paths))

/-! ## Selectors -/

/-- The rewriting of a selector's expression, `recipe_parser_convert.py:196-212`. -/
def upgradeExpression (s : Str) : Str :=
  let s := Regex.selectorPythonVersion.sub
    (fun m => §"match(python, \"" ++ m.grpS 1 ++ m.grpS 2 ++ §"." ++ m.grpS 3 ++ §"\")") s
  let s := Regex.selectorPythonEq.sub (fun m => §"match(python, \"==" ++ m.grpS 1 ++ §"." ++ m.grpS 2 ++ §"\")") s
  let s := Regex.selectorPythonNe.sub (fun m => §"match(python, \"!=" ++ m.grpS 1 ++ §"." ++ m.grpS 2 ++ §"\")") s
  let s := Regex.selectorPy2k.sub (fun _ => §"match(python, \">=2,<3\")") s
  Regex.selectorPy3k.sub (fun _ => §"match(python, \">=3,<4\")") s

/-- `selector[1:-1]`, `recipe_parser_convert.py:190`. -/
def innerText (s : Str) : Str := (s.drop 1).dropLast

/-- The patch that turns a line with a selector into conditional logic, `recipe_parser_convert.py:219-242`; `none` if the
line cannot carry one. -/
def selectorPatch (expr path : Str) (n : Node) : Option PyVal :=
  match n.value with
  | .bool _ =>
    some (replaceOp path (.str (if endsWith path §"/build/skip" then expr else §"${{ true if " ++ expr ++ §" }}")))
  | v =>
    if n.listMember then
      some (replaceOp path (.dict [(§"if", .str expr), (§"then", match v with | .sentinel => .none | v => v)]))
    else none

/-- One round of the loop over the selectors, `recipe_parser_convert.py:183-245`.  Simplification: `stack_path_to_str`
uses up the path in the table that is looped over; the model keeps it.  That table is not read again during a
conversion. -/
def upgradeSelector (E : Env) (selector : Str) (info : SelInfo) : Act Unit := do
  if info.node.isLeaf then
    let path := stackToStr info.path
    match selectorPatch (upgradeExpression (innerText selector)) path info.node with
    | none => say .warning (§"A non-list item had a selector at: " ++ path)
    | some p => do
      let _ ← patchAndLog E p
      let _ ← edit (·.removeSelector path)

/-- `_upgrade_selectors_to_conditionals`, `recipe_parser_convert.py:173-245`.  The loop runs over the table as it was
when the method started (`patch` builds a new one).  The nodes are those of the table: what the loop reads from them does
not change while it runs. -/
def upgradeSelectors (E : Env) : Act Unit := do
  let tbl ← ask fun r => .ok r.selTbl
  each (fun (entry : Str × List SelInfo) => each (upgradeSelector E entry.1) entry.2) tbl

/-! ## Sections -/

/-- `_correct_common_misspellings`, `recipe_parser_convert.py:247-263`. -/
def correctMisspellings (E : Env) (paths : List Str) : Act Unit := each (fun base => do
  let build := Recipe.appendToPath base §"/build"
  patchMoveBase E build §"skipt" §"skip"
  patchMoveBase E build §"skips" §"skip"
  patchMoveBase E build §"Skip" §"skip"
  patchMoveBase E base §"extras" §"extra") paths

/-- The fields of `source` that get another name, `recipe_parser_convert.py:299-306`. -/
def sourceRenames : List (Str × Str) :=
  [(§"/fn", §"/file_name"), (§"/folder", §"/target_directory"), (§"/git_url", §"/git"), (§"/git_tag", §"/tag"),
   (§"/git_rev", §"/rev"), (§"/git_depth", §"/depth")]

/-- One element of `source`, `recipe_parser_convert.py:286-311`. -/
def upgradeSource (E : Env) (src : Str) : Act Unit := do
  if ← hasPath (Recipe.appendToPath src §"svn_url") then
    say .warning §"SVN packages are no longer supported in the V1 format"
  if ← hasPath (Recipe.appendToPath src §"hg_url") then
    say .warning §"HG (Mercurial) packages are no longer supported in the V1 format"
  each (fun (o : Str × Str) => patchMoveBase E src o.1 o.2) sourceRenames
  sortKeys src sourceOrder

/-- `_upgrade_source_section`, `recipe_parser_convert.py:265-311`. -/
def upgradeSources (E : Env) (paths : List Str) : Act Unit := each (fun base => do
  let path := Recipe.appendToPath base §"/source"
  if ← hasPath path then
    let srcs := match ← valueAt E path with
      | .list xs => (List.range xs.length).map fun i => Recipe.appendToPath path (§"/" ++ natStr i)
      | _ => [path]
    each (upgradeSource E) srcs) paths

/-- What an entry of `script_env` becomes: `(environment, secrets)`. -/
abbrev ScriptEnv := List (Str × PyVal) × List PyVal

/-- One round of the loop over `script_env`, `recipe_parser_convert.py:334-361`. -/
def scriptEnvItem (path : Str) (item : PyVal) (acc : ScriptEnv) : Act ScriptEnv :=
  match item with
  | .dict d => match lookupD §"then" d with
    | none => do
      say .error (§"Could not parse dictionary `" ++ pyStr item ++ §"` found in " ++ path)
      pure acc
    | some v => do
      let tokens ← ask fun _ => splitEq v
      if tokens.length = 1 then pure (acc.1, acc.2 ++ [item])
      else do
        say .error (§"Converting `" ++ pyStr item ++ §"` found in " ++ path ++
          §" is not supported. Manually replace the selector with a `cmp()` function.")
        pure acc
  | item => do
    match ← ask fun _ => splitEq item with
    | [x] => pure (acc.1, acc.2 ++ [.str x])
    | [k, v] => pure (insertD k (.str v) acc.1, acc.2)
    | _ => do
      say .error (§"Could not parse `" ++ pyStr item ++ §"` found in " ++ path)
      pure acc

/-- The loop over `script_env`. -/
def scriptEnvLoop (path : Str) : List PyVal → ScriptEnv → Act ScriptEnv
  | [], acc => pure acc
  | x :: xs, acc => do
    let acc ← scriptEnvItem path x acc
    scriptEnvLoop path xs acc

/-- `_upgrade_build_script_section`, `recipe_parser_convert.py:313-372`. -/
def upgradeScript (E : Env) (build : Str) : Act Unit := do
  let envPath := Recipe.appendToPath build §"/script_env"
  let lst ← valueAt E envPath (some (.list []))
  if lst.truthy then
    let path := Recipe.appendToPath build §"/script"
    let items ← ask fun _ => pyIter lst
    let acc ← scriptEnvLoop envPath items ([], [])
    let obj := setKeyConditionally (setKeyConditionally [] §"env" (.dict acc.1)) §"secrets" (.list acc.2)
    let script ← valueAt E path (some (.str []))
    let obj := setKeyConditionally obj §"content" script
    let _ ← patchAndLog E (if script.truthy then replaceOp path (.dict obj) else addOp path (.dict obj))
    let _ ← patchAndLog E (removeOp envPath)

/-- Move a field from `build` to `requirements`, `recipe_parser_convert.py:402-416`. -/
def moveToRequirements (E : Env) (base field : Str) : Act Unit := do
  let old := Recipe.appendToPath base (§"/build/" ++ field)
  if ← hasPath old then
    let req := Recipe.appendToPath base §"/requirements"
    if !(← hasPath req) then
      let _ ← patchAndLog E (addOp req .none)
    let _ ← patchAndLog E (moveOp old (Recipe.appendToPath base (§"/requirements/" ++ field)))

/-- `build_deprecated`, `recipe_parser_convert.py:380-396`. -/
def buildDeprecated : List Str :=
  [§"pre-link", §"noarch_python", §"features", §"msvc_compiler", §"requires_features", §"provides_features",
   §"preferred_env", §"preferred_env_executable_paths", §"disable_pip", §"pin_depends", §"overlinking_ignore_patterns",
   §"rpaths_patcher", §"post-link", §"pre-unlink", §"pre-link"]

/-- `_upgrade_build_section`, `recipe_parser_convert.py:374-453`. -/
def upgradeBuild (E : Env) (paths : List Str) : Act Unit := each (fun base => do
  moveToRequirements E base §"run_exports"
  moveToRequirements E base §"ignore_run_exports"
  let build := Recipe.appendToPath base §"/build"
  if ← hasPath build then
    patchMoveBase E build §"merge_build_host" §"merge_build_and_host_envs"
    patchMoveBase E build §"no_link" §"always_copy_files"
    patchMoveNew E build §"/entry_points" §"/python"
    patchMoveNew E build §"/ignore_prefix_files" §"/prefix_detection" (some §"/ignore")
    patchMoveNew E build §"/detect_binary_files_with_prefix" §"/prefix_detection" (some §"/ignore_binary_files")
    patchMoveNew E build §"/rpaths" §"/dynamic_linking" (some §"/rpaths")
    patchMoveNew E build §"/binary_relocation" §"/dynamic_linking" (some §"/binary_relocation")
    patchMoveNew E build §"/missing_dso_whitelist" §"/dynamic_linking" (some §"/missing_dso_allowlist")
    patchMoveNew E build §"/runpath_whitelist" §"/dynamic_linking" (some §"/rpath_allowlist")
    upgradeScript E build
    patchDeprecated E build buildDeprecated
    sortKeys build buildOrder) paths

/-- `_upgrade_requirements_section`, `recipe_parser_convert.py:455-467`. -/
def upgradeRequirements (E : Env) (paths : List Str) : Act Unit := each (fun base => do
  let path := Recipe.appendToPath base §"/requirements"
  if ← hasPath path then patchMoveBase E path §"/run_constrained" §"/run_constraints") paths

/-- `find_closest_license_match` on what `get_value` returned: only texts can be stripped, lists and mappings cannot be
looked up in a set. -/
def matchLicense (W : ConvWorld) : PyVal → Except PyErr (Option Str)
  | .str s => .ok (findLicense W.close W.db s)
  | .list _ | .dict _ => .error .typeError
  | _ => .error .attributeError

/-- `_fix_bad_licenses`, `recipe_parser_convert.py:469-498`. -/
def fixLicense (E : Env) (W : ConvWorld) (about : Str) : Act Unit := do
  let path := Recipe.appendToPath about §"/license"
  let old ← valueAt E path (some .none)
  if old = .none then say .warning (§"No `license` provided in `" ++ about ++ §"`")
  else
    match ← ask fun _ => matchLicense W old with
    | none => say .warning (§"Could not patch unrecognized license: `" ++ pyStr old ++ §"`")
    | some new =>
      if old ≠ .str new then
        if ← patchAndLog E (replaceOp path (.str new)) then
          say .warning (§"Changed " ++ path ++ §" from `" ++ pyStr old ++ §"` to `" ++ new ++ §"`")

/-- `about_rename_mapping`, `recipe_parser_convert.py:506-510`. -/
def aboutRenames : List (Str × Str) :=
  [(§"home", §"homepage"), (§"dev_url", §"repository"), (§"doc_url", §"documentation")]

/-- `about_deprecated`, `recipe_parser_convert.py:511-518`. -/
def aboutDeprecated : List Str :=
  [§"prelink_message", §"license_family", §"identifiers", §"tags", §"keywords", §"doc_source_url"]

/-- A summary read as a list becomes one text, `recipe_parser_convert.py:535-540`. -/
def joinSummary (E : Env) (about : Str) : Act Unit := do
  let path := Recipe.appendToPath about §"/summary"
  match ← valueAt E path (some (.str [])) with
  | .list xs => do
    let text ← ask fun _ => joinLines xs
    let _ ← patchAndLog E (replaceOp path (.str text))
  | _ => pure ()

/-- `_upgrade_about_section`, `recipe_parser_convert.py:500-543`. -/
def upgradeAbout (E : Env) (W : ConvWorld) (paths : List Str) : Act Unit := each (fun base => do
  let about := Recipe.appendToPath base §"/about"
  if ← hasPath about then
    each (fun (o : Str × Str) => patchMoveBase E about o.1 o.2) aboutRenames
    fixLicense E W about
    joinSummary E about
    patchDeprecated E about aboutDeprecated) paths

/-- `pip_check_variants`, `recipe_parser_convert.py:552-556`. -/
def pipCheckVariants : List Str := [§"pip check", §"python -m pip check", §"python3 -m pip check"]

/-- The number of the first command that runs `pip check`, `recipe_parser_convert.py:568-575`. -/
def findPipCheck (commands : List PyVal) : Option Nat :=
  commands.findIdx? fun c => match c with | .str s => pipCheckVariants.contains s | _ => false

/-- `_upgrade_test_pip_check`, `recipe_parser_convert.py:545-590`. -/
def upgradePipCheck (E : Env) (base test : Str) : Act Unit := do
  let host ← valueAt E (Recipe.appendToPath base §"/requirements/host") (some (.list []))
  if ← ask fun _ => pyIn §"python" host then
    let cmdPath := Recipe.appendToPath test §"/commands"
    let commands ← valueAt E cmdPath (some (.list []))
    let items ← ask fun _ => pyIter commands
    match findPipCheck items with
    | none => pure ()
    | some i => do
      let _ ← patchAndLog E (removeOp (Recipe.appendToPath cmdPath (§"/" ++ natStr i)))
      if items.length = 1 then
        let _ ← patchAndLog E (removeOp cmdPath)
        let req := Recipe.appendToPath test §"/requirements"
        if ← hasPath req then
          let _ ← patchAndLog E (removeOp req)
    patchAddMissing E test §"/python"
    let _ ← patchAndLog E
      (addOp (Recipe.appendToPath test §"/python/pip_check") (.bool (findPipCheck items).isSome))

/-- `files` becomes `files/recipe`, `recipe_parser_convert.py:607-624`. -/
def upgradeTestFiles (E : Env) (test : Str) : Act Unit := do
  let files := Recipe.appendToPath test §"/files"
  if ← hasPath files then
    let v ← valueAt E files
    let _ ← patchAndLog E (removeOp files)
    let _ ← patchAndLog E (addOp files .none)
    let _ ← patchAndLog E (addOp (Recipe.appendToPath files §"/recipe") v)
  else if ← hasPath (Recipe.appendToPath test §"/source_files") then
    patchAddMissing E test §"/files"
  patchMoveBase E test §"/source_files" §"/files/source"

/-- Take one kind of test out of the test object, `recipe_parser_convert.py:650-656`; a text contains a word but cannot be
indexed with it. -/
def splitTest (key : Str) (elem : PyVal) : Except PyErr (List PyVal × PyVal) := do
  if ← pyIn key elem then
    match elem with
    | .dict d => match lookupD key d with
      | some v => .ok ([.dict [(key, v)]], .dict (eraseD key d))
      | none => .error .keyError
    | _ => .error .typeError
  else .ok ([], elem)

/-- The list that replaces the test object, `recipe_parser_convert.py:647-659`. -/
def testArray (elem : PyVal) : Except PyErr (List PyVal) := do
  let (py, rest) ← splitTest §"python" elem
  let (down, rest) ← splitTest §"downstream" rest
  .ok (py ++ down ++ if rest.truthy then [rest] else [])

/-- `_upgrade_test_section`, `recipe_parser_convert.py:592-661`. -/
def upgradeTests (E : Env) (paths : List Str) : Act Unit := each (fun base => do
  let test := Recipe.appendToPath base §"/test"
  if ← hasPath test then
    upgradeTestFiles E test
    if ← hasPath (Recipe.appendToPath test §"/requires") then patchAddMissing E test §"/requirements"
    patchMoveBase E test §"/requires" §"/requirements/run"
    upgradePipCheck E base test
    patchMoveBase E test §"/commands" §"/script"
    if ← hasPath (Recipe.appendToPath test §"/imports") then
      patchAddMissing E test §"/python"
      patchMoveBase E test §"/imports" §"/python/imports"
    patchMoveBase E test §"/downstreams" §"/downstream"
    sortKeys (Recipe.appendToPath test §"/python") pythonTestOrder
    let elem ← valueAt E test
    let arr ← ask fun _ => testArray elem
    let _ ← patchAndLog E (addOp (test ++ §"s") (.list arr))
    let _ ← patchAndLog E (removeOp test)) paths

/-- One output, `recipe_parser_convert.py:676-692`. -/
def upgradeOutput (E : Env) (output : Str) : Act Unit := do
  if output ≠ §"/" then
    if (← hasPath (Recipe.appendToPath output §"/name")) then patchAddMissing E output §"/package"
    else if (← hasPath (Recipe.appendToPath output §"/version")) then patchAddMissing E output §"/package"
    patchMoveBase E output §"/name" §"/package/name"
    patchMoveBase E output §"/version" §"/package/version"
    sortKeys output topLevelOrder

/-- `_upgrade_multi_output`, `recipe_parser_convert.py:663-692`. -/
def upgradeOutputs (E : Env) (paths : List Str) : Act Unit := do
  if ← hasPath §"/outputs" then
    patchMoveBase E §"/" §"/package" §"/recipe"
    each (upgradeOutput E) paths

/-! ## The conversion -/

/-- The comments whose line is gone, `recipe_parser_convert.py:797-801`. -/
def reportComments (old : List (Str × Str)) : Act Unit := do
  let new ← ask fun r => .ok r.getCommentsTable
  each (fun (e : Str × Str) => do
    if !(← hasPath e.1) then say .warning (§"Could not relocate comment: " ++ e.2))
    (old.filter fun e => (lookupD e.1 new).isNone)

/-- `_init_vars_tbl` of a V1 recipe, `recipe_reader.py:355-374`.  Simplification, as for the constructor: a `/context` that
is not a mapping gives no variables. -/
def Recipe.initVarsV1 (E : Env) (r : Recipe) : Outcome Unit :=
  match r.getValue E §"/context" (some (.dict [])) with
  | .ok (.dict kvs) => (.ok (), { r with vars := kvs })
  | .ok _ => (.ok (), { r with vars := [] })
  | .error e => (.error e, { r with vars := [] })

/-- `_vars_tbl = {}`, the sort of the top level, the new schema and its variables, `recipe_parser_convert.py:808-820`. -/
def finishV1 (E : Env) : Act Unit := do
  edit fun r => (.ok (), { r with vars := [] })
  sortKeys §"/" topLevelOrder
  edit fun r => (.ok (), { r with schema := .v1 })
  edit (·.initVarsV1 E)

/-- The edits of `render_to_v1_recipe_format`, `recipe_parser_convert.py:764-820`. -/
def convertSteps (E : Env) (W : ConvWorld) : Act Unit := do
  let old ← ask fun r => .ok r.getCommentsTable
  upgradeSelectors E
  upgradeJinja E W
  let paths ← ask (·.getPackagePaths E)
  correctMisspellings E paths
  upgradeSources E paths
  upgradeBuild E paths
  upgradeRequirements E paths
  upgradeAbout E W paths
  upgradeTests E paths
  upgradeOutputs E paths
  reportComments old
  finishV1 E

/-- `render_to_v1_recipe_format`, `recipe_parser_convert.py:749-823`: the text and the message table.  The third component
of Python's result, a text for debugging, is left out. -/
def renderToV1 (E : Env) (W : ConvWorld) : Act (Str × MsgTable) := do
  convertSteps E W
  fun c => (.ok (c.v1.render, c.msgs), c)

/-- `RecipeParserConvert(content)`, `recipe_parser_convert.py:26-40`. -/
def newConv (E : Env) (content : Str) : Except PyErr Conv := do
  let r ← Recipe.ofString E content
  let v1 ← Recipe.ofString E r.render
  .ok ⟨r, v1, []⟩

/-! ## Pre-processing -/

/-- The replacements for `environ[..]`, `recipe_parser_convert.py:731-740`, from the groups of one match. -/
def environReplacement (q key : Str) : Str × Str :=
  (§"environ[" ++ q ++ key ++ q ++ §"]", §"env.get(" ++ q ++ key ++ q ++ §")")

/-- `PRE_PROCESS_ENVIRON.findall(content)`: groups 1 and 2 of every match. -/
def environGroups : Nat → Str → Str → List (Str × Str)
  | _, _, [] => []
  | k + 1, bef, c :: cs => environGroups k (c :: bef) cs
  | 0, bef, c :: cs => match Regex.preProcessEnviron.matchAt bef (c :: cs) with
    | some m => (m.grpS 1, m.grpS 2) :: environGroups (m.text.length - 1) (c :: bef) cs
    | none => environGroups 0 (c :: bef) cs

/-- `pre_process_recipe_text`, `recipe_parser_convert.py:693-747`. -/
def preProcessRecipeText (variants : List Str) (content : Str) : Str :=
  let dots := fun (m : RMatch) => m.grpS 1 ++ §" | " ++ m.grpS 2
  let content := Regex.preProcessDotAssignment.sub dots content
  let content := Regex.preProcessDotSubstitution.sub dots content
  let content := Regex.preProcessEmptyParens.sub (fun m => m.grpS 1) content
  let content := Regex.preProcessQuotedMultiline.sub
    (fun m => m.grpS 1 ++ m.grpS 2 ++ §": |" ++ m.grpS 1 ++ §"  " ++ m.grpS 3 ++ m.grpS 1 ++ §"  " ++ m.grpS 4) content
  let content := Regex.preProcessMinPin.sub (fun _ => §"lower_bound=") content
  let content := Regex.preProcessMaxPin.sub (fun _ => §"upper_bound=") content
  let content := (environGroups 0 [] content).foldl
    (fun content g => replaceOne (environReplacement g.1 g.2).1 (environReplacement g.1 g.2).2 content) content
  preProcessRemoveHashType variants content

end Crm
