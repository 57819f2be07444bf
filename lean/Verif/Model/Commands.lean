import Verif.Model.Bump
import Verif.Model.Messages
import Verif.Model.Sort

/-!
# The commands `crm patch`, `crm convert` and `crm rattler-bulk-build` (`commands/*.py`)

Printing (other than of results) and times are not modelled.
-/

namespace Crm

/-! ## `crm patch` (`commands/patch.py`) -/

/-- The loop over the patches, `patch.py:73-81`: how it ends and the recipe afterwards. -/
def patchLoop (E : Env) : List PyVal → Recipe → Stop × Recipe
  | [], r => (.exit ExitCode.success, r)
  | p :: rest, r => match r.patch E p with
    | (.ok true, r) => patchLoop E rest r
    | (.ok false, r) => (.exit ExitCode.illegalOperation, r)
    | (.error .jsonPatchValidation, r) => (.exit ExitCode.jsonError, r)
    | (.error e, r) => (.raised e, r)

/-- `if not isinstance(contents_json, list)`, `patch.py:70-71`. -/
def patchBlobs : PyVal → List PyVal
  | .list l => l
  | v => [v]

/-- `patch`, `patch.py:21-85`: how the command ends, and the recipe file.  `json` is what reading and decoding the patch
file gives (`.valueError` for `JSONDecodeError`), `file` the recipe file (`none`: cannot be read).  Simplification: the
final write succeeds. -/
def patchCommand (E : Env) (json : Except PyErr PyVal) (file : Option Str) : Stop × Option Str :=
  match json with
  | .error .valueError => (.exit ExitCode.jsonError, file)
  | .error e => (.raised e, file)
  | .ok blob => match file with
    | none => (.exit ExitCode.ioError, file)
    | some content => match Recipe.ofString E content with
      | .error _ => (.exit ExitCode.parseException, file)
      | .ok r => match patchLoop E (patchBlobs blob) r with
        | (.raised e, _) => (.raised e, file)
        | (.exit c, r) => (.exit c, some r.render)

/-! ## `crm convert` (`commands/convert.py`) -/

/-- The three steps of a conversion: `pre_process_recipe_text`, the constructor, `render_to_v1_recipe_format`. -/
structure Converter where
  pre : Str → Except PyErr Str
  parse : Str → Except PyErr Recipe
  convert : Recipe → Except PyErr (Str × MsgTable)

/-- `ConversionResult`, `convert.py:29-53`. -/
structure ConvResult where
  code : Nat
  content : Str := []
  msgs : MsgTable := []
deriving DecidableEq

/-- `_record_unrecoverable_failure`, `convert.py:56-79`, on a result with an empty message table. -/
def convFailure (code : Nat) (msg : Str) : ConvResult := ⟨code, [], MsgTable.add [] .exception msg⟩

/-- `set_return_code`, `convert.py:43-54`. -/
def ConvResult.setReturnCode (r : ConvResult) : ConvResult :=
  if r.msgs.count .error > 0 then { r with code := ExitCode.renderErrors }
  else if r.msgs.count .warning > 0 then { r with code := ExitCode.renderWarnings }
  else r

/-- `convert_file`, `convert.py:84-170`, without the output: `content` is the recipe file (`none`: cannot be read). -/
def convertFile (K : Converter) (path : Str) (content : Option Str) : ConvResult :=
  match content with
  | none => convFailure ExitCode.readException (§"EXCEPTION: Failed to read: " ++ path)
  | some text => match K.pre text with
    | .error _ => convFailure ExitCode.preProcessException
        §"EXCEPTION: An exception occurred while pre-processing the recipe file"
    | .ok text => match K.parse text with
      | .error _ => convFailure ExitCode.parseException §"EXCEPTION: An exception occurred while parsing the recipe file"
      | .ok r =>
        if r.schema ≠ .v0 then convFailure ExitCode.illegalOperation
          §"ILLEGAL OPERATION: Only V0-formatted recipe files can be converted"
        else match K.convert r with
          | .error _ => convFailure ExitCode.renderException
              §"EXCEPTION: An exception occurred while converting to the new recipe file"
          | .ok (out, msgs) => (⟨ExitCode.success, out, msgs⟩ : ConvResult).setReturnCode

/-- The conversion got as far as writing its output, `convert.py:160-168`. -/
def ConvResult.writes (r : ConvResult) : Bool :=
  decide (r.code = ExitCode.success ∨ r.code = ExitCode.renderErrors ∨ r.code = ExitCode.renderWarnings)

/-- `hist.setdefault(x, 0); hist[x] += 1`, `convert.py:225-226`. -/
def histAdd (hist : List (Str × Nat)) (x : Str) : List (Str × Nat) := insertD x ((lookupD x hist).getD 0 + 1) hist

/-- What the loop over the results of a bulk conversion collects, `convert.py:292-306`. -/
structure ConvStats where
  withExcept : List Str := []
  withErrors : List Str := []
  withWarnings : List Str := []
  exceptHist : List (Str × Nat) := []
  errorHist : List (Str × Nat) := []
  warningHist : List (Str × Nat) := []
  totalErrors : Nat := 0
  totalWarnings : Nat := 0
  numSuccess : Nat := 0

/-- `recipes_with_except` and its histogram, `convert.py:309-314`. -/
def ConvStats.addExcept (s : ConvStats) (name : Str) (r : ConvResult) : ConvStats :=
  if r.code = ExitCode.parseException ∨ r.code = ExitCode.readException ∨ r.code = ExitCode.renderException then
    { s with withExcept := s.withExcept ++ [name], exceptHist := (r.msgs.get .exception).foldl histAdd s.exceptHist }
  else s

/-- `_collect_issue_stats` for the errors, `convert.py:214-229,321-322`. -/
def ConvStats.addErrors (s : ConvStats) (name : Str) (r : ConvResult) : ConvStats :=
  { s with errorHist := (r.msgs.get .error).foldl histAdd s.errorHist,
           withErrors := if (r.msgs.get .error).isEmpty then s.withErrors else s.withErrors ++ [name],
           totalErrors := s.totalErrors + (r.msgs.get .error).length }

/-- `_collect_issue_stats` for the warnings, `convert.py:214-229,323-328`. -/
def ConvStats.addWarnings (s : ConvStats) (name : Str) (r : ConvResult) : ConvStats :=
  { s with warningHist := (r.msgs.get .warning).foldl histAdd s.warningHist,
           withWarnings := if (r.msgs.get .warning).isEmpty then s.withWarnings else s.withWarnings ++ [name],
           totalWarnings := s.totalWarnings + (r.msgs.get .warning).length }

/-- The count of successes, `convert.py:325-327`. -/
def ConvStats.addSuccess (s : ConvStats) (r : ConvResult) : ConvStats :=
  if (r.code = ExitCode.success ∨ r.code = ExitCode.renderWarnings) ∧ (r.msgs.get .error).isEmpty then
    { s with numSuccess := s.numSuccess + 1 }
  else s

/-- One round of the loop over the results, `convert.py:308-327`. -/
def ConvStats.step (s : ConvStats) (entry : Str × ConvResult) : ConvStats :=
  (((s.addExcept entry.1 entry.2).addErrors entry.1 entry.2).addWarnings entry.1 entry.2).addSuccess entry.2

/-- The loop over the results, `convert.py:308-327`. -/
def convStats (results : List (Str × ConvResult)) : ConvStats := results.foldl ConvStats.step {}

/-- `num_theoretical_recipe_success`, `convert.py:330`. -/
def ConvStats.theoretical (s : ConvStats) (total : Nat) : Int := total - (s.withExcept.length + s.withErrors.length : Int)

/-- `dict(pairs)`. -/
def dictOf {α : Type} (pairs : List (Str × α)) : List (Str × α) := pairs.foldl (fun d kv => insertD kv.1 kv.2 d) []

/-- A recipe file below the directory given to a bulk command: its directory, its path relative to that directory, its
contents (`none`: cannot be read). -/
structure SrcFile where
  parent : Str
  path : Str
  rel : Str
  content : Option Str

/-- A threshold `num / den`, `0 ≤ num / den ≤ 1` (the option `--min-success-rate`; floats are exact fractions here). -/
structure Threshold where
  num : Nat
  den : Nat

/-- `round(n / total, 2) >= min_success_rate`, with the rounded rate in hundredths.  How ties are rounded is left open:
`round2 n total` is the rounded rate. -/
def meets (round2 : Nat → Nat → Int) (n total : Nat) (t : Threshold) : Bool :=
  decide (round2 n total * t.den ≥ 100 * t.num)

/-- What `convert` leaves: how it ends, the files it writes, and the results and statistics of a bulk operation. -/
structure ConvOutcome where
  stop : Stop
  written : List (Str × Str) := []
  results : List (Str × ConvResult) := []
  stats : ConvStats := {}

/-- `process_recipe`, `convert.py:173-187`: the file written. -/
def bulkWrite (K : Converter) (output : Option Str) (f : SrcFile) : Option (Str × Str) :=
  match output with
  | none => none
  | some o =>
    let r := convertFile K f.path f.content
    if r.writes then some (f.parent ++ §"/" ++ o, r.content) else none

/-- `convert`, `convert.py:232-371`, for the recipe files found.  `Pool.starmap` gives the results in the order of the
files whatever the schedule.  Simplification: writing an output file succeeds. -/
def convertCommand (K : Converter) (round2 : Nat → Nat → Int) (files : List SrcFile) (output : Option Str)
    (minRate : Threshold) : ConvOutcome :=
  match files with
  | [] => ⟨.exit ExitCode.clickUsage, [], [], {}⟩
  | [f] =>
    let r := convertFile K f.path f.content
    let written := match output with | some o => if r.writes then [(o, r.content)] else [] | none => []
    ⟨.exit r.code, written, [], {}⟩
  | files =>
    let results := dictOf (files.map fun f => (f.rel, convertFile K f.path f.content))
    let stats := convStats results
    ⟨.exit (if meets round2 stats.numSuccess files.length minRate then ExitCode.success else ExitCode.missedThreshold),
      files.filterMap (bulkWrite K output), results, stats⟩

/-! ## `crm rattler-bulk-build` (`commands/rattler_bulk_build.py`) -/

/-- `RATTLER_ERROR_REGEX`, `rattler_bulk_build.py:27`: `Error:\s+.*`. -/
def rattlerErrorRx : Rx := Rx.cat [Rx.lit §"Error:", Rx.plus Rx.ws, .star Rx.dot]

/-- `BuildResult`, `rattler_bulk_build.py:32-39`. -/
structure BuildResult where
  code : Nat
  errors : List Str
deriving DecidableEq

/-- `build_recipe`, `rattler_bulk_build.py:42-72`: `run` is the exit code and the error output of the process, `none` if it
takes too long. -/
def buildRecipe (run : Option (Nat × Str)) : BuildResult :=
  match run with
  | none => ⟨ExitCode.timeout, [§"Recipe build dry-run timed out."]⟩
  | some (code, stderr) => ⟨code, rattlerErrorRx.findall stderr⟩

/-- What the loop over the build results collects, `rattler_bulk_build.py:164-182`. -/
structure BuildStats where
  success : Nat := 0
  errors : Nat := 0
  withErrors : List Str := []
  hist : List (Str × Nat) := []

/-- One round of the loop, `rattler_bulk_build.py:171-182`. -/
def BuildStats.step (s : BuildStats) (entry : Str × BuildResult) : BuildStats :=
  let s := if entry.2.code = ExitCode.success then { s with success := s.success + 1 }
    else { s with errors := s.errors + 1, withErrors := s.withErrors ++ [entry.1] }
  { s with hist := entry.2.errors.foldl histAdd s.hist }

/-- The loop over the build results, `rattler_bulk_build.py:164-182`. -/
def buildStats (results : List (Str × BuildResult)) : BuildStats := results.foldl BuildStats.step {}

/-- `a <= b` for texts. -/
def strLe : Str → Str → Bool
  | [], _ => true
  | _ :: _, [] => false
  | a :: as, b :: bs => if a = b then strLe as bs else decide (a.toNat < b.toNat)

/-- Insert a text in a sorted list of texts. -/
def insertStr (s : Str) : List Str → List Str
  | [] => [s]
  | t :: ts => if strLe t s then t :: insertStr s ts else s :: t :: ts

/-- `list.sort()` for texts. -/
def sortStrs : List Str → List Str
  | [] => []
  | s :: ss => insertStr s (sortStrs ss)

/-- An entry of the debug file: the error, and the recipes that have it, `rattler_bulk_build.py:88-103`. -/
structure DebugEntry where
  error : Str
  recipes : List Str
deriving DecidableEq

/-- `create_debug_file`, `rattler_bulk_build.py:75-108`: the entries of the file; each also has the number of its
recipes. -/
def debugEntries (results : List (Str × BuildResult)) (hist : List (Str × Nat)) : List DebugEntry :=
  sortByKey (fun e => -(e.recipes.length : Int))
    (hist.map fun h => ⟨h.1, sortStrs ((results.filter fun r => r.2.errors.contains h.1).map (·.1))⟩)

/-- What `rattler-bulk-build` leaves: how it ends, the results, the statistics, the debug file. -/
structure BuildOutcome where
  stop : Stop
  results : List (Str × BuildResult) := []
  stats : BuildStats := {}
  debug : List DebugEntry := []

/-- `rattler_bulk_build`, `rattler_bulk_build.py:111-213`, for the recipe files found (by relative path) and what the
process does for each. -/
def rattlerCommand (round2 : Nat → Nat → Int) (files : List (Str × Option (Nat × Str))) (minRate : Threshold) :
    BuildOutcome :=
  match files with
  | [] => ⟨.exit ExitCode.noFilesFound, [], {}, []⟩
  | files =>
    let results := dictOf (files.map fun f => (f.1, buildRecipe f.2))
    let stats := buildStats results
    ⟨.exit (if meets round2 stats.success files.length minRate then ExitCode.success else ExitCode.missedThreshold),
      results, stats, debugEntries results stats.hist⟩

end Crm
