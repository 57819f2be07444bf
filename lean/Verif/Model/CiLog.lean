import Verif.Model.Commands

/-!
# Summary of CI logs (`scripts/parse_ci_output.py`)

JSON numbers are added and averaged by parameters, as floating-point arithmetic is not modelled.  `json.loads` is a
parameter, as are the lines of a log once its time stamps are removed and the last component of a path.
-/

namespace Crm

/-- `a + b` and `round(a / n, 2)` for Python numbers. -/
structure NumOps where
  add : PyVal → PyVal → PyVal
  avg : PyVal → Nat → PyVal

/-- `isinstance(value, (int, float))`; a Boolean is an `int`. -/
def isNumber : PyVal → Bool
  | .int _ | .bool _ | .flt _ => true
  | _ => false

/-- `tbl[stats_key].items()`, `parse_ci_output.py:42-43`. -/
def statsOf (tbl : List (Str × PyVal)) : Except PyErr (List (Str × PyVal)) :=
  match lookupD (if (lookupD §"stats" tbl).isSome then §"stats" else §"statistics") tbl with
  | none => .error .keyError
  | some (.dict kvs) => .ok kvs
  | some _ => .error .attributeError

/-- The body of the inner loop, `parse_ci_output.py:45-50`. -/
def statStep (N : NumOps) (st : List (Str × PyVal) × List Str) (kv : Str × PyVal) : List (Str × PyVal) × List Str :=
  if isNumber kv.2 then
    let pct := if startsWith kv.1 §"percent_" then (if kv.1 ∈ st.2 then st.2 else st.2 ++ [kv.1]) else st.2
    let acc := if (lookupD kv.1 st.1).isNone then insertD kv.1 (.int 0) st.1 else st.1
    (insertD kv.1 (N.add ((lookupD kv.1 acc).getD .none) kv.2) acc, pct)
  else st

/-- The loop over the tables, `parse_ci_output.py:40-50`. -/
def statTables (N : NumOps) : List (List (Str × PyVal)) → List (Str × PyVal) × List Str →
    Except PyErr (List (Str × PyVal) × List Str)
  | [], st => .ok st
  | t :: ts, st => do
    let kvs ← statsOf t
    statTables N ts (kvs.foldl (statStep N) st)

/-- `aggregate_stats`, `parse_ci_output.py:25-55`. -/
def aggregateStats (N : NumOps) (stats : List (List (Str × PyVal))) : Except PyErr (List (Str × PyVal)) := do
  let st ← statTables N stats ([], [])
  .ok (st.2.foldl (fun acc k => insertD k (N.avg ((lookupD k acc).getD .none) stats.length) acc) st.1)

/-- `fields_to_pull`, `parse_ci_output.py:71-79`. -/
def pulledFields : List Str :=
  [§"percent_recipe_exceptions", §"percent_recipe_errors", §"percent_recipe_success", §"percent_errors", §"percent_success"]

/-- What is noted for a test: its count and, by title, the fields that were pulled. -/
structure TestEntry where
  count : Nat := 0
  fields : List (Str × List (Str × PyVal)) := []
deriving Repr, Inhabited

/-- The loop over the fields, `parse_ci_output.py:91-94`. -/
def pullFields (title : Str) (stats : List (Str × PyVal)) (e : TestEntry) : TestEntry :=
  pulledFields.foldl (fun e f =>
    match lookupD f stats with
    | none => e
    | some v => { e with fields := insertD title (insertD f v ((lookupD title e.fields).getD [])) e.fields }) e

/-- `result["info"]["directory"]`, `parse_ci_output.py:85`; a directory has to be a text. -/
def directoryOf (result : List (Str × PyVal)) : Except PyErr Str :=
  match lookupD §"info" result with
  | none => .error .keyError
  | some (.dict info) =>
    match lookupD §"directory" info with
    | none => .error .keyError
    | some (.str d) => .ok d
    | some _ => .error .typeError
  | some _ => .error .typeError

/-- `_summarize_tests`, `parse_ci_output.py:83-94`.  Simplification: the statistics have to be a table, `in` on a text
or list is an error. -/
def summarizeTests (base : Str → Str) (title : Str) :
    List (List (Str × PyVal)) → List (Str × TestEntry) → Except PyErr (List (Str × TestEntry))
  | [], data => .ok data
  | r :: rs, data => do
    let dir ← directoryOf r
    let stats ← statsOf r
    let e := (lookupD (base dir) data).getD {}
    summarizeTests base title rs (insertD (base dir) (pullFields title stats { e with count := e.count + 1 }) data)

/-- The result of `generate_summary`. -/
structure CiSummary where
  conversion : List (Str × PyVal)
  dryRun : List (Str × PyVal)
  tests : List (Str × TestEntry)

/-- `dict(sorted(d.items()))`: the keys are distinct texts. -/
def sortedDict {α : Type} [Inhabited α] (d : List (Str × α)) : List (Str × α) :=
  (sortStrs (d.map (·.1))).map fun k => (k, (lookupD k d).getD default)

/-- `generate_summary`, `parse_ci_output.py:58-105`. -/
def generateSummary (N : NumOps) (base : Str → Str) (convert dryRun : List (List (Str × PyVal))) : Except PyErr CiSummary := do
  let data ← summarizeTests base §"recipe_conversion" convert []
  let data ← summarizeTests base §"recipe_dry_run" dryRun data
  let c ← aggregateStats N convert
  let d ← aggregateStats N dryRun
  .ok ⟨c, d, sortedDict data⟩

/-- Where a parsed object of a log belongs, `parse_ci_output.py:133-140`: nowhere, to the conversions (`true`) or to the
dry runs (`false`). -/
def classifyBlob (data : List (Str × PyVal)) : Except PyErr (Option Bool) :=
  match lookupD §"info" data with
  | none => .ok none
  | some (.dict info) =>
    match lookupD §"command_name" info with
    | none => .ok none
    | some v => .ok (some (pyEq v (.str §"convert")))
  | some (.list xs) => if xs.any (pyEq (.str §"command_name")) then .error .typeError else .ok none
  | some (.str s) => if inStr §"command_name" s then .error .typeError else .ok none
  | some _ => .error .typeError

/-- The results found so far: conversions and dry runs. -/
abbrev Blobs := List (List (Str × PyVal)) × List (List (Str × PyVal))

/-- The loop over the lines of a log, `parse_ci_output.py:124-144`; `i` and `start` are `i` and `start_idx`, `lines` all the lines. -/
def readLog (loads : Str → Option (List (Str × PyVal))) (lines : List Str) : Nat → Nat → List Str → Blobs → Except PyErr Blobs
  | _, _, [], acc => .ok acc
  | i, start, l :: rest, acc =>
    let start := if l = §"{" then i else start
    if l = §"}" then
      match loads (joinStr §"\n" ((lines.take (i + 1)).drop start)) with
      | none => readLog loads lines (i + 1) 0 rest acc
      | some data =>
        match classifyBlob data with
        | .error e => .error e
        | .ok none => readLog loads lines (i + 1) start rest acc
        | .ok (some true) => readLog loads lines (i + 1) start rest (acc.1 ++ [data], acc.2)
        | .ok (some false) => readLog loads lines (i + 1) start rest (acc.1, acc.2 ++ [data])
    else readLog loads lines (i + 1) start rest acc

/-- An entry of the log directory: its name and, if it is a file, its lines without time stamps. -/
structure LogFile where
  name : Str
  lines : Option (List Str)

/-- `read_logs`, `parse_ci_output.py:108-145`. -/
def readLogs (loads : Str → Option (List (Str × PyVal))) : List LogFile → Blobs → Except PyErr Blobs
  | [], acc => .ok acc
  | f :: fs, acc =>
    match f.lines with
    | none => readLogs loads fs acc
    | some lines =>
      if f.name = §".DS_Store" then readLogs loads fs acc
      else match readLog loads lines 0 0 lines acc with
        | .error e => .error e
        | .ok acc => readLogs loads fs acc

end Crm
