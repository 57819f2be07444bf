import Verif.Model.Commands
import Verif.Model.Convert

/-!
# `crm convert` as the user sees it: what is printed, what is written, the exit code

`Model/Commands.lean` has the results and statistics, `Model/Convert.lean` the conversion itself; here they are put together.
-/

namespace Crm

/-- The three steps as `convert_file` calls them, `convert.py:110-147`.  `variants` is the order in which the interpreter visits
the set of hash type lines. -/
def crmConverter (E : Env) (W : ConvWorld) (variants : List Str) : Converter where
  pre text := .ok (preProcessRecipeText variants text)
  parse text := do
    let c ← newConv E text
    .ok c.self
  convert r := do
    let v1 ← Recipe.ofString E r.render
    (renderToV1 E W ⟨r, v1, []⟩).1

/-- `category.upper()` (`commands/utils/print.py:42`) of a `MessageCategory` (`types.py:63-71`). -/
def categoryName : Category → Str
  | .exception => §"EXCEPTION"
  | .error => §"ERROR"
  | .warning => §"WARNING"

/-- `print_messages`, `commands/utils/print.py:33-42`: the lines printed. -/
def printMessages (cat : Category) (t : MsgTable) : List Str := (t.get cat).map fun m => §"[" ++ categoryName cat ++ §"]: " ++ m

/-- `os.path.basename`; used at `convert.py:164`. -/
def baseName (p : Str) : Str := (splitChar '/' p).getLastD []

/-- What `convert_file` prints when `print_output`, `convert.py:84-170`, without `debug`: texts for the standard output and for the
standard error output.  `shown` is the text of an exception. -/
def convertPrints (K : Converter) (shown : PyErr → Str) (f : SrcFile) (output : Option Str) : List Str × List Str :=
  match f.content with
  | none => ([], [§"EXCEPTION: Failed to read: " ++ f.path, shown .ioError])
  | some text => match K.pre text with
    | .error e => ([], [§"EXCEPTION: An exception occurred while pre-processing the recipe file", shown e])
    | .ok text => match K.parse text with
      | .error e => ([], [§"EXCEPTION: An exception occurred while parsing the recipe file", shown e])
      | .ok r =>
        if r.schema ≠ .v0 then ([], [§"ILLEGAL OPERATION: Only V0-formatted recipe files can be converted"])
        else match K.convert r with
          | .error e => ([], [§"EXCEPTION: An exception occurred while converting to the new recipe file", shown e])
          | .ok (out, _) => match output with
            | none => ([out], [])
            | some o => ([], if baseName o ≠ §"recipe.yaml" then [§"WARNING: File is not called `recipe.yaml`."] else [])

/-- What the user gives as `PATH`: a file, a directory with the recipe files found below it, or something else. -/
inductive ConvTarget where
  | file (f : SrcFile)
  | directory (found : List SrcFile)
  | other

/-- What a run of `crm convert` leaves: how it ends, the texts printed to both outputs, the files written. -/
structure ConvertRun where
  stop : Stop
  stdout : List Str := []
  stderr : List Str := []
  written : List (Str × Str) := []
deriving DecidableEq

/-- One file, `convert.py:272-277`. -/
def convertOne (K : Converter) (shown : PyErr → Str) (round2 : Nat → Nat → Int) (f : SrcFile) (output : Option Str)
    (minRate : Threshold) : ConvertRun :=
  let c := convertCommand K round2 [f] output minRate
  let msgs := (convertFile K f.path f.content).msgs
  let prints := convertPrints K shown f output
  ⟨c.stop, prints.1, prints.2 ++ printMessages .warning msgs ++ printMessages .error msgs ++ [msgs.totals], c.written⟩

/-- `convert` with `_get_files_list`, `convert.py:190-371`, without `debug`.  `report` is the JSON text of the statistics. -/
def convertMain (K : Converter) (shown : PyErr → Str) (round2 : Nat → Nat → Int) (report : List (Str × ConvResult) → ConvStats → Str)
    (target : ConvTarget) (output : Option Str) (minRate : Threshold) : ConvertRun :=
  match target with
  | .other => ⟨.exit ExitCode.clickUsage, [], [§"Could not identify path as file or directory."], []⟩
  | .directory [] => ⟨.exit ExitCode.clickUsage, [], [§"Could not find any recipe files in this directory."], []⟩
  | .file f | .directory [f] => convertOne K shown round2 f output minRate
  | .directory files =>
    let c := convertCommand K round2 files output minRate
    ⟨c.stop, [report c.results c.stats], [], c.written⟩

end Crm
