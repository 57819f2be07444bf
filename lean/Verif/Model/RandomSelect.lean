import Verif.Model.Utils
import Verif.Model.Commands

/-!
# Fetching recipes at random (`scripts/randomly_select_recipes.py`)

Parameters: what the web answers (`none` is a `requests` exception), the rows that `csv.reader` finds in the list of
repositories, `random.sample`, and the order in which the worker processes of the pool write their files.  The argument
parser is not modelled, nor are failures of the disk.  Files are named by their path below the output directory, as a text.
-/

namespace Crm

/-- `url_options`, `randomly_select_recipes.py:27-30`. -/
def recipeUrls (orgRepo : Str) : List Str :=
  [§"https://raw.githubusercontent.com/" ++ orgRepo ++ §"/main/recipe/meta.yaml",
   §"https://raw.githubusercontent.com/" ++ orgRepo ++ §"/master/recipe/meta.yaml"]

/-- The loop over the addresses, `randomly_select_recipes.py:38-46`: the text to write, if there is one. -/
def firstAnswer (get : Str → Option (Nat × Str)) : List Str → Option Str
  | [] => none
  | u :: us => match get u with
    | some (code, text) => if code = 200 then some text else firstAnswer get us
    | none => firstAnswer get us

/-- `fetch_repo`, `randomly_select_recipes.py:19-47`: the result, and the file that is written with its text. -/
def fetchRepo (get : Str → Option (Nat × Str)) (orgRepo : Str) : Str × Option (Str × Str) :=
  match findSub §"/" orgRepo with
  | none => ([], none)
  | some i =>
    match firstAnswer get (recipeUrls orgRepo) with
    | some text => (orgRepo, some (orgRepo.drop (i + 1) ++ §"/recipe/meta.yaml", text))
    | none => ([], none)

/-- The lines of an open file, `for line in fd`. -/
def fileLines (t : Str) : List Str :=
  if (splitChar '\n' t).getLast? = some [] then (splitChar '\n' t).dropLast else splitChar '\n' t

/-- `excluded_repos`, `randomly_select_recipes.py:72-76`; without the option there is no file. -/
def excludedRepos : Option Str → List Str
  | none => []
  | some t => (fileLines t).map strip

/-- `all_repos`, `randomly_select_recipes.py:79-85`; the set is a list without repetitions. -/
def allRepos (rows : List (List Str)) : List Str := dedupe (rows.filterMap List.head?)

/-- `picked_repos`, `randomly_select_recipes.py:88-91`; `random.sample` raises for a negative number. -/
def pickRepos (sample : List Str → Nat → List Str) (repos excluded : List Str) (n : Int) : Except PyErr (List Str) :=
  let allowed := repos.filter fun r => decide (r ∉ excluded)
  if n ≥ allowed.length then .ok allowed
  else match n with
    | .ofNat k => .ok (dedupe (sample (sortStrs allowed) k))
    | .negSucc _ => .error .valueError

/-- Files below the output directory. -/
abbrev FileTexts := Str → Option Str

/-- `file_path.write_text`, `randomly_select_recipes.py:43`. -/
def writeFile (fs : FileTexts) : Option (Str × Str) → FileTexts
  | none => fs
  | some (path, text) => fun p => if p = path then some text else fs p

/-- What a run prints and leaves behind. -/
structure SelectRun where
  selected : Nat
  requested : Int
  fetched : Nat
  picked : List Str
  files : FileTexts

/-- `main`, `randomly_select_recipes.py:50-108`; `order` gives the order in which the workers write. -/
def selectMain (get : Str → Option (Nat × Str)) (sample : List Str → Nat → List Str) (order : List Str → List Str)
    (rows : List (List Str)) (exclude : Option Str) (n : Int) (fs : FileTexts) : Except PyErr SelectRun := do
  let picked ← pickRepos sample (allRepos rows) (excludedRepos exclude) n
  let results := picked.map fun r => (fetchRepo get r).1
  .ok {
    selected := picked.length
    requested := n
    fetched := ((dedupe results).filter fun r => decide (r ≠ [])).length
    picked := picked
    files := (order picked).foldl (fun fs r => writeFile fs (fetchRepo get r).2) fs }

end Crm
