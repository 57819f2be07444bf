import Verif.Model.Fetch

/-!
# `crm bump-recipe` (`commands/bump_recipe.py`)

Log messages are not modelled. What the network does is an input: the attempts each source's fetcher meets, and the order
in which the downloads complete.
-/

namespace Crm

/-! ## Reader and parser functions used by the command -/

/-- The expression of `get_variable_references`, `recipe_reader.py:1066-1074`. The name is taken literally: the code puts
it into the expression as it is, which is the same thing for names made of letters, digits and underscores. -/
def varRefRx (schema : Schema) (var : Str) : Rx :=
  Rx.cat [Rx.lit (match schema with | .v0 => §"{{" | .v1 => §"${{"), .star Rx.dot, Rx.lit var, .star Rx.dot, Rx.lit §"}}"]

/-- `get_variable_references`, `recipe_reader.py:1054-1085`. -/
def Recipe.getVariableReferences (r : Recipe) (var : Str) : List Str :=
  if (lookupD var r.vars).isNone then []
  else dedupe (((visitAll r.root).filter fun np =>
    match np.1.value with | .str s => (varRefRx r.schema var).test s | _ => false).map (stackToStr ·.2))

/-- The texts removed by `pre_process_remove_hash_type`, `recipe_parser.py:86-90`. -/
def hashTypeVariants : List Str :=
  [§"{% set hash_type = \"sha256\" %}\n", §"{% set hashtype = \"sha256\" %}\n", §"{% set hash = \"sha256\" %}\n"]

/-- `pre_process_remove_hash_type`, `recipe_parser.py:75-94`. The variants are a Python set: `variants` is the order in
which the loop meets them. -/
def preProcessRemoveHashType (variants : List Str) (content : Str) : Str :=
  Regex.preProcessHashTypeKey.sub (fun _ => §"sha256:")
    (variants.foldl (fun content variant => replaceAll variant [] content) content)

/-! ## The command -/

/-- How a command ends: with an exit code (`ExitCode`) or an exception nobody
catches. -/
inductive Stop where
  | exit (code : Nat)
  | raised (e : PyErr)
deriving DecidableEq

/-- `ExitCode`, `commands/utils/types.py:10-41`. -/
abbrev ExitCode.success : Nat := 0
abbrev ExitCode.clickError : Nat := 1
abbrev ExitCode.clickUsage : Nat := 2
abbrev ExitCode.noFilesFound : Nat := 3
abbrev ExitCode.jsonError : Nat := 4
abbrev ExitCode.ioError : Nat := 5
abbrev ExitCode.missedThreshold : Nat := 42
abbrev ExitCode.timeout : Nat := 43
abbrev ExitCode.renderWarnings : Nat := 100
abbrev ExitCode.renderErrors : Nat := 101
abbrev ExitCode.parseException : Nat := 102
abbrev ExitCode.renderException : Nat := 103
abbrev ExitCode.readException : Nat := 104
abbrev ExitCode.preProcessException : Nat := 105
abbrev ExitCode.illegalOperation : Nat := 106
abbrev ExitCode.patchError : Nat := 107
abbrev ExitCode.httpError : Nat := 108

/-- An exception that is not caught ends the command. -/
def orRaise {α : Type} : Except PyErr α → Except Stop α
  | .ok a => .ok a
  | .error e => .error (.raised e)

/-- A patch with a value, as the command builds them. -/
def valuePatch (op path : Str) (value : PyVal) : PyVal :=
  .dict [(§"op", .str op), (§"path", .str path), (§"value", value)]

/-- `_exit_on_failed_patch`, `bump_recipe.py:84-97`. -/
def exitOnFailedPatch (E : Env) (r : Recipe) (p : PyVal) : Except Stop Recipe :=
  match r.patch E p with
  | (.ok true, r') => .ok r'
  | (.ok false, _) => .error (.exit ExitCode.patchError)
  | (.error e, _) => .error (.raised e)

/-- `_update_build_num`, `bump_recipe.py:122-153`. -/
def updateBuildNum (E : Env) (r : Recipe) (increment : Bool) : Except Stop Recipe :=
  match r.getValue E §"/build" with
  | .error .keyError => .error (.exit ExitCode.illegalOperation)
  | .error e => .error (.raised e)
  | .ok _ => do
    let present ← orRaise (r.containsValue §"/build/number")
    if increment && present then
      match asInt (← orRaise (r.getValue E §"/build/number")) with
      | none => .error (.exit ExitCode.illegalOperation)
      | some n => exitOnFailedPatch E r (valuePatch §"replace" §"/build/number" (.int (n + 1)))
    else exitOnFailedPatch E r (valuePatch §"add" §"/build/number" (.int 0))

/-- `_update_version`, `bump_recipe.py:156-177`. -/
def updateVersion (E : Env) (r : Recipe) (target : Str) : Except Stop Recipe := do
  let old ← orRaise (r.getVariable §"version" (some .none))
  if old ≠ .none then .ok (r.setVariable §"version" (.str target))
  else
    let op := if ← orRaise (r.containsValue §"/package/version") then §"replace" else §"add"
    exitOnFailedPatch E r (valuePatch op §"/package/version" (.str target))

/-- `fetcher.fetch(); return fetcher.get_archive_sha256()`, `bump_recipe.py:197-198`. -/
def fetchSha (sha : Str → Str) (f : HttpFetcher) (a : HttpAttempt) : Except PyErr Str × HttpFetcher :=
  match f.fetch a with
  | (.error e, f) => (.error e, f)
  | (.ok _, f) => (do let _ ← fetchGuard f.fetched; .ok (sha f.archive), f)

/-- The loop of `_get_sha256`, `bump_recipe.py:194-201`, from attempt `k` on with `n` attempts left. Also gives the
factors by which the retry interval is slept. -/
def shaLoop (sha : Str → Str) (attempts : Nat → HttpAttempt) : Nat → Nat → HttpFetcher → Except PyErr Str × List Nat
  | 0, _, _ => (.error .fetchError, [])
  | n + 1, k, f => match fetchSha sha f (attempts k) with
    | (.ok s, _) => (.ok s, [])
    | (.error .fetchError, f) =>
      let (res, slept) := shaLoop sha attempts n (k + 1) f
      (res, k :: slept)
    | (.error e, _) => (.error e, [])

/-- `_get_sha256`, `bump_recipe.py:180-201`; `_RETRY_LIMIT` is 5 and attempts count from 1. -/
def getSha256 (sha : Str → Str) (attempts : Nat → HttpAttempt) : Except PyErr Str × List Nat :=
  shaLoop sha attempts 5 1 {}

/-- `_COMMON_HASH_VAR_NAMES`, `bump_recipe.py:42`. -/
def commonHashVars : List Str := [§"sha256", §"hash", §"hash_val", §"hash_value"]

/-- A future's result: a failed download ends the command, `bump_recipe.py:231-232,308-309`. -/
def orHttpExit : Except PyErr Str → Except Stop Str
  | .ok s => .ok s
  | .error .fetchError => .error (.exit ExitCode.httpError)
  | .error e => .error (.raised e)

/-- What the network does: the attempts met by the fetcher of a source path (first argument) that asks for a URL (second). -/
abbrev Network := Str → Str → Nat → HttpAttempt

/-- The attempts met by the fetchers of a recipe, one for each source path. -/
abbrev Requests := Str → Nat → HttpAttempt

/-- The URL that the fetcher of a source path was built with, `artifact_fetcher.py:92-93`, `http_artifact_fetcher.py:50`. -/
def urlOf (tbl : List (Str × Fetcher)) (path : Str) : Str :=
  match lookupD path tbl with
  | some (.http _ url) => url
  | _ => []

/-- `requests.get(self._archive_url, …)`, `http_artifact_fetcher.py:98`, of each fetcher. -/
def requests (net : Network) (tbl : List (Str × Fetcher)) : Requests := fun path => net path (urlOf tbl path)

/-- `_update_sha256_check_hash_var`, `bump_recipe.py:204-247`: the recipe when the update is done. -/
def checkHashVar (sha : Str → Str) (net : Requests) (r : Recipe) (tbl : List (Str × Fetcher)) :
    Except Stop (Option Recipe) :=
  match commonHashVars.filter (r.listVariables.contains ·), tbl with
  | [hashVar], [(path, .http _ _)] =>
    if path = §"/source" ∧ (r.getVariableReferences hashVar).contains §"/source/sha256" then do
      let s ← orHttpExit (getSha256 sha (net path)).1
      .ok (some (r.setVariable hashVar (.str s)))
    else .ok none
  | _, _ => .ok none

/-- The downloads, in the order in which they complete, `bump_recipe.py:297-309`: the table of hashes. -/
def collectShas (sha : Str → Str) (net : Requests) : List Str → List (Str × Str) → Except Stop (List (Str × Str))
  | [], tbl => .ok tbl
  | path :: rest, tbl => do
    let s ← orHttpExit (getSha256 sha (net path)).1
    collectShas sha net rest (insertD (Recipe.appendToPath path §"/sha256") s tbl)

/-- The edits, `bump_recipe.py:311-315`. -/
def patchShas (E : Env) : List (Str × Str) → Recipe → Except Stop Recipe
  | [], r => .ok r
  | (path, s) :: rest, r => do
    let op := if ← orRaise (r.containsValue path) then §"replace" else §"add"
    patchShas E rest (← exitOnFailedPatch E r (valuePatch op path (.str s)))

/-- Paths of the sources fetched over HTTP, `bump_recipe.py:289-292`. -/
def httpPaths (tbl : List (Str × Fetcher)) : List Str :=
  tbl.filterMap fun kv => match kv.2 with | .http _ _ => some kv.1 | .git .. => none

/-- `_update_sha256`, `bump_recipe.py:264-322`. `order` puts the source paths into the order in which the downloads
complete. -/
def updateSha256 (E : Env) (sha : Str → Str) (net : Network) (order : List Str → List Str) (r : Recipe) :
    Except Stop Recipe := do
  let tbl ← orRaise (fetchersOf E r true)
  if tbl.isEmpty then .ok r
  else match ← checkHashVar sha (requests net tbl) r tbl with
    | some r' => .ok r'
    | none => patchShas E (← collectShas sha (requests net tbl) (order (httpPaths tbl)) []) r

/-- Options of the command, `bump_recipe.py:329-361`. The retry interval only enters through its sign and the times
slept. -/
structure BumpArgs where
  buildNum : Bool := false
  dryRun : Bool := false
  target : Option Str := none
  interval : Int := 1

/-- The surroundings of a run: the recipe file (`none`: cannot be read), the network, the order in which downloads
complete, the order of Python's set of `hash_type` variants, and what writing does: `none` on success, otherwise the
text that is in the file when the exception is raised. -/
structure BumpWorld where
  file : Option Str
  net : Network
  order : List Str → List Str
  variants : List Str := hashTypeVariants
  writeFails : Option Str := none

/-- The edits of the command, `bump_recipe.py:390-402`. -/
def bumpEdits (E : Env) (sha : Str → Str) (W : BumpWorld) (args : BumpArgs) (r : Recipe) : Except Stop Recipe := do
  let r ← updateBuildNum E r args.buildNum
  match args.target with
  | none => .ok r
  | some t =>
    let _ ← orRaise (r.getValue E §"/package/version" (some .none) true)
    let r ← updateVersion E r t
    updateSha256 E sha W.net W.order r

/-- What a run leaves behind: how it ended, the file, and what was printed. -/
structure BumpResult where
  stop : Stop
  file : Option Str
  printed : Option Str := none
deriving DecidableEq

/-- `bump_recipe`, `bump_recipe.py:53-81,329-408`. -/
def bumpRecipe (E : Env) (sha : Str → Str) (W : BumpWorld) (args : BumpArgs) : BumpResult :=
  if args.target = some [] ∨ args.interval ≤ 0 then ⟨.exit ExitCode.clickUsage, W.file, none⟩
  else if !args.buildNum && args.target.isNone then ⟨.exit ExitCode.clickUsage, W.file, none⟩
  else match W.file with
    | none => ⟨.exit ExitCode.ioError, none, none⟩
    | some content =>
      match Recipe.ofString E (preProcessRemoveHashType W.variants content) with
      | .error _ => ⟨.exit ExitCode.parseException, W.file, none⟩
      | .ok r => match bumpEdits E sha W args r with
        | .error stop => ⟨stop, W.file, none⟩
        | .ok r' =>
          if args.dryRun then ⟨.exit ExitCode.success, W.file, some r'.render⟩
          else match W.writeFails with
            | some broken => ⟨.raised .ioError, some broken, none⟩
            | none => ⟨.exit ExitCode.success, some r'.render, none⟩

end Crm
