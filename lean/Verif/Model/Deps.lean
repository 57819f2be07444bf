import Verif.Model.Parser
import Verif.Model.Selector

/-!
# Dependencies (`parser/dependency.py`, `parser/recipe_reader_deps.py`, `parser/recipe_parser_deps.py`)

conda's `MatchSpec` is a parameter: `M s` is the package name of the specification `s`, `none` if the constructor
rejects `s`.  Theorems quantify over every `M`.
-/

namespace Crm

/-- `DependencySection`, `dependency.py:16-32`. -/
inductive DepSection where
  | build | host | run | runConstraints | runExports | tests
deriving DecidableEq, Repr, Inhabited

/-- `dependency_section_to_str`, `dependency.py:51-89`. -/
def depSectionToStr : DepSection → Schema → Str
  | .build, _ => §"build"
  | .host, _ => §"host"
  | .run, _ => §"run"
  | .runConstraints, .v0 => §"run_constrained"
  | .runConstraints, .v1 => §"run_constraints"
  | .runExports, _ => §"run_exports"
  | .tests, _ => §"requires"

/-- The cases of `str_to_dependency_section`, `dependency.py:92-118`. -/
def depSectionCases : List (Str × DepSection) :=
  [(§"build", .build), (§"host", .host), (§"run", .run), (§"run_constrained", .runConstraints),
   (§"run_constraints", .runConstraints), (§"run_exports", .runExports), (§"requires", .tests)]

/-- `str_to_dependency_section`, `dependency.py:92-118`. -/
def strToDepSection (s : Str) : Option DepSection := lookupD (lowerS (strip s)) depSectionCases

/-- `DependencyData`, `dependency.py:121-157`: a `MatchSpec` (text and name) or a `DependencyVariable`. -/
inductive DepData where
  | spec (text name : Str)
  | var (text : Str)
deriving DecidableEq, Repr, Inhabited

/-- The `name` attribute of both classes. -/
def DepData.name : DepData → Str
  | .spec _ n => n
  | .var t => t

/-- `dependency_data_from_str`, `dependency.py:161-174`. -/
def depDataFromStr (M : Str → Option Str) (s : Str) : DepData :=
  if Regex.jinjaV0Sub.test s || Regex.jinjaV1Sub.test s then .var s
  else match M s with
    | some n => .spec s n
    | none => .var s

/-- `dependency_data_render_as_str`, `dependency.py:177-188`. -/
def DepData.render : DepData → Str
  | .spec t _ => t
  | .var t => t

/-- `Dependency`, `dependency.py:191-206`. -/
structure Dep where
  requiredBy : PyVal
  path : Str
  type : DepSection
  data : DepData
  selector : Option SelectorParser := none

/-- `DependencyMap`, `dependency.py:209`: package name to dependencies. -/
abbrev DepMap := List (PyVal × List Dep)

/-- Values that can be dictionary keys. -/
def PyVal.hashable : PyVal → Bool
  | .list _ | .dict _ => false
  | _ => true

/-- `iter(v)`. -/
def pyIter : PyVal → Except PyErr (List PyVal)
  | .list xs => .ok xs
  | .dict kvs => .ok (kvs.map fun kv => .str kv.1)
  | .str s => .ok (s.map fun c => .str [c])
  | _ => .error .typeError

/-- `_sanitize_dep`, `recipe_reader_deps.py:43-59`; what is neither text nor `None` has no `strip`. -/
def sanitizeDep : PyVal → Except PyErr (Option Str)
  | .none => .ok none
  | .str s => .ok (if strip s = [] then none else some (strip s))
  | _ => .error .attributeError

/-- Dependencies of the root package as dependencies of another one, `recipe_reader_deps.py:39-41`. -/
def inherit (package : PyVal) (rootDeps : List Dep) : List Dep :=
  rootDeps.map fun d => { d with requiredBy := package }

/-- `_add_top_level_dependencies`, `recipe_reader_deps.py:27-41`. -/
def addTopLevelDeps (rootPackage : PyVal) (m : DepMap) : DepMap :=
  if m.length ≤ 1 then m
  else match m.find? fun e => pyEq e.1 rootPackage with
    | none => m
    | some rootEntry => m.map fun e => if pyEq e.1 rootPackage then e else (e.1, e.2 ++ inherit e.1 rootEntry.2)

/-- Path of the name of the top-level package, `recipe_reader_deps.py:83-85`. -/
def rootNamePath (r : Recipe) : Str :=
  if r.isMultiOutput && decide (r.schema = .v1) then §"/recipe/name" else §"/package/name"

/-- Path of the name below an output, `recipe_reader_deps.py:86-88`. -/
def outputNamePath (r : Recipe) : Str :=
  if r.isMultiOutput && decide (r.schema = .v1) then §"/package/name" else §"/name"

namespace Recipe

/-- The name of the package at a package path, `recipe_reader_deps.py:90-96`; `KeyError` is raised anew as `KeyError`. -/
def packageName (E : Env) (r : Recipe) (path : Str) : Except PyErr PyVal :=
  r.getValue E (if path = §"/" then rootNamePath r else appendToPath path (outputNamePath r)) none true

/-- The loop of `get_package_names_to_path`, `recipe_reader_deps.py:89-101`. -/
def packageNamesGo (E : Env) (r : Recipe) : List Str → List (PyVal × Str) → Except PyErr (List (PyVal × Str))
  | [], tbl => .ok tbl
  | path :: rest, tbl => do
    let name ← r.packageName E path
    if !name.hashable then .error .typeError
    else if tbl.any (fun e => pyEq e.1 name) then .error .valueError
    else packageNamesGo E r rest (tbl ++ [(name, path)])

/-- `get_package_names_to_path`, `recipe_reader_deps.py:73-102`. -/
def packageNamesToPath (E : Env) (r : Recipe) : Except PyErr (List (PyVal × Str)) := do
  let paths ← r.getPackagePaths E
  packageNamesGo E r paths []

/-- `_fetch_optional_selector`, `recipe_reader_deps.py:61-71`. -/
def fetchOptionalSelector (r : Recipe) (path : Str) : Except PyErr (Option SelectorParser) :=
  match r.getSelectorAtPath path with
  | .ok s => .ok (some (SelectorParser.mk' s (decide (r.schema = .v1))))
  | .error .keyError => .ok none
  | .error e => .error e

/-- Path of the `i`-th entry of a section, `recipe_reader_deps.py:138`. -/
def depEntryPath (path sectionStr : Str) (i : Nat) : Str :=
  appendToPath path (§"/requirements/" ++ sectionStr ++ §"/" ++ natStr i)

/-- The loop over the entries of one section, `recipe_reader_deps.py:132-147`; `i` is the index of the first one. -/
def sectionDeps (M : Str → Option Str) (r : Recipe) (package : PyVal) (path sectionStr : Str) (section_ : DepSection) :
    Nat → List PyVal → Except PyErr (List Dep)
  | _, [] => .ok []
  | i, dep :: rest => do
    let clean ← sanitizeDep dep
    match clean with
    | none => sectionDeps M r package path sectionStr section_ (i + 1) rest
    | some s => do
      let p := depEntryPath path sectionStr i
      let sel ← r.fetchOptionalSelector p
      let ds ← sectionDeps M r package path sectionStr section_ (i + 1) rest
      .ok (⟨package, p, section_, depDataFromStr M s, sel⟩ :: ds)

/-- The loop over the sections of one package, `recipe_reader_deps.py:126-147`. -/
def packageDeps (M : Str → Option Str) (r : Recipe) (package : PyVal) (path : Str) :
    List (Str × PyVal) → Except PyErr (List Dep)
  | [] => .ok []
  | (sectionStr, deps) :: rest =>
    match strToDepSection sectionStr with
    | none => packageDeps M r package path rest
    | some s => do
      let items ← pyIter deps
      let here ← sectionDeps M r package path sectionStr s 0 items
      let more ← packageDeps M r package path rest
      .ok (here ++ more)

/-- `v.items()`. -/
def pyItems : PyVal → Except PyErr (List (Str × PyVal))
  | .dict kvs => .ok kvs
  | _ => .error .attributeError

/-- The loop over the packages, `recipe_reader_deps.py:117-147`. -/
def allDepsGo (E : Env) (M : Str → Option Str) (r : Recipe) : List (PyVal × Str) → Except PyErr DepMap
  | [] => .ok []
  | (package, path) :: rest => do
    let reqs ← r.getValue E (appendToPath path §"/requirements") (some (.dict [])) true
    let items ← pyItems reqs
    let ds ← r.packageDeps M package path items
    let m ← allDepsGo E M r rest
    .ok ((package, ds) :: m)

/-- `get_all_dependencies`, `recipe_reader_deps.py:104-152`. -/
def getAllDependencies (E : Env) (M : Str → Option Str) (r : Recipe) : Except PyErr DepMap := do
  let tbl ← r.packageNamesToPath E
  let m ← allDepsGo E M r tbl
  let rootPackage := tbl.foldl (fun acc e => if e.2 = §"/" then e.1 else acc) (.str [])
  .ok (addTopLevelDeps rootPackage m)

/-- The sections scanned by `get_dependency_paths`, `recipe_reader.py:992-997`. -/
def reqSections (schema : Schema) : List Str :=
  [.build, .host, .run, .runConstraints].map (depSectionToStr · schema)

/-- `_scan_requirements`, `recipe_reader.py:1000-1008`. -/
def scanRequirements (E : Env) (r : Recipe) (pre : Str) : List Str → Except PyErr (List Str)
  | [] => .ok []
  | s :: rest => do
    let sectionPath := pre ++ §"/requirements/" ++ s
    let deps ← r.getValue E sectionPath (some (.list []))
    let n ← pyLen deps
    let more ← scanRequirements E r pre rest
    .ok ((List.range n).map (fun i => sectionPath ++ §"/" ++ natStr i) ++ more)

/-- The loop over the outputs, `recipe_reader.py:1014-1016`. -/
def scanOutputs (E : Env) (r : Recipe) : List Nat → Except PyErr (List Str)
  | [] => .ok []
  | i :: rest => do
    let here ← r.scanRequirements E (§"/outputs/" ++ natStr i) (reqSections r.schema)
    let more ← scanOutputs E r rest
    .ok (here ++ more)

/-- `get_dependency_paths`, `recipe_reader.py:985-1018`. -/
def getDependencyPaths (E : Env) (r : Recipe) : Except PyErr (List Str) := do
  let top ← r.scanRequirements E [] (reqSections r.schema)
  let outputs ← r.getValue E §"/outputs" (some (.list []))
  let n ← pyLen outputs
  let more ← r.scanOutputs E (List.range n)
  .ok (top ++ more)

/-- `get_recipe_name`, `recipe_reader.py:918-932`; `optional_str` (`utils/typing.py`) turns everything but `None` into
a text. -/
def getRecipeName (E : Env) (r : Recipe) : Except PyErr (Option Str) := do
  let v ← r.getValue E (rootNamePath r) (some .none) true
  .ok (if v = .none then none else some (pyStr v))

end Recipe

/-! ## Editing -/

/-- `DependencyConflictMode`, `dependency.py:35-48`. -/
inductive DepMode where
  | replace | ignore | useBoth | exactPosition
deriving DecidableEq, Repr

/-- `_is_valid_dependency_path`, `recipe_parser_deps.py:34-65`. -/
def isValidDependencyPath (path : Str) : Bool :=
  match splitChar '/' path with
  | [a, b, c, d] => decide (a = []) && decide (b = §"requirements") && (strToDepSection c).isSome && isDigitS d
  | [a, b, c, d, e, f] =>
    decide (a = []) && decide (b = §"outputs") && isDigitS c && decide (d = §"requirements")
      && (strToDepSection e).isSome && isDigitS f
  | _ => false

/-- `s.rsplit("/", 1)[0]`. -/
def rsplitSlash (s : Str) : Str :=
  if s.contains '/' then ((s.reverse.dropWhile (· != '/')).drop 1).reverse else s

/-- `_init_patch_path`, `recipe_parser_deps.py:67-84`. -/
def initPatchPath (dep : Dep) (mode : DepMode) (base : Str) (isNew : Bool) : Str :=
  if mode = .exactPosition then dep.path
  else if isNew then base
  else base ++ §"/-"

/-- First entry, counted from `i`, with the given package name, `recipe_parser_deps.py:178-185`. -/
def firstNamed (M : Str → Option Str) (name : Str) : Nat → List PyVal → Except PyErr (Option Nat)
  | _, [] => .ok none
  | i, v :: rest => do
    let clean ← sanitizeDep v
    match clean with
    | none => firstNamed M name (i + 1) rest
    | some s => if (depDataFromStr M s).name = name then .ok (some i) else firstNamed M name (i + 1) rest

namespace Recipe

/-- `_calc_is_new_section`, `recipe_parser_deps.py:86-100`. -/
def calcIsNewSection (r : Recipe) (base : Str) : Except PyErr (Option Bool) := do
  if !(← r.containsValue base) then
    if !(← r.containsValue (rsplitSlash base)) then .ok none else .ok (some true)
  else .ok (some false)

/-- The selector to be preserved, `recipe_parser_deps.py:116-122`. -/
def preservedSelector (r : Recipe) (op path : Str) (mode : SelMode) : Except PyErr (Option Str) :=
  if op = §"replace" ∧ mode ≠ .replace then
    match r.getSelectorAtPath path with
    | .ok s => .ok (some s)
    | .error .keyError => .ok none
    | .error e => .error e
  else .ok none

/-- `_patch_add_dep`, `recipe_parser_deps.py:102-134`. -/
def patchAddDep (E : Env) (r : Recipe) (dep : Dep) (op path : Str) (mode : SelMode) (isNew : Bool) : Outcome Bool :=
  match r.preservedSelector op path mode with
  | .error e => (.error e, r)
  | .ok preserve =>
    let value : PyVal := .str dep.data.render
    let value := if isNew then .list [value] else value
    match r.patch E (.dict [(§"op", .str op), (§"path", .str path), (§"value", value)]) with
    | (.error e, r) => (.error e, r)
    | (.ok b, r) => match preserve with
      | none => (.ok b, r)
      | some s => match r.addSelector path s with
        | (.ok _, r) => (.ok b, r)
        | (.error e, r) => (.error e, r)

/-- Where the selector of a new dependency goes, `recipe_parser_deps.py:199-204`. -/
def depSelectorPath (E : Env) (r : Recipe) (base path : Str) : Except PyErr Str :=
  if endsWith path §"/-" then do
    let v ← r.getValue E base
    let n ← pyLen v
    .ok (path.dropLast ++ intStr (n - 1))
  else .ok path

/-- The last part of `add_dependency`, `recipe_parser_deps.py:196-206`. -/
def applyAddDep (E : Env) (r : Recipe) (dep : Dep) (op path base : Str) (mode : SelMode) (isNew : Bool) : Outcome Bool :=
  match r.patchAddDep E dep op path mode isNew with
  | (.error e, r) => (.error e, r)
  | (.ok false, r) => (.ok false, r)
  | (.ok true, r) => match dep.selector with
    | none => (.ok true, r)
    | some s => match r.depSelectorPath E base path with
      | .error e => (.error e, r)
      | .ok p => match r.addSelector p s.render mode with
        | (.ok _, r) => (.ok true, r)
        | (.error e, r) => (.error e, r)

/-- The duplicate check of `add_dependency`, `recipe_parser_deps.py:174-184`. -/
def findDuplicate (M : Str → Option Str) (dep : Dep) (mode : DepMode) (cur : PyVal) : Except PyErr (Option Nat) :=
  if mode = .useBoth ∨ mode = .exactPosition then .ok none
  else do
    let items ← pyIter cur
    firstNamed M dep.data.name 0 items

/-- `add_dependency` from the computation of the section's path on, `recipe_parser_deps.py:164-206`. -/
def addDependencyAt (E : Env) (M : Str → Option Str) (r : Recipe) (dep : Dep) (mode : DepMode) (selMode : SelMode)
    (base : Str) : Outcome Bool :=
  match r.calcIsNewSection base with
  | .error e => (.error e, r)
  | .ok none => (.ok false, r)
  | .ok (some isNew) =>
    match r.getValue E base (some (.list [])) true with
    | .error e => (.error e, r)
    | .ok cur => match findDuplicate M dep mode cur with
      | .error e => (.error e, r)
      | .ok none =>
        let op := if mode = .exactPosition then §"replace" else §"add"
        r.applyAddDep E dep op (initPatchPath dep mode base isNew) base selMode isNew
      | .ok (some i) =>
        if mode = .ignore then (.ok false, r)
        else r.applyAddDep E dep §"replace" (base ++ §"/" ++ natStr i) base selMode isNew

/-- `add_dependency`, `recipe_parser_deps.py:136-206`. -/
def addDependency (E : Env) (M : Str → Option Str) (r : Recipe) (dep : Dep) (mode : DepMode := .replace)
    (selMode : SelMode := .replace) : Outcome Bool :=
  if !isValidDependencyPath dep.path then (.ok false, r)
  else r.addDependencyAt E M dep mode selMode (rsplitSlash dep.path)

/-- `remove_dependency`, `recipe_parser_deps.py:208-216`. -/
def removeDependency (E : Env) (r : Recipe) (dep : Dep) : Outcome Bool :=
  r.patch E (.dict [(§"op", .str §"remove"), (§"path", .str dep.path)])

end Recipe

example : isValidDependencyPath §"/requirements/host/0" = true ∧ isValidDependencyPath §"/requirements/host" = false ∧
    isValidDependencyPath §"/outputs/1/requirements/run/2" = true ∧ rsplitSlash §"/a/b/0" = §"/a/b" := by decide

end Crm
