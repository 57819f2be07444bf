import Verif.Model.Deps
import Verif.Model.Messages

/-!
# Dependency scanners (`scanner/dependency/*.py`)

What the file system, Python's `ast`, `pkgutil`, `sys` and `tomllib` say is a parameter.  Equality of `MatchSpec`
objects is conda's, so equality of dependency data is a parameter `same`; a Python set is a list without two equal
elements, in the order of insertion.
-/

namespace Crm

/-- `ProjectDependency`, `base_dep_scanner.py:14-24`. -/
structure ProjDep where
  data : DepData
  type : DepSection
deriving DecidableEq, Repr, Inhabited

/-- `==` of named tuples. -/
def ProjDep.eq (same : DepData → DepData → Bool) (x y : ProjDep) : Bool := same x.data y.data && x.type == y.type

/-- `new_project_dependency`, `base_dep_scanner.py:26-39`. -/
def newProjDep (M : Str → Option Str) (s : Str) (t : DepSection) : ProjDep := ⟨depDataFromStr M s, t⟩

/-- `x in s`. -/
def depSetHas (same : DepData → DepData → Bool) (s : List ProjDep) (x : ProjDep) : Bool := s.any (ProjDep.eq same x)

/-- `s.add(x)`. -/
def depSetAdd (same : DepData → DepData → Bool) (s : List ProjDep) (x : ProjDep) : List ProjDep :=
  if depSetHas same s x then s else s ++ [x]

/-- `s |= t`. -/
def depSetUnion (same : DepData → DepData → Bool) (s t : List ProjDep) : List ProjDep := t.foldl (depSetAdd same) s

/-- The nodes of a syntax tree, as far as the scanner tells them apart: `ast.Import` with the names of its aliases,
`ast.ImportFrom` with its `module` and `level`, anything else. -/
inductive AstNode where
  | imp (names : List Str)
  | impFrom (module : Option Str) (level : Nat)
  | other
deriving DecidableEq, Repr, Inhabited

/-- A file found by `rglob("*.py")`: `str(file)`, `file.name` and the nodes of `ast.walk` or the text of the exception
that reading or parsing it raises. -/
structure SourceFile where
  path : Str
  name : Str
  parsed : Except Str (List AstNode)

/-- What the scanner asks its surroundings for: `MatchSpec`, equality of its objects, `sys.stdlib_module_names` and the
modules of the project (`_get_project_modules`, `py_dep_scanner.py:80-87`). -/
structure ScanEnv where
  M : Str → Option Str
  same : DepData → DepData → Bool
  std : List Str
  own : List Str

/-- `_IMPORT_TO_DEPENDENCY_NAME_TBL`, `py_dep_scanner.py:24-33`. -/
def importTable : List (Str × Str) :=
  [(§"git", §"gitpython"), (§"yaml", §"pyyaml"), (§"PIL", §"pillow"), (§"sklearn", §"scikit-learn"),
   (§"tables", §"pytables"), (§"cv", §"py-opencv"), (§"cv2", §"py-opencv"), (§"OpenGL", §"pyopengl")]

/-- `_correct_module_to_dependency`, `py_dep_scanner.py:41-51`. -/
def correctModule (m : Str) : Str := (lookupD m importTable).getD m

/-- `_is_likely_test_file`, `py_dep_scanner.py:53-69`. -/
def isTestFile (name : Str) : Bool :=
  startsWith (lowerS name) §"test_" || endsWith (lowerS name) §"_test.py"

/-- `s.split(".")[0]`. -/
def topModule (s : Str) : Str := (splitChar '.' s).headD []

/-- `module_names`, `py_dep_scanner.py:102-111`. -/
def moduleNames : AstNode → List Str
  | .imp names => names.map topModule
  | .impFrom (some m) _ => [topModule m]
  | .impFrom none _ => []
  | .other => []

/-- The inner loop, `py_dep_scanner.py:113-130`. -/
def scanModules (S : ScanEnv) (name : Str) (deps : List ProjDep) (modules : List Str) : List ProjDep :=
  modules.foldl (fun deps m =>
    if m = [] ∨ m ∈ S.std ∨ m ∈ S.own then deps
    else depSetAdd S.same deps (newProjDep S.M (correctModule m) (if isTestFile name then .tests else .run))) deps

/-- `_scan_one_file`, `py_dep_scanner.py:89-132`, once the file is parsed. -/
def scanNodes (S : ScanEnv) (name : Str) (nodes : List AstNode) : List ProjDep :=
  nodes.foldl (fun deps n => scanModules S name deps (moduleNames n)) []

/-- The loop over the files, `py_dep_scanner.py:143-150`. -/
def scanFiles (S : ScanEnv) (files : List SourceFile) (acc : List ProjDep) (tbl : MsgTable) : List ProjDep × MsgTable :=
  files.foldl (fun st f =>
    match f.parsed with
    | .ok nodes => (depSetUnion S.same st.1 (scanNodes S f.name nodes), st.2)
    | .error e => (st.1, st.2.add .exception (§"Exception encountered while scanning `" ++ f.path ++ §"`: " ++ e))) (acc, tbl)

/-- `PythonDependencyScanner.scan`, `py_dep_scanner.py:134-173`. -/
def scanPython (S : ScanEnv) (files : List SourceFile) (tbl : MsgTable) : List ProjDep × MsgTable :=
  let st := scanFiles S files [] tbl
  let kept := st.1.filter fun d => !(d.type == .tests && depSetHas S.same st.1 ⟨d.data, .run⟩)
  (depSetAdd S.same (depSetAdd S.same kept (newProjDep S.M §"python" .host)) (newProjDep S.M §"python" .run), st.2)

/-- How reading the project file ends, `pyproject_dep_scanner.py:43-51`. -/
inductive TomlFile where
  | missing
  | invalid
  | data (kvs : List (Str × PyVal))
deriving Inhabited

/-- `v.get(key, default)`: only a table has `get`. -/
def tableGet (v : PyVal) (key : Str) (dflt : PyVal) : Except PyErr PyVal :=
  match v with
  | .dict kvs => .ok ((lookupD key kvs).getD dflt)
  | _ => .error .attributeError

/-- One of the loops `pyproject_dep_scanner.py:67-68`, `73-74`: a regular expression is applied to each element, which
has to be a text. -/
def addAll (M : Str → Option Str) (same : DepData → DepData → Bool) (t : DepSection) (deps : List ProjDep) :
    List PyVal → Except PyErr (List ProjDep)
  | [] => .ok deps
  | .str s :: rest => addAll M same t (depSetAdd same deps (newProjDep M s t)) rest
  | _ :: _ => .error .typeError

/-- The outer loop `pyproject_dep_scanner.py:72-74`. -/
def addGroups (M : Str → Option Str) (same : DepData → DepData → Bool) (deps : List ProjDep) :
    List PyVal → Except PyErr (List ProjDep)
  | [] => .ok deps
  | v :: rest => do
    let xs ← pyIter v
    let deps ← addAll M same .runConstraints deps xs
    addGroups M same deps rest

/-- `PyProjectDependencyScanner.scan`, `pyproject_dep_scanner.py:37-76`.  The messages are those of the table after the
call, also if it raises. -/
def scanPyProject (M : Str → Option Str) (same : DepData → DepData → Bool) (fn : Str) (f : TomlFile) (tbl : MsgTable) :
    Except PyErr (List ProjDep) × MsgTable :=
  match f with
  | .missing => (.ok [], tbl.add .exception (§"`" ++ fn ++ §"` file not found."))
  | .invalid => (.ok [], tbl.add .exception (§"Could not parse `" ++ fn ++ §"` file."))
  | .data kvs =>
    match lookupD §"project" kvs with
    | none => (.ok [], tbl.add .error (§"`" ++ fn ++ §"` file is missing a `project` section."))
    | some project =>
      (do
        let v ← tableGet project §"dependencies" (.list [])
        let xs ← pyIter v
        let deps ← addAll M same .run [] xs
        let o ← tableGet project §"optional-dependencies" (.dict [])
        match o with
        | .dict groups => addGroups M same deps (groups.map (·.2))
        | _ => .error .attributeError, tbl)

end Crm
