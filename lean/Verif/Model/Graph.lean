import Verif.Model.Deps

/-!
# Recipe graphs (`grapher/recipe_graph.py`, `grapher/recipe_graph_from_disk.py`, `grapher/types.py`)

`networkx.DiGraph` is a set of edges here (its nodes are the ends of the edges, as `add_edge` is the only call made).
Drawing (`RecipeGraph.plot`) is not modelled.
-/

namespace Crm

/-- Edges from a package to the name of a dependency. -/
abbrev Edges := List (PyVal × Str)

/-- `DiGraph.add_edge`: `None` cannot be a node (`networkx` raises `ValueError`); an edge is there at most once. -/
def addEdge (p : PyVal) (d : Str) (g : Edges) : Except PyErr Edges :=
  if p = .none then .error .valueError
  else if g.any fun e => pyEq e.1 p && decide (e.2 = d) then .ok g
  else .ok (g ++ [(p, d)])

/-- `RecipeGraph` with its `PackageStats`, `recipe_graph.py:64-78`, `types.py:56-74`; sets are lists without
repetitions. -/
structure Graph where
  cacheSize : Nat := 0
  nameToSha : List (PyVal × Str) := []
  build : Edges := []
  test : Edges := []
  duplicates : List PyVal := []
  failedToParse : List Str := []
  failedDeps : List (Str × List PyVal) := []
  totalParsed : Nat := 0
  totalRecipes : Nat := 0
  totalPackages : Nat := 0

/-- `set.add`. -/
def setAdd (v : PyVal) (s : List PyVal) : List PyVal := if s.any (pyEq · v) then s else s ++ [v]

/-- One dependency of a package, `recipe_graph.py:100-109`. -/
def Graph.addDep (package : PyVal) (dep : Dep) (g : Graph) : Except PyErr Graph :=
  match dep.type with
  | .build | .host => do .ok { g with build := ← addEdge package dep.data.name g.build }
  | .run | .tests => do .ok { g with test := ← addEdge package dep.data.name g.test }
  | _ => .ok g

/-- The loop over the dependencies of a package, `recipe_graph.py:100-109`. -/
def Graph.addDeps (package : PyVal) : List Dep → Graph → Except PyErr Graph
  | [], g => .ok g
  | d :: ds, g => do addDeps package ds (← g.addDep package d)

/-- One package, `recipe_graph.py:94-109`. -/
def Graph.addPackage (sha : Str) (package : PyVal) (deps : List Dep) (g : Graph) : Except PyErr Graph :=
  if g.nameToSha.any fun e => pyEq e.1 package then .ok { g with duplicates := setAdd package g.duplicates }
  else Graph.addDeps package deps
    { g with nameToSha := g.nameToSha ++ [(package, sha)], totalPackages := g.totalPackages + 1 }

/-- The loop over the packages of a recipe, `recipe_graph.py:94-109`. -/
def Graph.addPackages (sha : Str) : DepMap → Graph → Except PyErr Graph
  | [], g => .ok g
  | (p, ds) :: rest, g => do addPackages sha rest (← g.addPackage sha p ds)

/-- One recipe, `recipe_graph.py:80-109`: `deps` and `names` are what `get_all_dependencies` and
`get_package_names_to_path` give (`none` if they raise). -/
def Graph.addRecipe (sha : Str) (deps : Option DepMap) (names : Option (List PyVal)) (g : Graph) : Except PyErr Graph :=
  match deps with
  | none => .ok { g with failedDeps := insertD sha (names.getD [.str §"Unknown"]) g.failedDeps }
  | some m => Graph.addPackages sha m g

/-- The loop over the recipes, `recipe_graph.py:80-109`. -/
def Graph.addRecipes (E : Env) (M : Str → Option Str) : List (Str × Recipe) → Graph → Except PyErr Graph
  | [], g => .ok g
  | (sha, r) :: rest, g => do
    let g ← g.addRecipe sha (r.getAllDependencies E M).toOption ((r.packageNamesToPath E).toOption.map (·.map (·.1)))
    addRecipes E M rest g

/-- `RecipeGraph.__init__`, `recipe_graph.py:53-109`. -/
def Graph.ofCache (E : Env) (M : Str → Option Str) (cache : List (Str × Recipe)) (failed : List Str) : Except PyErr Graph :=
  Graph.addRecipes E M cache
    { cacheSize := cache.length, failedToParse := failed, totalParsed := cache.length,
      totalRecipes := cache.length + failed.length }

/-- `__bool__`, `recipe_graph.py:111-117`. -/
def Graph.truthy (g : Graph) : Bool := g.cacheSize != 0

/-- `contains_package_name`, `recipe_graph.py:119-126`. -/
def Graph.containsPackage (g : Graph) (name : Str) : Bool := g.nameToSha.any fun e => pyEq e.1 (.str name)

/-- `_read_and_parse_recipe`, `recipe_graph_from_disk.py:21-34`: `content` is `none` if the file cannot be read. -/
def readAndParse (E : Env) (sha256 : Str → Str) (path : Str) (content : Option Str) : Str × Option Recipe :=
  match content with
  | none => (path, none)
  | some text => match Recipe.ofString E text with
    | .ok r => (r.calcSha256 sha256, some r)
    | .error _ => (path, none)

/-- The loop over the results, `recipe_graph_from_disk.py:55-61`. -/
def collectResults : List (Str × Option Recipe) → List (Str × Recipe) → List Str → List (Str × Recipe) × List Str
  | [], cache, failed => (cache, failed)
  | (key, none) :: rest, cache, failed => collectResults rest cache (if failed.contains key then failed else failed ++ [key])
  | (key, some r) :: rest, cache, failed => collectResults rest (insertD key r cache) failed

/-- `RecipeGraphFromDisk.__init__`, `recipe_graph_from_disk.py:36-63`: `files` are the paths and contents of the recipe
files in the order they are found; `Pool.map` gives the results in that order whatever the schedule of the workers. -/
def Graph.fromDisk (E : Env) (M : Str → Option Str) (sha256 : Str → Str) (files : List (Str × Option Str)) :
    Except PyErr Graph :=
  let res := collectResults (files.map fun f => readAndParse E sha256 f.1 f.2) [] []
  Graph.ofCache E M res.1 res.2

end Crm
