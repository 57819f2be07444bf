import Verif.Spec.ConvWhole

/-! # Specification vocabulary: what a conversion leaves alone -/

namespace Crm.Spec

/-- The first child with this name. -/
def firstKey (name : Str) (ks : List Node) : Option Node := ks.find? fun k => decide (k.value = .str name)

/-- The keys that are not in the list `changed` are left as they are, with everything below them. -/
def Stays (changed : List Str) (ks ks' : List Node) : Prop :=
  ∀ x, x ∉ changed → ∀ m, firstKey x ks = some m → firstKey x ks' = some m

/-- The key `g` is still there, and below it `Q` holds. -/
def StaysBelow (g : Str) (Q : List Node → List Node → Prop) (ks ks' : List Node) : Prop :=
  ∀ m, firstKey g ks = some m → ∃ cs, firstKey g ks' = some { m with children := cs } ∧ Q m.children cs

/-- The fields of `build` that a conversion may change. -/
def changedInBuild : List Str :=
  [§"skipt", §"skips", §"Skip", §"skip", §"run_exports", §"ignore_run_exports", §"merge_build_host", §"merge_build_and_host_envs",
   §"no_link", §"always_copy_files", §"entry_points", §"python", §"ignore_prefix_files", §"prefix_detection",
   §"detect_binary_files_with_prefix", §"rpaths", §"dynamic_linking", §"binary_relocation", §"missing_dso_whitelist",
   §"runpath_whitelist", §"script_env", §"script",
   §"pre-link", §"noarch_python", §"features", §"msvc_compiler", §"requires_features", §"provides_features", §"preferred_env",
   §"preferred_env_executable_paths", §"disable_pip", §"pin_depends", §"overlinking_ignore_patterns", §"rpaths_patcher", §"post-link",
   §"pre-unlink"]

/-- The fields of `requirements` that a conversion may change. -/
def changedInRequirements : List Str := [§"run_constrained", §"run_constraints", §"run_exports", §"ignore_run_exports"]

/-- The fields of `about` that a conversion may change. -/
def changedInAbout : List Str :=
  [§"home", §"homepage", §"dev_url", §"repository", §"doc_url", §"documentation", §"license", §"summary", §"prelink_message",
   §"license_family", §"identifiers", §"tags", §"keywords", §"doc_source_url"]

/-- The fields of a source that a conversion may change. -/
def changedInSource : List Str :=
  [§"fn", §"file_name", §"folder", §"target_directory", §"git_url", §"git", §"git_tag", §"tag", §"git_rev", §"rev", §"git_depth", §"depth"]

/-- The element number `i` of a list; comments are not counted. -/
def elementAt (i : Nat) (ks : List Node) : Option Node := ((ks.filter real)[i]?).filter (·.listMember)

/-- All elements are still there, in the same places, and below each of them `Q` holds. -/
def ElementsStay (Q : List Node → List Node → Prop) (ks ks' : List Node) : Prop :=
  ∀ i m, elementAt i ks = some m → ∃ cs, elementAt i ks' = some { m with children := cs } ∧ Q m.children cs

/-- What stays of the key `source`: if it is a list, what stays is said of each element. -/
def SourceStays (E : Env) (ks ks' : List Node) : Prop :=
  ∀ m v, firstKey §"source" ks = some m → keyValue E §"source" m = .ok v →
    ∃ cs, firstKey §"source" ks' = some { m with children := cs } ∧
      match v with
      | .list _ => ElementsStay (Stays changedInSource) m.children cs
      | _ => Stays changedInSource m.children cs

/-- The sections of a package that a conversion may change. -/
def changedSections : List Str := [§"extras", §"extra", §"source", §"build", §"requirements", §"about", §"test", §"tests"]

/-- What stays of a package; `more` are sections that may change as well. -/
structure PackageStays (E : Env) (more : List Str) (ks ks' : List Node) : Prop where
  others : Stays (changedSections ++ more) ks ks'
  build : StaysBelow §"build" (Stays changedInBuild) ks ks'
  requirements : StaysBelow §"requirements" (Stays changedInRequirements) ks ks'
  about : StaysBelow §"about" (Stays changedInAbout) ks ks'
  source : SourceStays E ks ks'

/-- What stays of a recipe: what stays of the package at the top, and what stays of each output; `more` are sections at the top
that may change as well. -/
structure RecipeStays (E : Env) (more : List Str) (ks ks' : List Node) : Prop where
  top : PackageStays E (§"outputs" :: more) ks ks'
  outputs : StaysBelow §"outputs" (ElementsStay (PackageStays E [§"name", §"version", §"package"])) ks ks'

/-- The paths of a package below which nothing is changed; `more` are sections that may change as well. -/
inductive KeptPath (more : List Str) : List Str → Prop
  | «section» {x : Str} {q : List Str} : KeyName x → x ∉ changedSections → x ∉ more → KeptPath more (x :: q)
  | build {x : Str} {q : List Str} : KeyName x → x ∉ changedInBuild → KeptPath more (§"build" :: x :: q)
  | requirements {x : Str} {q : List Str} : KeyName x → x ∉ changedInRequirements → KeptPath more (§"requirements" :: x :: q)
  | about {x : Str} {q : List Str} : KeyName x → x ∉ changedInAbout → KeptPath more (§"about" :: x :: q)

/-- The paths of a recipe below which nothing is changed when the sections are converted; `hasOutputs` says whether the recipe has
the key `outputs`: then `package` is called `recipe` afterwards. -/
inductive KeptInRecipe (hasOutputs : Bool) : List Str → Prop
  | top {q : List Str} : KeptPath (§"outputs" :: if hasOutputs then [§"package", §"recipe"] else []) q → KeptInRecipe hasOutputs q
  | output {q : List Str} (i : Nat) : KeptPath [§"name", §"version", §"package"] q → KeptInRecipe hasOutputs (§"outputs" :: natStr i :: q)

/-- The first half of a conversion, before the sections are changed: selectors are replaced (`sel` are the edits), the variables and the
version of the format become keys at the top, and substitutions get a `$` (`sub` are the edits). -/
inductive TextsUpgraded (E : Env) (r : Recipe) (sel sub : List NodeEdit) : Node → Prop
  | mk {n mid : Node} {order bad : List Str} {ctx : List (Str × PyVal)} {ks ks1 : List Node} {says : List (Category × Str)} :
      FirstOccurrences (selectorsOf r.root) order → SelectorSteps E (linesWith r.root order) sel says →
      (∀ e ∈ sel, e.At r.root) → Independent sel → putNodes sel r.root = { n with children := ks } →
      ContextOf r.vars ctx bad → HeadPut E ctx ks ks1 →
      SubstitutionEdits E { r with root := { n with children := ks1 } } sub →
      mid = putNodes sub { n with children := ks1 } → TextsUpgraded E r sel sub mid

/-- The edit has nothing to do with this path: it is neither made above nor at nor below it, and makes no new line of a name in it. -/
def NodeEdit.Away (t : Node) (comps : List Str) (e : NodeEdit) : Prop :=
  (∀ p, locate t comps = some p → ¬ e.pos <+: p ∧ ¬ p <+: e.pos) ∧ ∀ c ∈ comps, e.new.value = .str c → e.old.value = .str c

end Crm.Spec
