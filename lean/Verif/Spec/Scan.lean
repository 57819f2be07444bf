import Verif.Model.Scanner

/-!
# Specification: scanning a project for dependencies (C54, C55)
-/

namespace Crm.Spec

/-- `x` is an element of the set `s`, where `same` is the equality of dependencies. -/
def Has (same : DepData → DepData → Bool) (s : List ProjDep) (x : ProjDep) : Prop :=
  ∃ y ∈ s, same x.data y.data = true ∧ x.type = y.type

/-- The dotted name `full` is the module `m` or one within it. -/
def Within (full m : Str) : Prop := '.' ∉ m ∧ (full = m ∨ ∃ rest, full = m ++ '.' :: rest)

/-- The statement imports the top-level module `m`, or something within it. -/
def Imports : AstNode → Str → Prop
  | .imp names, m => ∃ full ∈ names, Within full m
  | .impFrom (some full) _, m => Within full m
  | .impFrom none _, _ => False
  | .other, _ => False

/-- The package that has the module `m`: most packages have the name of their module. -/
def packageOf (m : Str) : Str :=
  if m = §"git" then §"gitpython" else if m = §"yaml" then §"pyyaml" else if m = §"PIL" then §"pillow"
  else if m = §"sklearn" then §"scikit-learn" else if m = §"tables" then §"pytables"
  else if m = §"cv" ∨ m = §"cv2" then §"py-opencv" else if m = §"OpenGL" then §"pyopengl" else m

/-- A file holds tests if its name begins with `test_` or ends in `_test.py`, in any case. -/
def HoldsTests (name : Str) : Prop :=
  (∃ a b, name = a ++ b ∧ a.map Char.toLower = §"test_") ∨ (∃ a b, name = a ++ b ∧ b.map Char.toLower = §"_test.py")

/-- Some readable file of the project, of the kind that `t` stands for, imports a module that is neither part of Python
nor of the project, and `d` is the package that has it. -/
def Needs (S : ScanEnv) (files : List SourceFile) (d : DepData) (t : DepSection) : Prop :=
  ∃ f ∈ files, ∃ nodes, f.parsed = .ok nodes ∧ ∃ n ∈ nodes, ∃ m, Imports n m ∧ m ≠ [] ∧ m ∉ S.std ∧ m ∉ S.own ∧
    S.same d (depDataFromStr S.M (packageOf m)) = true ∧
    (HoldsTests f.name ∧ t = .tests ∨ ¬ HoldsTests f.name ∧ t = .run)

/-- What is to be reported for a project. -/
def Reported (S : ScanEnv) (files : List SourceFile) (x : ProjDep) : Prop :=
  (S.same x.data (depDataFromStr S.M §"python") = true ∧ (x.type = .host ∨ x.type = .run)) ∨
  (Needs S files x.data x.type ∧ ¬ (x.type = .tests ∧ Needs S files x.data .run))

/-- The messages about the files that cannot be read or parsed. -/
def scanMessages (files : List SourceFile) : List Str :=
  files.filterMap fun f => match f.parsed with
    | .ok _ => none
    | .error e => some (§"Exception encountered while scanning `" ++ f.path ++ §"`: " ++ e)

/-- `project` lists `deps` as its dependencies and `groups` as its optional ones, each possibly by leaving the entry
out. -/
def Lists (project : List (Str × PyVal)) (deps : List Str) (groups : List (Str × List Str)) : Prop :=
  (lookupD §"dependencies" project = some (.list (deps.map .str)) ∨
    lookupD §"dependencies" project = none ∧ deps = []) ∧
  (lookupD §"optional-dependencies" project = some (.dict (groups.map fun g => (g.1, .list (g.2.map .str)))) ∨
    lookupD §"optional-dependencies" project = none ∧ groups = [])

end Crm.Spec
