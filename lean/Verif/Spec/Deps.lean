import Verif.Model.Deps
import Verif.Spec.Path

/-! # Specification vocabulary: dependencies -/

namespace Crm.Spec

/-- A dependency as written in a recipe: the section it is in, its path, its text. -/
structure Entry where
  type : DepSection
  path : Str
  text : Str
deriving DecidableEq

/-- Path prefix of a package: nothing for the top-level package `/`. -/
def prefixOf (path : Str) : Str := if path = §"/" then [] else path

/-- The non-blank texts of a list with their indices, without the white space around them. -/
def texts (items : List PyVal) : List (Nat × Str) :=
  items.zipIdx.filterMap fun vi => match vi.1 with
    | .str s => if strip s = [] then none else some (vi.2, strip s)
    | _ => none

/-- The dependencies listed in one section. -/
def sectionEntries (path name : Str) (s : DepSection) (items : List PyVal) : List Entry :=
  (texts items).map fun it => ⟨s, prefixOf path ++ absPath [§"requirements", name, natStr it.1], it.2⟩

/-- The dependencies listed in the `requirements` of a package: those of every section with a known name. -/
def declared (path : Str) (reqs : List (Str × PyVal)) : List Entry :=
  reqs.flatMap fun kv => match strToDepSection kv.1, kv.2 with
    | some s, .list items => sectionEntries path kv.1 s items
    | _, _ => []

/-- The list has texts and empty entries only. -/
def textItems (xs : List PyVal) : Prop := ∀ x ∈ xs, x = .none ∨ ∃ s, x = .str s

/-- Every section with a known name holds a list of texts and empty entries. -/
def textLists (reqs : List (Str × PyVal)) : Prop :=
  ∀ kv ∈ reqs, (strToDepSection kv.1).isSome = true →
    ∃ xs, kv.2 = .list xs ∧ textItems xs

/-- The dependency object for an entry: required by `package`, with the selector written at its path, if any. -/
def depOf (M : Str → Option Str) (r : Recipe) (package : PyVal) (e : Entry) : Dep where
  requiredBy := package
  path := e.path
  type := e.type
  data := depDataFromStr M e.text
  selector := (r.getSelectorAtPath e.path).toOption.map fun s => SelectorParser.mk' s (decide (r.schema = .v1))

/-- The components of the path of a section of dependencies: of the recipe, or of one of its outputs. -/
def SectionPath (comps : List Str) : Prop :=
  ∃ s, (strToDepSection s).isSome = true ∧ '/' ∉ s ∧
    (comps = [§"requirements", s] ∨ ∃ o, isDigitS o = true ∧ comps = [§"outputs", o, §"requirements", s])

/-- The paths that may lead to a dependency: an index in a section. -/
def DependencyPath (path : Str) : Prop :=
  ∃ comps i, SectionPath comps ∧ isDigitS i = true ∧ path = absPath (comps ++ [i])

/-- The entry is for the package `name`. -/
def named (M : Str → Option Str) (name : Str) (v : PyVal) : Prop :=
  ∃ t, v = .str t ∧ strip t ≠ [] ∧ (depDataFromStr M (strip t)).name = name

end Crm.Spec
