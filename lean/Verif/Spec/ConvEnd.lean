import Verif.Spec.Sort
import Verif.Spec.Tree
import Verif.Spec.Path
import Verif.Props.Comments

/-! # Specification vocabulary: the end of a conversion -/

namespace Crm.Spec

/-- The order of the top-level sections of a recipe. -/
def topSections : List Str :=
  [§"schema_version", §"context", §"package", §"recipe", §"source", §"files", §"build", §"requirements", §"outputs", §"test",
   §"tests", §"about", §"extra"]

/-- A table made from a list of entries: its keys in the order in which they first appear, each with what was last
entered for it. -/
def TableOf {α : Type} (entries tbl : List (Str × α)) : Prop :=
  FirstOccurrences (entries.map (·.1)) (tbl.map (·.1)) ∧
    ∀ e ∈ tbl, (entries.reverse.find? fun x => x.1 = e.1) = some e

/-- The line is gone: the path leads nowhere, and no line of this path has a comment. -/
def lineGone (root : Node) (comps : List Str) : Bool :=
  (lookup root comps).isNone && (noted root).all fun x => x.1 ≠ absPath comps

end Crm.Spec
