import Verif.Model.Str

/-! # Specification vocabulary: recipe paths

A recipe path is a list of components; its text puts a slash in front of each of them. -/

namespace Crm.Spec

/-- A usable path component: not empty, no slash. -/
def Component (c : Str) : Prop := c ≠ [] ∧ '/' ∉ c

instance (c : Str) : Decidable (Component c) := by unfold Component; infer_instance

/-- Text of the absolute path with the given components. -/
def absPath (comps : List Str) : Str := comps.flatMap (fun c => '/' :: c)

/-- `s` without one trailing slash. -/
def dropTrailing (s : Str) : Str := if s.getLast? = some '/' then s.dropLast else s

/-- `s` without one leading slash. -/
def dropLeading : Str → Str
  | '/' :: s => s
  | s => s

example : absPath [§"a", §"b", §"0"] = §"/a/b/0" := by decide

end Crm.Spec
