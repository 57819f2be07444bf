import Verif.Spec.Edit
import Verif.Model.Parser

/-! # Specification vocabulary: JSON patches -/

namespace Crm.Spec

/-- Field of a JSON object. -/
def field (p : PyVal) (k : Str) : Option PyVal := match p with | .dict d => lookupD k d | _ => none

/-- The shape RFC 6902 asks of a patch operation. -/
structure RfcPatch (p : PyVal) : Prop where
  object : ∃ d, p = .dict d ∧ ∀ kv ∈ d, kv.1 = §"op" ∨ kv.1 = §"path" ∨ kv.1 = §"from" ∨ kv.1 = §"value"
  op : ∃ o ∈ [§"add", §"remove", §"replace", §"move", §"copy", §"test"], field p §"op" = some (.str o)
  path : ∃ s, s ≠ [] ∧ field p §"path" = some (.str s)
  /-- these operations need a value -/
  value : ∀ o ∈ [§"add", §"replace", §"test"], field p §"op" = some (.str o) → (field p §"value").isSome
  /-- these operations need a source -/
  source : ∀ o ∈ [§"move", §"copy"], field p §"op" = some (.str o) → (field p §"from").isSome
  sourceText : ∀ v, field p §"from" = some v → ∃ s, v = .str s
  json : field p §"value" ≠ some .sentinel

/-- A well formed operation with this name and path. -/
structure IsPatch (p : PyVal) (name target : Str) : Prop extends RfcPatch p where
  isOp : field p §"op" = some (.str name)
  isPath : field p §"path" = some (.str target)

/-- The recipe after a successful edit: new tree, selector index of that tree, marked as modified. -/
def edited (r : Recipe) (root : Node) : Recipe :=
  { r with root := root, selTbl := rebuildSelectors root, modified := true }

/-- How the nodes of a new value are put into a list: a collection becomes one element, a scalar a list entry. -/
def asElement (v : PyVal) (new : List Node) : List Node :=
  match v with
  | .list _ | .dict _ => [{ listMember := true, children := new }]
  | _ => new.map fun c => { c with listMember := true }

end Crm.Spec

namespace Crm.Spec

/-- The path ends in a list index. -/
def endsInNumber (comps : List Str) : Bool := match comps.getLast? with | some l => isDigitS l | none => false

end Crm.Spec
