import Verif.Model.Reader

/-! # Specification vocabulary: how values are written as YAML -/

namespace Crm.Spec

/-- The text holds a Jinja expression. -/
def holdsExpression (s : Str) : Bool :=
  !(Regex.jinjaV0Sub.findall s).isEmpty || Regex.jinjaFunctionMatch.test s

/-- The text begins with a character that means something to YAML, or holds a quote (and no `${{`). -/
def needsQuotes (s : Str) : Bool :=
  (match s with | [] => false | c :: _ => (§"[],&:*?-=!%@\\").contains c) ||
    (!inStr §"${{" s && (s.contains '\'' || s.contains '"'))

/-- How a value is written. -/
def yamlText : PyVal → Str
  | .none => §"null"
  | .bool b => if b then §"true" else §"false"
  | .str s => if !holdsExpression s && needsQuotes s then jsonDumpsStr s else s
  | .sentinel => []
  | v => pyStr v

/-- The entries a value becomes when it is put into a recipe: a text of several lines becomes a block (`|`) with these
lines; everything else becomes what its YAML text is read as. -/
def newNodes (E : Env) (v : PyVal) : Except PyErr (List Node) :=
  let read := fun text => (Recipe.ofString E text).map fun r => r.root.children
  match v with
  | .list _ | .dict _ | .sentinel => read (E.dump v)
  | .str s =>
    if '\n' ∈ s then .ok [{ value := .list ((splitlines s).map .str), multiline := .pipe }] else read (yamlText v)
  | _ => read (yamlText v)

end Crm.Spec
