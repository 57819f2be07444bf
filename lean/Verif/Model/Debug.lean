import Verif.Model.Reader

/-!
# The text of a recipe object for debugging

`str(recipe)`.  `json.dumps` of the table of variables and the name of the class are parameters.
-/

namespace Crm

/-- `Node.short_str`, `_node.py:96-106`. -/
def Node.shortStr (n : Node) : Str :=
  if n.isComment then §"<Comment: " ++ n.comment ++ §">"
  else if n.isCollectionElement then §"<Collection Node>"
  else pyStr n.value

/-- `SelectorInfo.__str__`, `_selector_info.py:22-29`. -/
def SelInfo.str (i : SelInfo) : Str := i.node.shortStr ++ §" -> " ++ stackToStr i.path

mutual
/-- `RecipeReader._str_tree_recurse`, `recipe_reader.py:523-535`. -/
def strTree (depth : Nat) : Node → List Str
  | ⟨v, c, cs, l, m, k⟩ =>
    ((List.replicate depth §"  ").flatten ++ (if depth = 0 then [] else §"|- ") ++ Node.shortStr ⟨v, c, cs, l, m, k⟩) ::
      strTrees (depth + 1) cs
def strTrees (depth : Nat) : List Node → List Str
  | [] => []
  | n :: ns => strTree depth n ++ strTrees depth ns
end

/-- The lines of one selector, `recipe_reader.py:551-554`. -/
def strSelector (kv : Str × List SelInfo) : Str :=
  §"  " ++ kv.1 ++ §"\n" ++ (kv.2.map fun i => §"  " ++ §"  " ++ §"- " ++ i.str ++ §"\n").flatten

/-- `RecipeReader.__str__`, `recipe_reader.py:537-559`. -/
def Recipe.str (cls : Str) (json : List (Str × PyVal) → Str) (r : Recipe) : Str :=
  §"--------------------\n" ++ cls ++ §" Instance\n" ++
  §"- Schema Version: " ++ (if r.schema = .v1 then §"1" else §"0") ++ §"\n" ++
  §"- Variables Table:\n" ++ json r.vars ++ §"\n" ++
  §"- Selectors Table:\n" ++ (r.selTbl.map strSelector).flatten ++
  §"- is_modified?: " ++ (if r.modified then §"True" else §"False") ++ §"\n" ++
  §"- Tree:\n" ++ joinStr §"\n" (strTree 0 r.root) ++ §"\n" ++
  §"--------------------\n"

end Crm
