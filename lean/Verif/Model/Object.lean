import Verif.Model.Reader

/-!
# A recipe as a data object: `render_to_object`

The code fills dictionaries and lists that are shared by reference; nothing else holds them, so the model passes them on and
puts a filled value back where it came from.
-/

namespace Crm

/-- `d[key]` for a text `key`; used at `recipe_reader.py:751-779`. -/
def getItem : PyVal → Str → Except PyErr PyVal
  | .dict kvs, k => match lookupD k kvs with
    | some v => .ok v
    | none => .error .keyError
  | _, _ => .error .typeError

/-- `d[key] = v` for a text `key`; used at `recipe_reader.py:751-774`. -/
def setItem : PyVal → Str → PyVal → Except PyErr PyVal
  | .dict kvs, k, v => .ok (.dict (insertD k v kvs))
  | _, _, _ => .error .typeError

/-- `key in d` for a text `key`; used at `recipe_reader.py:767`. -/
def hasItem : PyVal → Str → Except PyErr Bool
  | .dict kvs, k => .ok (lookupD k kvs).isSome
  | .list vs, k => .ok (vs.any fun v => pyEq v (.str k))
  | .str s, k => .ok (inStr k s)
  | _, _ => .error .typeError

/-- `d.setdefault(key, {})`; used at `recipe_reader.py:778` and `recipe_reader.py:798`. -/
def setDefault : PyVal → Str → Except PyErr PyVal
  | .dict kvs, k => .ok (.dict (if (lookupD k kvs).isSome then kvs else insertD k (.dict []) kvs))
  | _, _ => .error .attributeError

/-- `l.append(v)`; used at `recipe_reader.py:762` and `recipe_reader.py:769`. -/
def appendItem : PyVal → PyVal → Except PyErr PyVal
  | .list vs, v => .ok (.list (vs ++ [v]))
  | _, _ => .error .attributeError

/-- A value used as a dictionary key (`recipe_reader.py:735`, `recipe_reader.py:798`).  Simplification: the keys of a dictionary are texts; a
node of another value that has entries below it, or that stands at the top level, is an error here. -/
def asKey : PyVal → Except PyErr Str
  | .str s => .ok s
  | _ => .error .typeError

/-- The value of a child, `recipe_reader.py:742-747`.  `ctx` is given when `replace_variables`. -/
def objectValue (E : Env) (ctx : Option JinjaCtx) (child : Node) : Except PyErr PyVal :=
  match normalizeMultiline child.value child.multiline, ctx with
  | .str s, some c => renderJinjaVars E c s
  | .str s, none => if child.multiline ≠ .no then E.load s else .ok (.str s)
  | v, _ => .ok v

mutual
/-- `_render_object_tree`, `recipe_reader.py:720-779`: the filled `data`. -/
def objectTree (E : Env) (ctx : Option JinjaCtx) (data : PyVal) : Node → Except PyErr PyVal
  | ⟨v, c, cs, l, m, k⟩ =>
    if (⟨v, c, cs, l, m, k⟩ : Node).isComment then .ok data else objectChildren E ctx v data cs
/-- The loop over the children of a node with value `key`, `recipe_reader.py:736-779`. -/
def objectChildren (E : Env) (ctx : Option JinjaCtx) (key data : PyVal) : List Node → Except PyErr PyVal
  | [] => .ok data
  | child :: rest =>
    if child.isComment then objectChildren E ctx key data rest
    else do
      let value ← objectValue E ctx child
      let k ← asKey key
      let data ←
        if child.isEmptyKey then do
          let inner ← getItem data k
          let ck ← asKey child.value
          setItem data k (← setItem inner ck .none)
        else if child.isCollectionElement then do
          let elem ← objectElements E ctx (.dict []) child
          let n ← Recipe.pyLen (← getItem data k)
          let data ← if n = 0 then setItem data k (.list []) else .ok data
          setItem data k (← appendItem (← getItem data k) elem)
        else if child.listMember then do
          let data ← if (← hasItem data k) then .ok data else setItem data k (.list [])
          setItem data k (← appendItem (← getItem data k) value)
        else if child.isLeaf then setItem data k value
        else do
          let data ← setDefault data k
          setItem data k (← objectTree E ctx (← getItem data k) child)
      objectChildren E ctx key data rest
/-- The children of a collection element, `recipe_reader.py:757-759`. -/
def objectElements (E : Env) (ctx : Option JinjaCtx) (data : PyVal) : Node → Except PyErr PyVal
  | ⟨_, _, cs, _, _, _⟩ => objectEach E ctx data cs
/-- The loop over them. -/
def objectEach (E : Env) (ctx : Option JinjaCtx) (data : PyVal) : List Node → Except PyErr PyVal
  | [] => .ok data
  | n :: ns => do objectEach E ctx (← objectTree E ctx data n) ns
end

/-- The loop over the top level, `recipe_reader.py:795-799`. -/
def objectTop (E : Env) (ctx : Option JinjaCtx) (data : PyVal) : List Node → Except PyErr PyVal
  | [] => .ok data
  | child :: rest =>
    if child.isComment then objectTop E ctx data rest
    else do
      let data ← setDefault data (← asKey child.value)
      objectTop E ctx (← objectTree E ctx data child) rest

/-- `render_to_object`, `recipe_reader.py:781-801`. -/
def Recipe.renderToObject (E : Env) (r : Recipe) (replaceVariables : Bool := false) : Except PyErr PyVal :=
  objectTop E (if replaceVariables then some ⟨r.schema, r.vars⟩ else none) (.dict []) r.root.children

end Crm
