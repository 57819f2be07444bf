import Verif.Model.Reader

/-!
# Editing recipes (`parser/recipe_parser.py`)

A mutating method returns its outcome together with the state it leaves behind (`Outcome`), so an exception raised
after a partial mutation is visible.
-/

namespace Crm

/-- Result of a mutating call: what it returns or raises, and the recipe afterwards. -/
abbrev Outcome (α : Type) := Except PyErr α × Recipe

/-- `_generate_subtree`, `recipe_reader.py:200-227`. -/
def generateSubtree (E : Env) (v : PyVal) : Except PyErr (List Node) :=
  match v with
  | .str s =>
    if s.contains '\n' then .ok [{ value := .list ((splitlines s).map .str), multiline := .pipe }]
    else (Recipe.ofString E (pyStr (stringifyYaml v))).map (·.root.children)
  | _ =>
    if !v.isPrimitive then (Recipe.ofString E (E.dump v)).map (·.root.children)
    else (Recipe.ofString E (pyStr (stringifyYaml v))).map (·.root.children)

/-- `_is_valid_patch_node`, `recipe_parser.py:257-286`; the index is the virtual one. -/
def isValidPatchNode (node : Option Node) (virt : Option Nat) : Bool :=
  match node with
  | none => false
  | some n =>
    if !n.listMember && !n.key && n.isLeaf then false
    else match virt with
      | none => true
      | some v => match (virtToPhys n.children)[v]? with
        | none => false
        | some phys => match n.children[phys]? with
          | none => true
          | some c => c.listMember

/-- Result of `_patch_add_find_target`. -/
structure AddTarget where
  node : Option Pos
  virt : Option Nat
  phys : Option Nat
  create : Str
  append : Bool
deriving DecidableEq

/-- `_patch_add_find_target`, `recipe_parser.py:288-319`. -/
def patchAddFindTarget (root : Node) (path : List Str) : Except PyErr AddTarget :=
  match path.getLast? with
  | none => .ok ⟨none, none, none, [], false⟩
  | some last => do
    let append := decide (last = §"-")
    let path := if append then path.dropLast else path
    let (node, virt, phys) ← traverseWithIndex root path
    if node.isNone && !append then
      let create := path.getLast?.getD []
      let (node, virt, phys) ← traverseWithIndex root path.dropLast
      .ok ⟨node, virt, phys, create, append⟩
    else .ok ⟨node, virt, phys, [], append⟩

/-- Insert `xs` in front of position `i` (`l[i:i] = xs`). -/
def insertAll {α : Type} (l : List α) (i : Nat) (xs : List α) : List α := l.take i ++ xs ++ l.drop i

/-- Mark new children as list members, `recipe_parser.py:346-352` and `415-422`. -/
def asListMembers (v : PyVal) (new : List Node) : List Node :=
  if !v.isPrimitive then [{ listMember := true, children := new }]
  else new.map fun c => { c with listMember := true }

/-- `_patch_add`, `recipe_parser.py:321-364`. -/
def patchAdd (E : Env) (root : Node) (path : List Str) (value : PyVal) : Except PyErr (Option Node) := do
  let t ← patchAddFindTarget root path
  match t.node with
  | none => .ok none
  | some pos =>
    if !isValidPatchNode (nodeAt root pos) t.virt then .ok none
    else
      let value := if t.create ≠ [] then .dict [(t.create, value)] else value
      let new ← generateSubtree E value
      let new := if t.append || t.phys.isSome then asListMembers value new else new
      match t.phys with
      | some i => .ok (some (updateAt (fun n => { n with children := insertAll n.children i new }) pos root))
      | none =>
        if t.append || t.create ≠ [] then
          .ok (some (updateAt (fun n => { n with children := n.children ++ new }) pos root))
        else .ok (some (updateAt (fun n => { n with children := new }) pos root))

/-- `_patch_remove`, `recipe_parser.py:366-399`; `none` is `False`. -/
def patchRemove (root : Node) (path : List Str) : Option Node :=
  match path.getLast? with
  | none => none
  | some last =>
    let nodeIdx : Option Nat := if isDigitS last then some (natOfStr last) else none
    match (traverse root path).bind (nodeAt root) with
    | none => none
    | some nodeToRm =>
      if !isValidPatchNode (some nodeToRm) none then none
      else match traverse root path.dropLast with
        | none => none
        | some pos => match nodeAt root pos with
          | none => none
          | some node =>
            if !isValidPatchNode (some node) nodeIdx then none
            else match nodeIdx with
              | some v => match (virtToPhys node.children)[v]? with
                | none => none
                | some phys => some (updateAt (fun n => { n with children := n.children.eraseIdx phys }) pos root)
              | none => match node.children.findIdx? (fun c => c.pyEq nodeToRm) with
                | none => none
                | some i => some (updateAt (fun n => { n with children := n.children.eraseIdx i }) pos root)

/-- `_patch_replace`, `recipe_parser.py:401-431`. -/
def patchReplace (E : Env) (root : Node) (path : List Str) (value : PyVal) : Except PyErr (Option Node) := do
  let (node, virt, phys) ← traverseWithIndex root path
  match node with
  | none => .ok none
  | some pos =>
    if !isValidPatchNode (nodeAt root pos) virt then .ok none
    else
      let new ← generateSubtree E value
      match phys with
      | some i =>
        let new := asListMembers value new
        .ok (some (updateAt (fun n =>
          { n with children := (insertAll n.children i new).eraseIdx (i + new.length) }) pos root))
      | none => .ok (some (updateAt (fun n => { n with children := new }) pos root))

/-- `_patch_move`, `recipe_parser.py:433-456`: outcome and tree afterwards. -/
def patchMove (E : Env) (root : Node) (path : List Str) (src : Str) : Except PyErr Bool × Node :=
  match getValueIn E root src with
  | .error .keyError => (.ok false, root)
  | .error e => (.error e, root)
  | .ok original =>
    match patchAddFindTarget root path with
    | .error e => (.error e, root)
    | .ok t =>
      if !isValidPatchNode (t.node.bind (nodeAt root)) t.virt then (.ok false, root)
      else match strToStack src with
        | .error e => (.error e, root)
        | .ok srcStack => match patchRemove root srcStack with
          | none => (.ok false, root)
          | some root' => match patchAdd E root' path original with
            | .error e => (.error e, root')
            | .ok none => (.ok false, root')
            | .ok (some root'') => (.ok true, root'')

/-- `_patch_copy`, `recipe_parser.py:458-476`. -/
def patchCopy (E : Env) (root : Node) (path : List Str) (src : Str) : Except PyErr (Option Node) :=
  match getValueIn E root src with
  | .error .keyError => .ok none
  | .error e => .error e
  | .ok original => patchAdd E root path original

/-- `_patch_test`, `recipe_parser.py:478-490`. -/
def patchTest (E : Env) (root : Node) (path : Str) (value : PyVal) : Except PyErr Bool :=
  match getValueIn E root path with
  | .ok v => .ok (pyEq v value)
  | .error .keyError => .ok false
  | .error e => .error e

/-- Names of the patch operations. -/
def patchOps : List Str := [§"add", §"remove", §"replace", §"move", §"copy", §"test"]

/-- `schema_validate(patch, JSON_PATCH_SCHEMA)`, `parser/types.py:35-101`. -/
def schemaValid (patch : PyVal) : Bool :=
  match patch with
  | .dict d =>
    let isStr (v : Option PyVal) (minLen : Nat) : Bool :=
      match v with | none => true | some (.str s) => decide (minLen ≤ s.length) | some _ => false
    let opIs (op : Str) : Bool := match lookupD §"op" d with | none => true | some v => decide (v = .str op)
    -- `properties`
    (match lookupD §"op" d with | none => true | some v => patchOps.any fun o => decide (v = .str o))
    && isStr (lookupD §"path" d) 1
    && isStr (lookupD §"from" d) 0
    && (match lookupD §"value" d with | some .sentinel => false | _ => true)
    -- `required`
    && (lookupD §"op" d).isSome && (lookupD §"path" d).isSome
    -- `allOf`
    && (!opIs §"add" || (lookupD §"value" d).isSome)
    && (!opIs §"replace" || (lookupD §"value" d).isSome)
    && (!opIs §"test" || (lookupD §"value" d).isSome)
    && (!opIs §"move" || (lookupD §"from" d).isSome)
    && (!opIs §"copy" || (lookupD §"from" d).isSome)
    -- `additionalProperties`
    && d.all (fun kv => [§"op", §"path", §"from", §"value"].contains kv.1)
  | _ => false

/-- String stored under a key of a (validated) patch. -/
def patchStr (d : List (Str × PyVal)) (k : Str) : Str :=
  match lookupD k d with | some (.str s) => s | _ => []

/-- Outcome of an operation that changes the tree only when it returns `True`. -/
def opOutcome (root : Node) : Except PyErr (Option Node) → Except PyErr Bool × Node
  | .error e => (.error e, root)
  | .ok none => (.ok false, root)
  | .ok (some root') => (.ok true, root')

/-- `_call_patch_op`, `recipe_parser.py:492-522`: outcome and tree afterwards. -/
def callPatchOp (E : Env) (root : Node) (op path : Str) (d : List (Str × PyVal)) : Except PyErr Bool × Node :=
  match strToStack path with
  | .error e => (.error e, root)
  | .ok stack =>
    if op = §"remove" then opOutcome root (.ok (patchRemove root stack))
    else match lookupD (if op = §"copy" ∨ op = §"move" then §"from" else §"value") d with
      | none => (.error .keyError, root)
      | some data =>
        if op = §"add" then opOutcome root (patchAdd E root stack data)
        else if op = §"replace" then opOutcome root (patchReplace E root stack data)
        else if op = §"move" then patchMove E root stack (pyStr data)
        else if op = §"copy" then opOutcome root (patchCopy E root stack (pyStr data))
        else if op = §"test" then (patchTest E root path data, root)
        else (.ok false, root)

namespace Recipe

/-- `patch`, `recipe_parser.py:524-566`. -/
def patch (E : Env) (r : Recipe) (p : PyVal) : Outcome Bool :=
  if !schemaValid p then (.error .jsonPatchValidation, r)
  else match p with
    | .dict d =>
      let path := patchStr d §"path"
      let op := patchStr d §"op"
      if op = §"move" ∧ lookupD §"from" d = some (.str path) then (.ok true, r)
      else
        let (res, root) := callPatchOp E r.root op path d
        let r := { r with root := root }
        match res with
        | .ok true =>
          if op ≠ §"test" then (.ok true, { r with selTbl := rebuildSelectors root, modified := true })
          else (.ok true, r)
        | res => (res, r)
    | _ => (.error .jsonPatchValidation, r)

/-- `summation and self.patch(..)`, `recipe_parser.py:585`: `patch` is called only while everything succeeded so far. -/
def patchIf (E : Env) (d : List (Str × PyVal)) (r : Recipe) (summation : Bool) (path : Str) : Outcome Bool :=
  if summation then r.patch E (.dict (insertD §"path" (.str path) d)) else (.ok false, r)

/-- The loop of `search_and_patch`, `recipe_parser.py:582-585`. -/
def searchAndPatchGo (E : Env) (d : List (Str × PyVal)) : List Str → Recipe → Bool → Outcome Bool
  | [], r, summation => (.ok summation, r)
  | path :: rest, r, summation =>
    match patchIf E d r summation path with
    | (.ok b, r') => searchAndPatchGo E d rest r' b
    | (.error e, r') => (.error e, r')

/-- `search_and_patch`, `recipe_parser.py:568-586`. -/
def searchAndPatch (E : Env) (r : Recipe) (re : Str → Bool) (d : List (Str × PyVal)) (includeComment : Bool := false) :
    Outcome Bool :=
  searchAndPatchGo E d (r.search re includeComment) r true

/-- `set_variable`, `recipe_parser.py:98-106`. -/
def setVariable (r : Recipe) (k : Str) (v : PyVal) : Recipe :=
  { r with vars := insertD k v r.vars, modified := true }

/-- `del_variable`, `recipe_parser.py:108-117`. -/
def delVariable (r : Recipe) (k : Str) : Recipe :=
  if (lookupD k r.vars).isNone then r else { r with vars := eraseD k r.vars, modified := true }

/-- `diff`, `recipe_parser.py:588-602`, over an arbitrary line differ. -/
def diff (unifiedDiff : List Str → List Str → List Str) (r : Recipe) : Str :=
  if !r.modified then [] else joinStr §"\n" (unifiedDiff (splitlines r.init) (splitlines r.render))

end Recipe

/-- `SelectorConflictMode`, `parser/enums.py`. -/
inductive SelMode where
  | replace | and | or
deriving DecidableEq, Repr

/-- `_extract_selector`, `recipe_parser.py:147-148`. -/
def extractSelector (s : Str) : Str :=
  (replaceOne §"]" [] (replaceOne §"[" [] s).reverse).reverse

/-- The comment `add_selector` computes, `recipe_parser.py:150-163`. -/
def addSelectorComment (old selector : Str) (mode : SelMode) : Str :=
  if old = [] ∨ mode = .replace then §"# " ++ selector
  else match Regex.selector.search old with
    | some m =>
      §"# [" ++ extractSelector m.text ++ (if mode = .and then §" and " else §" or ") ++ extractSelector selector ++ §"]"
    | none => §"# " ++ selector ++ §" " ++ strip (replaceOne §"#" [] old)

/-- Write a comment on a line: the node and, for a one-line key, its value, `recipe_parser.py:165-169`. -/
def setLineComment (comment : Str) (n : Node) : Node :=
  { n with
    comment := comment,
    children := if n.isSingleKey then n.children.map fun c => { c with comment := comment } else n.children }

namespace Recipe

/-- `add_selector`, `recipe_parser.py:120-172`, with the selector as a string. -/
def addSelector (r : Recipe) (path selector : Str) (mode : SelMode := .replace) : Outcome Unit :=
  match strToStack path with
  | .error e => (.error e, r)
  | .ok stack => match traverse r.root stack with
    | none => (.error .keyError, r)
    | some pos =>
      if (Regex.selector.matchStart selector).isNone then (.error .valueError, r)
      else
        let old := ((nodeAt r.root pos).map (·.comment)).getD []
        let root := updateAt (setLineComment (addSelectorComment old selector mode)) pos r.root
        (.ok (), { r with root := root, selTbl := rebuildSelectors root, modified := true })

/-- The comment `remove_selector` leaves, `recipe_parser.py:194-200`. -/
def removeSelectorComment (comment selector : Str) : Str :=
  let c := replaceAll selector [] comment
  let c := replaceAll §"# # " §"# " (replaceAll §"#  " §"# " c)
  if strip c = §"#" then [] else c

/-- `remove_selector`, `recipe_parser.py:174-210`. -/
def removeSelector (r : Recipe) (path : Str) : Outcome (Option Str) :=
  match strToStack path with
  | .error e => (.error e, r)
  | .ok stack => match traverse r.root stack with
    | none => (.error .keyError, r)
    | some pos =>
      let old := ((nodeAt r.root pos).map (·.comment)).getD []
      match Regex.selector.search old with
      | none => (.ok none, r)
      | some m =>
        let root := updateAt (setLineComment (removeSelectorComment old m.text)) pos r.root
        (.ok (some m.text), { r with root := root, selTbl := rebuildSelectors root, modified := true })

/-- Drop a leading `#` and the white space around the rest, `recipe_parser.py:240-241`. -/
def dropHash : Str → Str
  | '#' :: rest => strip rest
  | c => c

/-- The comment `add_comment` writes, `recipe_parser.py:237-247`; `comment` is already stripped and non-empty. -/
def addCommentText (old comment : Str) : Str :=
  let c := match Regex.selector.search old with
    | some m => §"# " ++ m.text ++ §" " ++ dropHash comment
    | none => comment
  if c.head? ≠ some '#' then §"# " ++ c else c

/-- `add_comment`, `recipe_parser.py:214-253`. -/
def addComment (r : Recipe) (path comment : Str) : Outcome Unit :=
  let comment := strip comment
  if comment = [] then (.error .valueError, r)
  else if (Regex.selector.matchStart comment).isSome then (.error .valueError, r)
  else match strToStack path with
    | .error e => (.error e, r)
    | .ok stack => match traverse r.root stack with
      | none => (.error .keyError, r)
      | some pos =>
        let old := ((nodeAt r.root pos).map (·.comment)).getD []
        let root := updateAt (setLineComment (addCommentText old comment)) pos r.root
        (.ok (), { r with root := root, modified := true })

end Recipe

end Crm
