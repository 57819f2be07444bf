import Verif.Model.Node

/-!
# Paths and tree traversal (`parser/_utils.py`, `parser/_traverse.py`)

A Python `StrStack` is a list whose *last* element is the top.  It is modelled top-first, i.e. as the reversed Python
list, so a stack made from `/foo/bar` is `["/", "foo", "bar"]`; `path.pop()` removes the head and Python's `path[0]`
is the last element.

A reference to a node of the tree is modelled by its position: the list of (physical) child indices leading to it.
-/

namespace Crm

/-- `ROOT_NODE_VALUE`, `_types.py:22`. -/
def rootValue : Str := §"/"

/-- `str_to_stack_path`, `_utils.py:28-52`; `path[-1]` raises `IndexError` on the empty string. -/
def strToStack (path : Str) : Except PyErr (List Str) :=
  if path = [] then .error .indexError
  else
    let p := if path.getLast? = some '/' then path.dropLast else path
    .ok ((splitChar '/' p).map fun part => if part = [] then rootValue else part)

/-- `stack_path_to_str`, `_utils.py:55-73`.  The Python function empties the list it is given; callers that keep the
list are modelled accordingly (see `getSelectorPaths`). -/
def stackToStr : List Str → Str
  | [] => []
  | v :: rest => if v = rootValue then stackToStr rest else '/' :: v ++ stackToStr rest

/-- Position of a node in a tree. -/
abbrev Pos := List Nat

/-- Dereference a position. -/
def nodeAt : Node → Pos → Option Node
  | n, [] => some n
  | n, i :: p => match n.children[i]? with
    | none => none
    | some c => nodeAt c p

/-- Mutate the node at a position in place. -/
def updateAt (f : Node → Node) : Pos → Node → Node
  | [], n => f n
  | i :: p, n => { n with children := n.children.modify i (updateAt f p) }

/-- Loop of `remap_child_indices_virt_to_phys`. -/
def virtToPhysGo : Nat → List Node → List Nat
  | _, [] => []
  | cntr, c :: cs => if c.isComment then virtToPhysGo (cntr + 1) cs else cntr :: virtToPhysGo (cntr + 1) cs

/-- `remap_child_indices_virt_to_phys`, `_traverse.py:16-41`. -/
def virtToPhys (children : List Node) : List Nat := virtToPhysGo 0 children

/-- `remap_child_indices_phys_to_virt`, `_traverse.py:44-57`. -/
def physToVirt (children : List Node) : List Nat :=
  (virtToPhys children).zipIdx.foldl (fun acc pi => acc.set pi.1 pi.2) (List.replicate children.length 0)

/-- `_traverse_recurse`, `_traverse.py:60-97`. -/
def traverseRec : Node → List Str → Option Pos
  | _, [] => some []
  | n, part :: rest =>
    if isDigitS part then
      match (virtToPhys n.children)[natOfStr part]? with
      | none => none
      | some phys => match n.children[phys]? with
        | none => none
        | some c => if c.listMember then (traverseRec c rest).map (phys :: ·) else none
    else
      match n.children.findIdx? (fun c => pyEq c.value (.str part)) with
      | none => none
      | some i => match n.children[i]? with
        | none => none
        | some c => (traverseRec c rest).map (i :: ·)

/-- `traverse`, `_traverse.py:100-120`. -/
def traverse (root : Node) : List Str → Option Pos
  | [] => none
  | [p] => if p = rootValue then some [] else none
  | _ :: q :: rest => traverseRec root (q :: rest)

/-- `traverse_with_index`, `_traverse.py:123-154`: node, virtual index, physical index (`none` for `INVALID_IDX`).
Indexing the look-up table out of range raises `IndexError`. -/
def traverseWithIndex (root : Node) (path : List Str) : Except PyErr (Option Pos × Option Nat × Option Nat) :=
  match path.getLast? with
  | none => .ok (none, none, none)
  | some last =>
    let virt : Option Nat := if isDigitS last then some (natOfStr last) else none
    let path' := if isDigitS last then path.dropLast else path
    match traverse root path' with
    | none => .ok (none, virt, none)
    | some pos => match virt with
      | none => .ok (some pos, none, none)
      | some v =>
        let children := ((nodeAt root pos).map (·.children)).getD []
        match (virtToPhys children)[v]? with
        | none => .error .indexError
        | some phys => match children[phys]? with
          | none => .error .indexError
          | some c => if c.isCollectionElement then .ok (some (pos ++ [phys]), none, none)
            else .ok (some pos, some v, some phys)

/-- Path of a visited node, `_traverse.py:180-186`. -/
def visitPath (path : Option (List Str)) (idx : Nat) (n : Node) : List Str :=
  match path with
  | none => [rootValue]
  | some p =>
    if n.listMember then p ++ [natStr idx]
    else if n.isEmptyKey || !n.isLeaf then p ++ [pyStr n.value]
    else p

mutual
/-- `traverse_all`, `_traverse.py:157-191`: the calls `func(node, path)` in order. -/
def visit (path : Option (List Str)) (idx : Nat) : Node → List (Node × List Str)
  | ⟨v, c, cs, l, m, k⟩ =>
    let p := visitPath path idx ⟨v, c, cs, l, m, k⟩
    (⟨v, c, cs, l, m, k⟩, p) :: visitL p (physToVirt cs) cs
/-- The loop over the children, `_traverse.py:189-191`. -/
def visitL (p : List Str) : List Nat → List Node → List (Node × List Str)
  | v :: vs, c :: cs => visit (some p) v c ++ visitL p vs cs
  | _, _ => []
end

/-- `traverse_all(root, func)` as called by users. -/
def visitAll (root : Node) : List (Node × List Str) := visit none 0 root

example : strToStack §"/foo/bar/0" = .ok [§"/", §"foo", §"bar", §"0"] := by decide
example : stackToStr [§"/", §"foo", §"bar"] = §"/foo/bar" := by decide
example : physToVirt [{ value := .int 1 }, { comment := §"# c" }, { value := .int 2 }] = [0, 0, 1] := by decide

end Crm
