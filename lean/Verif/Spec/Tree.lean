import Verif.Model.Node

/-! # Specification vocabulary: comment lines in trees -/

namespace Crm.Spec

/-- A child that is not a comment line. -/
def real (n : Node) : Bool := !n.isComment

/-- The child a path component names: a number `i` names the `i`-th child that is not a comment line, provided it is a
list element; any other component names the first child with that name. -/
def child (n : Node) (part : Str) : Option Node :=
  if isDigitS part then ((n.children.filter real)[natOfStr part]?).filter (·.listMember)
  else n.children.find? (fun c => pyEq c.value (.str part))

/-- The node reached by following the components from `n`. -/
def lookup : Node → List Str → Option Node
  | n, [] => some n
  | n, p :: ps => (child n p).bind (lookup · ps)

mutual
/-- The tree without any comment lines (comments at the end of a line stay). -/
def stripComments : Node → Node
  | ⟨v, c, cs, l, m, k⟩ => ⟨v, c, stripCommentsL cs, l, m, k⟩
def stripCommentsL : List Node → List Node
  | [] => []
  | n :: ns => if n.isComment then stripCommentsL ns else stripComments n :: stripCommentsL ns
end

mutual
/-- No value-less node carries a comment of its own and has only comment lines below it (such a node would turn into a
comment line when those are removed). -/
def commentsProper : Node → Bool
  | ⟨v, c, cs, l, m, k⟩ =>
    (!(Node.isSentinel ⟨v, c, cs, l, m, k⟩) || c.isEmpty || cs.isEmpty || cs.any real) && commentsProperL cs
def commentsProperL : List Node → Bool
  | [] => true
  | n :: ns => commentsProper n && commentsProperL ns
end

example : stripComments { value := .str §"/", children :=
      [{ comment := §"# hi" }, { value := .str §"a", key := true, children := [{ value := .int 1 }] }] }
    = { value := .str §"/", children := [{ value := .str §"a", key := true, children := [{ value := .int 1 }] }] } := by
  decide

end Crm.Spec
