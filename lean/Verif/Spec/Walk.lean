import Verif.Spec.Tree
import Verif.Spec.Path

/-! # Specification vocabulary: the values of a tree and regular trees -/

namespace Crm.Spec

mutual
/-- The nodes without children (values, list elements, keys without a value), in document order. -/
def leaves : Node → List Node
  | ⟨v, c, cs, l, m, k⟩ => (if Node.isLeaf ⟨v, c, cs, l, m, k⟩ then [⟨v, c, cs, l, m, k⟩] else []) ++ leavesL cs
def leavesL : List Node → List Node
  | [] => []
  | n :: ns => leaves n ++ leavesL ns
end

/-- A name that can be used as a path component: not empty, no slash, not a number. -/
def goodName : PyVal → Bool
  | .str k => decide (Component k) && !isDigitS k
  | _ => false

/-- A proper place among its siblings: a comment line, a list element, a key with a good name that no sibling shares, or
the only value. -/
def properChild (siblings : List Node) (c : Node) : Bool :=
  c.isComment || c.listMember ||
  (c.key && goodName c.value && siblings.countP (fun d => decide (d.value = c.value)) == 1) ||
  (c.isLeaf && !c.key && siblings.countP real == 1)

mutual
/-- Sibling keys are distinct, non-numeric and slash-free, everywhere in the tree. -/
def regular : Node → Bool
  | ⟨_, _, cs, _, _, _⟩ => cs.all (properChild cs) && regularL cs
def regularL : List Node → Bool
  | [] => true
  | n :: ns => regular n && regularL ns
end

/-- A regular document that is not empty and not just one bare value. -/
def regularDocument (root : Node) : Bool :=
  regular root && !root.children.isEmpty && root.children.all fun c => c.isComment || c.listMember || c.key

end Crm.Spec
