import Verif.Model.Value

/-!
# Parse-tree nodes (`conda_recipe_manager/parser/_node.py`, `parser/types.py`)
-/

namespace Crm

/-- `MultilineVariant`, `parser/types.py:104-121`. -/
inductive Multiline where
  | no | pipe | pipePlus | pipeMinus | rAngle | rAnglePlus | rAngleMinus | lAngle | lAnglePlus | lAngleMinus
deriving DecidableEq, Repr, Inhabited

/-- The `str` value of a `MultilineVariant`. -/
def Multiline.text : Multiline → Str
  | .no => []
  | .pipe => §"|"
  | .pipePlus => §"|+"
  | .pipeMinus => §"|-"
  | .rAngle => §">"
  | .rAnglePlus => §">+"
  | .rAngleMinus => §">-"
  | .lAngle => §"<"
  | .lAnglePlus => §"<+"
  | .lAngleMinus => §"<-"

/-- `Node`, `_node.py:14-56`. -/
structure Node where
  value : PyVal := .sentinel
  comment : Str := []
  children : List Node := []
  listMember : Bool := false
  multiline : Multiline := .no
  key : Bool := false
deriving Repr, Inhabited

mutual
/-- Structural equality of nodes (all fields). -/
def Node.same : Node → Node → Bool
  | ⟨v, c, cs, l, m, k⟩, ⟨v', c', cs', l', m', k'⟩ =>
    decide (v = v') && (c == c' && (Node.sameL cs cs' && (l == l' && (decide (m = m') && k == k'))))
def Node.sameL : List Node → List Node → Bool
  | [], [] => true
  | a :: as, b :: bs => Node.same a b && Node.sameL as bs
  | _, _ => false
end

mutual
theorem Node.same_iff : ∀ a b : Node, Node.same a b = true ↔ a = b
  | ⟨v, c, cs, l, m, k⟩, ⟨v', c', cs', l', m', k'⟩ => by
    simp [Node.same, Node.sameL_iff cs cs']
theorem Node.sameL_iff : ∀ a b : List Node, Node.sameL a b = true ↔ a = b
  | [], b => by cases b <;> simp [Node.sameL]
  | a :: as, b => by
    cases b with
    | nil => simp [Node.sameL]
    | cons b bs => simp [Node.sameL, Node.same_iff a b, Node.sameL_iff as bs]
end

instance : DecidableEq Node := fun a b => decidable_of_iff _ (Node.same_iff a b)

mutual
/-- `Node.__eq__`, `_node.py:58-74` (`key_flag` is not compared, values are compared with Python `==`). -/
def Node.pyEq : Node → Node → Bool
  | ⟨v, c, cs, l, m, _⟩, ⟨v', c', cs', l', m', _⟩ =>
    Crm.pyEq v v' && (c == c' && (l == l' && (decide (m = m') && Node.pyEqL cs cs')))
/-- `list.__eq__` on children. -/
def Node.pyEqL : List Node → List Node → Bool
  | [], [] => true
  | a :: as, b :: bs => Node.pyEq a b && Node.pyEqL as bs
  | _, _ => false
end

namespace Node

/-- `value == Node._sentinel`. -/
def isSentinel (n : Node) : Bool := match n.value with | .sentinel => true | _ => false

/-- `Node.is_comment`, `_node.py:124-130`. -/
def isComment (n : Node) : Bool := n.isSentinel && !n.comment.isEmpty && n.children.isEmpty

/-- `Node.is_leaf`, `_node.py:108-114`. -/
def isLeaf (n : Node) : Bool := n.children.isEmpty && !n.isComment

/-- `Node.is_root`, `_node.py:116-122`. -/
def isRoot (n : Node) : Bool := decide (n.value = .str §"/")

/-- `Node.is_empty_key`, `_node.py:132-147`. -/
def isEmptyKey (n : Node) : Bool := n.key && n.isLeaf

/-- `Node.is_single_key`, `_node.py:149-158`. -/
def isSingleKey (n : Node) : Bool := n.key && match n.children with | [c] => c.isLeaf | _ => false

/-- `Node.is_collection_element`, `_node.py:160-167`. -/
def isCollectionElement (n : Node) : Bool := n.isSentinel && n.listMember && !n.children.isEmpty

end Node

end Crm
