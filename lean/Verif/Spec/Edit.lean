import Verif.Spec.Tree
import Verif.Model.Traverse

/-! # Specification vocabulary: addressing and editing places in a tree -/

namespace Crm.Spec

/-- Index (among all children, comment lines included) of the child a path component names: a number `i` names the
list element with exactly `i` non-comment children in front of it; any other text the first child of that name. -/
def childIdx (n : Node) (part : Str) : Option Nat :=
  if isDigitS part then
    (List.range n.children.length).find? fun p =>
      match n.children[p]? with
      | some c => real c && c.listMember && decide ((n.children.take p).countP real = natOfStr part)
      | none => false
  else n.children.findIdx? fun c => decide (c.value = .str part)

/-- The place the components lead to, as a list of child indices. -/
def locate : Node → List Str → Option Pos
  | _, [] => some []
  | n, part :: rest =>
    match childIdx n part with
    | none => none
    | some i => match n.children[i]? with
      | none => none
      | some c => (locate c rest).map (i :: ·)

/-- `t'` is `t` except that the children of the node at `pos` went from `a` to `b` with `f a b`; everything else,
including order and comments, is the same. -/
inductive ChildrenChanged (f : List Node → List Node → Prop) : Pos → Node → Node → Prop
  | here (n : Node) (cs : List Node) : f n.children cs → ChildrenChanged f [] n { n with children := cs }
  | there (n : Node) (pre : List Node) (c c' : Node) (post : List Node) (p : Pos) :
      n.children = pre ++ c :: post → ChildrenChanged f p c c' →
      ChildrenChanged f (pre.length :: p) n { n with children := pre ++ c' :: post }

/-- The `i`-th child is taken out. -/
def Without (i : Nat) (a b : List Node) : Prop := ∃ pre x post, a = pre ++ x :: post ∧ pre.length = i ∧ b = pre ++ post

/-- `new` is inserted in front of the `i`-th child. -/
def Inserted (i : Nat) (new a b : List Node) : Prop := ∃ pre post, a = pre ++ post ∧ pre.length = i ∧ b = pre ++ new ++ post

/-- The `i`-th child makes way for `new`. -/
def Swapped (i : Nat) (new a b : List Node) : Prop :=
  ∃ pre x post, a = pre ++ x :: post ∧ pre.length = i ∧ b = pre ++ new ++ post

/-- `new` is put behind all children. -/
def Appended (new a b : List Node) : Prop := b = a ++ new

/-- All children make way for `new`. -/
def Becomes (new : List Node) (_ b : List Node) : Prop := b = new

/-- A bare value: the scalar behind `key:`, neither a key nor a list element. -/
def bareValue (n : Node) : Bool := !n.listMember && !n.key && n.isLeaf

example : locate { children := [{ comment := §"# c" }, { value := .str §"a", key := true, children :=
    [{ value := .int 1, listMember := true }, { comment := §"# d" }, { value := .int 2, listMember := true }] }] }
    [§"a", §"1"] = some [1, 2] := by decide

end Crm.Spec

namespace Crm.Spec

/-- Following `q` one comes through the place `pos`. -/
def passes (t : Node) (q : List Str) (pos : Pos) : Prop := ∃ b, b <+: q ∧ locate t b = some pos

/-- `q` leads to a node that has the place `pos` below it (or to `pos` itself). -/
def leadsAbove (t : Node) (q : List Str) (pos : Pos) : Prop := ∃ Q, locate t q = some Q ∧ Q <+: pos

/-- The node at `pos` has not been reduced to a mere comment. -/
def notReduced (t : Node) (pos : Pos) : Prop := ∀ m, nodeAt t pos = some m → m.isComment = false

end Crm.Spec
