import Verif.Spec.Edit
import Verif.Spec.Path

/-! # Specification vocabulary: several nodes of a tree make way for others -/

namespace Crm.Spec

/-- The tree with the node at this place replaced. -/
def putNode (new : Node) : Pos → Node → Node
  | [], _ => new
  | i :: p, n => { n with children := n.children.mapIdx fun j c => if j = i then putNode new p c else c }

/-- The node `old`, which the path leads to, makes way for `new`. -/
structure NodeEdit where
  comps : List Str
  pos : Pos
  old : Node
  new : Node
deriving DecidableEq

/-- The path leads to this place, and the old node stands there. -/
def NodeEdit.At (t : Node) (e : NodeEdit) : Prop :=
  e.comps ≠ [] ∧ (∀ c ∈ e.comps, Component c) ∧ locate t e.comps = some e.pos ∧ nodeAt t e.pos = some e.old

instance (t : Node) (e : NodeEdit) : Decidable (e.At t) := by unfold NodeEdit.At; infer_instance

/-- All of them make way. -/
def putNodes (es : List NodeEdit) (t : Node) : Node := es.foldl (fun t e => putNode e.new e.pos t) t

/-- None of the places lies within another, the new nodes are no comment lines, they are list elements if the old ones
were, and none of them takes a name that leads to one of the places. -/
structure Independent (es : List NodeEdit) : Prop where
  apart : es.Pairwise fun a b => ¬ a.pos <+: b.pos ∧ ¬ b.pos <+: a.pos
  kind : ∀ e ∈ es, e.new.isComment = false ∧ e.new.listMember = e.old.listMember
  names : ∀ e ∈ es, ∀ e' ∈ es, ∀ c ∈ e'.comps, e.new.value = .str c → e.old.value = .str c

instance (es : List NodeEdit) : Decidable (Independent es) :=
  decidable_of_iff (_ ∧ _ ∧ _) ⟨fun ⟨a, b, c⟩ => ⟨a, b, c⟩, fun h => ⟨h.apart, h.kind, h.names⟩⟩

end Crm.Spec
