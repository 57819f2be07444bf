import Verif.Spec.Repeat

/-!
# Edits that are covered by a later one

When an edit is inside a place, and what it means that a later edit leaves nothing of the edits before it.
-/

namespace Crm.Spec

/-- If there is something at the end of the steps, it is a key. -/
def KeyPlace (root : Node) (path : List Str) : Prop := endsInNumber path = false ∧ ∀ n, lookup root path = some n → n.key = true

/-- `x` is made inside the place: at the place itself or below it. -/
def InPlace (place : List Str) (x : PlacedEdit) : Prop :=
  ∃ rest, x.1 = place ++ rest ∧ (∀ c ∈ x.1, Component c) ∧ x.2.Within rest

/-- `e` changes the comment of a line. -/
def Edit.OnLine : Edit → Prop
  | .addSelector .. | .removeSelector | .addComment _ => True
  | _ => False

/-- `x` is made inside the place, and does not change the line of the place itself. -/
def InValue (place : List Str) (x : PlacedEdit) : Prop := InPlace place x ∧ (x.2.OnLine → x.1 ≠ place)

/-- `e` puts a value behind the key that `place` leads to. -/
def Puts (place : List Str) (e : Edit) : Prop := ∃ v, e = .replace v ∨ e = .add v ∧ place.getLast? ≠ some §"-"

/-- The steps lead to an item of a list that is one value. -/
def ValueItem (root : Node) (path : List Str) : Prop :=
  endsInNumber path = true ∧ ∃ n, lookup root path = some n ∧ n.listMember = true ∧ n.value ≠ .sentinel ∧ n.children = []

/-- `e` leaves an item of a list one value: it changes the comment, asks for the value, or puts another value there. -/
def Edit.KeepsItem (E : Env) : Edit → Prop
  | .replace v => v.isPrimitive = true ∧ OneEntry E v
  | .add _ | .remove => False
  | _ => True

/-- Made after the other edits, `e` answers the same and leaves the same recipe as if none of them had been made. -/
def Covered (E : Env) (r : Recipe) (others : List PlacedEdit) (path : Str) (e : Edit) : Prop :=
  let alone := e.call E path r
  let after := e.call E path (editAll E r others).2
  after.1 = alone.1 ∧ Restored alone.2 after.2

end Crm.Spec
