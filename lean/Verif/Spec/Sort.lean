import Verif.Model.Node

/-! # Specification vocabulary: sorted lists -/

namespace Crm.Spec
universe u

/-- The list `b` is the list `a` sorted by `key`, in the stable way: a permutation, in order, entries with the same key in
the order they had. -/
structure StablySorted {α : Type u} (key : α → Int) (a b : List α) : Prop where
  perm : b.Perm a
  sorted : b.Pairwise fun x y => key x ≤ key y
  stable : ∀ k, b.filter (fun x => key x = k) = a.filter (fun x => key x = k)

/-- Where a child of a section goes: comments to the front, then the keys named here, in this order, then all others. -/
def placeIn (names : List Str) (k : Node) : Int :=
  if k.isComment then -1
  else match k.value with
    | .str s => names.idxOf s
    | _ => names.length

/-- The children of a section were put into the order of these names, in the stable way. -/
def Ordered (names : List Str) : List Node → List Node → Prop := StablySorted (placeIn names)

end Crm.Spec
