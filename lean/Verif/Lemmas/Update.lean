import Verif.Model.Traverse

/-! # Updating a tree at a position -/

namespace Crm

theorem updateAt_append (f : Node → Node) (p q : Pos) (n : Node) :
    updateAt f (p ++ q) n = updateAt (updateAt f q) p n := by
  induction p generalizing n with
  | nil => rfl
  | cons i p ih =>
    have : updateAt f (p ++ q) = updateAt (updateAt f q) p := funext ih
    simp only [List.cons_append, updateAt, this]

theorem updateAt_const (f : Node → Node) {p : Pos} {n m : Node} (h : nodeAt n p = some m) :
    updateAt f p n = updateAt (fun _ => f m) p n := by
  induction p generalizing n with
  | nil => simp only [nodeAt, Option.some.injEq] at h; subst h; rfl
  | cons i p ih =>
    simp only [nodeAt] at h
    split at h
    · cases h
    · rename_i c hc
      simp only [updateAt]
      congr 1
      apply List.ext_getElem?
      intro j
      simp only [List.getElem?_modify]
      by_cases hj : i = j
      · subst hj; simp [hc, ih h]
      · simp [hj]

/-- Add children at the end. -/
def addKids (ns : List Node) (n : Node) : Node := { n with children := n.children ++ ns }

theorem updateAt_comp (f g : Node → Node) (p : Pos) (n : Node) : updateAt f p (updateAt g p n) = updateAt (f ∘ g) p n := by
  induction p generalizing n with
  | nil => rfl
  | cons i p ih =>
    simp only [updateAt]
    congr 1
    apply List.ext_getElem?
    intro j
    simp only [List.getElem?_modify]
    by_cases hj : i = j
    · subst hj
      cases n.children[i]? <;> simp [ih]
    · simp [hj]

theorem updateAt_addKids (as bs : List Node) (p : Pos) (n : Node) :
    updateAt (addKids bs) p (updateAt (addKids as) p n) = updateAt (addKids (as ++ bs)) p n := by
  rw [updateAt_comp]
  congr 1
  funext m
  simp [addKids]

theorem updateAt_addKids_nil (p : Pos) (n : Node) : updateAt (addKids []) p n = n := by
  induction p generalizing n with
  | nil => cases n; simp [updateAt, addKids]
  | cons i p ih =>
    have : updateAt (addKids []) p = id := funext ih
    cases n; simp [updateAt, this]

/-- Changing the child that was just added. -/
theorem updateAt_added (g : Node → Node) (h : Node) {p : Pos} {n m : Node} (hm : nodeAt n p = some m) :
    updateAt g (p ++ [m.children.length]) (updateAt (addKids [h]) p n) = updateAt (addKids [g h]) p n := by
  rw [updateAt_append, updateAt_comp, updateAt_const _ hm, updateAt_const (addKids [g h]) hm]
  congr 1
  funext _
  have key : ∀ cs : List Node, (cs ++ [h]).modify cs.length g = cs ++ [g h] := by
    intro cs
    induction cs with
    | nil => rfl
    | cons c cs ih => simp [ih]
  simp only [addKids, updateAt, Function.comp, key]

theorem nodeAt_added (h : Node) {p : Pos} {n m : Node} (hm : nodeAt n p = some m) :
    nodeAt (updateAt (addKids [h]) p n) (p ++ [m.children.length]) = some h := by
  induction p generalizing n with
  | nil =>
    simp only [nodeAt, Option.some.injEq] at hm
    subst hm
    simp [nodeAt, updateAt, addKids]
  | cons i p ih =>
    simp only [nodeAt] at hm
    split at hm
    · cases hm
    · rename_i c hc
      simp [nodeAt, updateAt, hc, ih hm]

end Crm
