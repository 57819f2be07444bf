import Verif.Spec.Undo

/-!
# Edits in one order and the other

Calls that edit one place of a recipe, what they answer, and when two places are independent of each other.
-/

namespace Crm.Spec

/-- What is done at a place: a patch operation with one path, or a change of the selector or the comment of a line. -/
inductive Edit where
  | add (value : PyVal)
  | remove
  | replace (value : PyVal)
  | test (value : PyVal)
  | addSelector (selector : Str) (mode : SelMode)
  | removeSelector
  | addComment (text : Str)

/-- What a call returns. -/
inductive Answer where
  | success (b : Bool)
  | nothing
  | removed (selector : Option Str)
deriving DecidableEq

/-- A JSON patch with a value. -/
def patchWith (op path : Str) (v : PyVal) : PyVal := .dict [(§"op", .str op), (§"path", .str path), (§"value", v)]

/-- The answer of the call that does `e` at `path` (or the exception it raises), and the recipe afterwards. -/
def Edit.call (E : Env) (path : Str) (r : Recipe) : Edit → Except PyErr Answer × Recipe
  | .add v => let out := r.patch E (patchWith §"add" path v); (out.1.map .success, out.2)
  | .remove => let out := r.patch E (.dict [(§"op", .str §"remove"), (§"path", .str path)]); (out.1.map .success, out.2)
  | .replace v => let out := r.patch E (patchWith §"replace" path v); (out.1.map .success, out.2)
  | .test v => let out := r.patch E (patchWith §"test" path v); (out.1.map .success, out.2)
  | .addSelector s mode => let out := r.addSelector path s mode; (out.1.map fun _ => .nothing, out.2)
  | .removeSelector => let out := r.removeSelector path; (out.1.map .removed, out.2)
  | .addComment text => let out := r.addComment path text; (out.1.map fun _ => .nothing, out.2)

/-- `e` stays within what is at a place when it is done at `rest` below that place: additions and removals change what is
around the last step of their path. -/
def Edit.Within (rest : List Str) : Edit → Prop
  | .add _ | .remove => rest ≠ []
  | _ => True

/-- `e`, done at `rest` below a key, does not make the key: it changes what is there, or removes it. -/
def Edit.AtKey (rest : List Str) : Edit → Prop
  | .add _ => rest ≠ []
  | _ => True

/-- What `path` leads to is a list entry of several lines without a comment of its own. -/
def PlainEntry (root : Node) (path : List Str) : Prop :=
  ∃ m, lookup root path = some m ∧ m.isCollectionElement = true ∧ m.comment = []

/-- `s` and `t` are independent steps from the place `a`: different keys, or the numbers of different entries of a list. -/
def Apart (root : Node) (a : List Str) (s t : Str) : Prop :=
  (isDigitS s = false ∧ isDigitS t = false ∧ s ≠ t) ∨
  (isDigitS s = true ∧ isDigitS t = true ∧ natOfStr s ≠ natOfStr t ∧ PlainEntry root (a ++ [s]) ∧ PlainEntry root (a ++ [t]))

/-- An edit and the steps to its place. -/
abbrev PlacedEdit := List Str × Edit

/-- The places of two edits part at different keys, and each edit stays within its part, or removes a key from a section. -/
def PartAtKeys (x y : PlacedEdit) : Prop :=
  ∃ a s t rest rest', x.1 = a ++ s :: rest ∧ y.1 = a ++ t :: rest' ∧ isDigitS s = false ∧ isDigitS t = false ∧ s ≠ t ∧
    (x.2.Within rest ∧ y.2.Within rest' ∨ endsInNumber a = false ∧ x.2.AtKey rest ∧ y.2.AtKey rest')

/-- Edits one after the other: each with its answer, and the recipe in the end. -/
def editAll (E : Env) : Recipe → List PlacedEdit → List (PlacedEdit × Except PyErr Answer) × Recipe
  | r, [] => ([], r)
  | r, x :: xs =>
    let out := x.2.call E (absPath x.1) r
    let more := editAll E out.2 xs
    ((x, out.1) :: more.1, more.2)

end Crm.Spec
