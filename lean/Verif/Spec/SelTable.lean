import Verif.Spec.History

/-! # Specification vocabulary: selectors in comments and the selector index -/

namespace Crm.Spec

/-- The selector in a (one-line) comment: from the first `[` to the last `]` behind it. -/
def selectorIn (comment : Str) : Option Str :=
  let t := ((comment.dropWhile (· ≠ '[')).reverse.dropWhile (· ≠ ']')).reverse
  if t = [] then none else some t

/-- All nodes of the recipe, in document order, with the text of their path. -/
def nodesWithPaths (root : Node) : List (Node × Str) := (visitAll root).map fun np => (np.1, stackToStr np.2)

/-- The selectors in the comments of the tree, in document order. -/
def selectorsOf (root : Node) : List Str := (nodesWithPaths root).filterMap fun np => selectorIn np.1.comment

/-- The paths of the lines that carry the selector `s`, in document order. -/
def pathsWith (root : Node) (s : Str) : List Str :=
  ((nodesWithPaths root).filter fun np => selectorIn np.1.comment = some s).map (·.2)

/-- `r` lists what occurs in `l`, without repetition, in the order of first occurrence. -/
def FirstOccurrences {α : Type} [DecidableEq α] (l r : List α) : Prop :=
  (∀ x, x ∈ r ↔ x ∈ l) ∧ r.Nodup ∧ r.Pairwise (fun a b => l.idxOf a < l.idxOf b)

/-- No comment contains a line break. -/
def oneLineComments (root : Node) : Prop := ∀ np ∈ visitAll root, '\n' ∉ np.1.comment

/-- The line at the node has a value (a scalar, a key or an element with something in it): comment lines and empty
elements do not.  For a one-line key, its value carries the comment of the key. -/
def ordinaryLine (n : Node) : Prop :=
  (n.isSentinel = false ∨ n.children ≠ []) ∧
    (n.isSingleKey = true → ∀ x ∈ n.children, x.isSentinel = false ∧ x.comment = n.comment)

/-- Calls that keep the selector index in step with the tree.  Excluded are a `move` that fails half way, any `move` over
search results, `get_selector_paths` of a selector in use (the call empties its own index) and comments that contain
brackets or several lines or are put on something without a value. -/
def keepsIndex (E : Env) (r : Recipe) : Call → Prop
  | .patch p => field p §"op" = some (.str §"move") → (r.patch E p).1 = .ok true ∨ (r.patch E p).2 = r
  | .searchAndPatch _ p _ => field (.dict p) §"op" ≠ some (.str §"move")
  | .addComment path text => '[' ∉ text ∧ ']' ∉ text ∧ '\n' ∉ text ∧ ∀ n, r.nodeAtPath path = .ok (some n) →
      '\n' ∉ n.comment ∧ ordinaryLine n
  | .getSelectorPaths s => r.containsSelector s = false
  | _ => True

/-- Every call of the history keeps the index in step. -/
def allKeepIndex (E : Env) : Recipe → List Call → Prop
  | _, [] => True
  | r, c :: cs => keepsIndex E r c ∧ allKeepIndex E (perform E r c) cs

/-- The comment on the line a path leads to. -/
def commentAt (r : Recipe) (path : Str) : Option Str :=
  match r.nodeAtPath path with
  | .ok (some n) => some n.comment
  | _ => none

/-- The path leads to a line with a value (not an empty list element, not `key:` followed by a value-less child). -/
def OrdinaryPath (r : Recipe) (path : Str) : Prop :=
  ∃ n, r.nodeAtPath path = .ok (some n) ∧ (n.isSentinel = false ∨ n.children ≠ []) ∧
    (n.isSingleKey = true → ∀ x ∈ n.children, x.isSentinel = false)

/-- The two trees have the same paths, values and layout; comments differ at most at `pos` and at its first child. -/
def onlyLineChanged (pos : Pos) (t t' : Node) : Prop :=
  ∀ q, (nodeAt t' q).map (fun m => (m.value, m.listMember, m.multiline, m.key, m.children.length)) =
      (nodeAt t q).map (fun m => (m.value, m.listMember, m.multiline, m.key, m.children.length)) ∧
    (q ≠ pos → q ≠ pos ++ [0] → (nodeAt t' q).map (·.comment) = (nodeAt t q).map (·.comment))

/-- What a reader sees of a comment besides white space and `#` signs. -/
def words (comment : Str) : Str := comment.filter fun c => !isSpace c && c ≠ '#'

example : selectorIn §"# [linux] only [see docs] here" = some §"[linux] only [see docs]" := by decide
example : selectorIn §"# plain" = none ∧ selectorIn §"# ]a[" = none ∧ selectorIn §"# [a" = none := by decide

end Crm.Spec
