import Verif.Spec.Session

/-!
# Taking an edit back

What it means that a recipe is as it was before.
-/

namespace Crm.Spec
open Doc

/-- `r'` is as `r` was: it has the same lines with the same values and comments in the same order, the same variables and the
same format, and is written as the same text. -/
structure Restored (r r' : Recipe) : Prop where
  lines : r'.root = r.root
  variables : r'.vars = r.vars
  format : r'.schema = r.schema
  text : r'.render = r.render

/-- `v` can be an entry of a list: a scalar on a line, or a list or mapping with something in it. -/
def ListEntry (E : Env) (v : PyVal) : Prop := (∃ w, Scalar E v w) ∨ ∃ new, Collection E v new

/-- `v` can stand behind the key `k`. -/
def KeyEntry (E : Env) (k : Str) (v : PyVal) : Prop := ∃ d, Collection E (.dict [(k, v)]) [d] ∧ d.keyOf = some k

/-- A comment a selector can be put in front of and be taken away from: none at all, or (unless comments are replaced) `# text`,
with single white space behind the `#` and no further `#` or bracket. -/
def Separable (mode : SelMode) (c : Str) : Prop :=
  c = [] ∨ mode ≠ .replace ∧ ∃ text, c = §"# " ++ text ∧ text ≠ [] ∧ strip text = text ∧ '[' ∉ text ∧ ']' ∉ text ∧ '#' ∉ text ∧
    '\n' ∉ text

/-- The key and the value on the line at `path` carry the same comment. -/
def OneComment (r : Recipe) (path : Str) : Prop :=
  ∀ n, r.nodeAtPath path = .ok (some n) → n.isSingleKey = true → ∀ x ∈ n.children, x.comment = n.comment

end Crm.Spec
