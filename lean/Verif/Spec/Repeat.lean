import Verif.Spec.Commute

/-!
# Making an edit again

What it means that an edit can be repeated, and the values whose lines can be put in the place of themselves.
-/

namespace Crm.Spec

/-- The second call returns or raises what the first one did, and leaves the recipe as the first one left it. -/
def Repeatable (E : Env) (r : Recipe) (path : Str) (e : Edit) : Prop :=
  let once := e.call E path r
  let again := e.call E path once.2
  again.1 = once.1 ∧ Restored once.2 again.2

/-- `v` is read as one entry: a list or mapping as some lines, everything else as one value. -/
def OneEntry (E : Env) (v : PyVal) : Prop :=
  ∀ new, newNodes E v = .ok new → new ≠ [] ∧ (v.isPrimitive = true → ∃ c, new = [c] ∧ c.children = [] ∧ c.value ≠ .sentinel)

/-- The line read for `k: v` has the key `k`, and behind it what is read for `v`. -/
def KeyReads (E : Env) (k : Str) (v : PyVal) : Prop :=
  ∃ d, newNodes E (.dict [(k, v)]) = .ok [d] ∧ d.value = .str k ∧ d.key = true ∧ newNodes E v = .ok d.children ∧ d.children ≠ []

/-- The steps lead to a place that can have keys: they end with a key, or with the number of a list entry that has keys. -/
def SectionPlace (root : Node) (path : List Str) : Prop :=
  endsInNumber path = false ∨ ∃ n, lookup root path = some n ∧ n.isCollectionElement = true

end Crm.Spec
