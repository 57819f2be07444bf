import Verif.Props.Jinja

/-!
# What YAML reads in a text with expressions

The loader reads a text as it is, or, if it refuses the text because of the braces of expressions, with a placeholder for every
expression; then the expressions are put back, the first one at the first placeholder and so on.
-/

namespace Crm.Spec

/-- The expressions of a text of the old format as they are written, from left to right. -/
def expressions (segs : List Seg) : List Str :=
  segs.filterMap fun s => match s with | .text _ => none | .hole w1 e w2 => some ((Seg.hole w1 e w2).src .v0)

/-- `v'` is the value `v`, less than `n` levels deep, with a placeholder for every expression in its texts, and `es` are the
expressions, in the order of the value. -/
inductive Hides : Nat → PyVal → PyVal → List Str → Prop
  | text {n segs} : (∀ s ∈ segs, s.Ok) → Unquoted (hidden segs) →
      inStr §"RECIPE_MANAGER_SUBSTITUTION_MARKER" (source .v0 segs) = false →
      Hides (n + 1) (.str (source .v0 segs)) (.str (hidden segs)) (expressions segs)
  | other {n v} : Scalar v → (∀ s, v ≠ .str s) → Hides (n + 1) v v []
  | list {n} (xs : List (PyVal × PyVal × List Str)) : (∀ x ∈ xs, Hides n x.1 x.2.1 x.2.2) →
      Hides (n + 1) (.list (xs.map (·.1))) (.list (xs.map (·.2.1))) (xs.flatMap (·.2.2))
  | dict {n} (xs : List (Str × PyVal × PyVal × List Str)) : (∀ x ∈ xs, Hides n x.2.1 x.2.2.1 x.2.2.2) →
      Hides (n + 1) (.dict (xs.map fun x => (x.1, x.2.1))) (.dict (xs.map fun x => (x.1, x.2.2.1))) (xs.flatMap (·.2.2.2))

/-- YAML, with expressions taken as text, reads the text as `v`. -/
inductive ReadsText (E : Env) : Str → PyVal → Prop
  | itself {s v} : E.load s = .ok v → ReadsText E s v
  | placeholders {segs v v' e} : (∀ s ∈ segs, s.Ok) → HasExpr segs → E.load (source .v0 segs) = .error e →
      E.load (hidden segs) = .ok v' → Hides E.recLimit v v' (expressions segs) → ReadsText E (source .v0 segs) v

end Crm.Spec
