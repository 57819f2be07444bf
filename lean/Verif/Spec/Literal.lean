import Verif.Model.Value

/-!
# Python literals

Which texts are literals of the Python language, and the values they denote.  Only the escapes that single characters need.
-/

namespace Crm.Spec

/-- The characters between the quotes `q` and the text they stand for. -/
inductive Between (q : Char) : Str → Str → Prop
  | nil : Between q [] []
  | plain {c src t} : c ≠ q → c ≠ '\\' → c ≠ '\n' → c ≠ '\r' → Between q src t → Between q (c :: src) (c :: t)
  | escape {x c src t} : (x, c) ∈ [('\\', '\\'), ('\'', '\''), ('"', '"'), ('n', '\n'), ('r', '\r'), ('t', '\t')] →
      Between q src t → Between q ('\\' :: x :: src) (c :: t)

/-- The text is a literal for the value. -/
inductive Denotes : Str → PyVal → Prop
  | str {q src t} : q = '\'' ∨ q = '"' → Between q src t → Denotes (q :: (src ++ [q])) (.str t)
  | none : Denotes §"None" .none
  | true : Denotes §"True" (.bool true)
  | false : Denotes §"False" (.bool false)
  | int {s} : s ≠ [] → isDigitS s = true → Denotes s (.int (natOfStr s))
  | negative {s} : s ≠ [] → isDigitS s = true → Denotes ('-' :: s) (.int (-(natOfStr s)))
  | list (xs : List (Str × PyVal)) : (∀ x ∈ xs, Denotes x.1 x.2) → Denotes ('[' :: (joinStr §", " (xs.map (·.1)) ++ [']'])) (.list (xs.map (·.2)))
  | dict (xs : List ((Str × Str) × (Str × PyVal))) : (∀ x ∈ xs, Denotes x.1.1 (.str x.1.2)) → (∀ x ∈ xs, Denotes x.2.1 x.2.2) →
      Denotes ('{' :: (joinStr §", " (xs.map fun x => x.1.1 ++ §": " ++ x.2.1) ++ ['}'])) (.dict (xs.map fun x => (x.1.2, x.2.2)))

/-- Every value in it is a text, a whole number, `None`, a truth value, a list or a mapping. -/
inductive Literal : PyVal → Prop
  | str {s} : Literal (.str s)
  | none : Literal .none
  | bool {b} : Literal (.bool b)
  | int {i} : Literal (.int i)
  | list {xs} : (∀ x ∈ xs, Literal x) → Literal (.list xs)
  | dict {kvs} : (∀ kv ∈ kvs, Literal kv.2) → Literal (.dict kvs)

end Crm.Spec
