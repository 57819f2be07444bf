import Verif.Model.Parser

/-!
# What a source's URL is at another version (C110)
-/

namespace Crm
namespace Spec

/-- The recipe with the version `t` in its variable `version`, if it has such a variable. -/
def atVersion (t : Str) (r : Recipe) : Recipe :=
  if r.getVariable §"version" (some .none) = .ok .none then r else r.setVariable §"version" (.str t)

/-- The value of `/source` says that the source at the path has the URL: a mapping with `url` at `/source`, or one in
the list, at `/source/` and its number. -/
inductive SourceUrl : PyVal → Str → Str → Prop
  | one {d : List (Str × PyVal)} {u : PyVal} : lookupD §"url" d = some u → u ≠ .none →
      SourceUrl (.dict d) §"/source" (pyStr u)
  | element {l : List PyVal} {i : Nat} {d : List (Str × PyVal)} {u : PyVal} : l[i]? = some (.dict d) →
      lookupD §"url" d = some u → u ≠ .none → SourceUrl (.list l) (§"/source/" ++ natStr i) (pyStr u)

end Spec
end Crm
