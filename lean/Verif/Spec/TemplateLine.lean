import Verif.Spec.Document
import Verif.Props.Jinja

/-!
# Lines of a file that use variables (C111)
-/

namespace Crm.Spec
open Doc

/-- The text that an entry of a file has as its value: `k: text` or `- text`. -/
inductive LineText : Doc → Str → Prop
  | scalar {k vt s c} : LineText (scalar k vt (.str s) c) s
  | item {vt s c} : LineText (item vt (.str s) c) s

/-- With the variables `vars` the text made of the pieces `segs` says `w`: this is what YAML reads in the text with the expressions
replaced.  The text itself is one that YAML takes for a text, or (old format) one that it refuses because of the braces. -/
structure Says (E : Env) (v : Schema) (vars : List (Str × PyVal)) (segs : List Seg) (w : PyVal) : Prop where
  template : Template E vars segs
  expression : HasExpr segs
  scalar : Scalar w
  loaded : E.load (substituted E v vars segs) = .ok w
  itself : E.load (source v segs) = .ok (.str (source v segs)) ∨
    (v = .v0 ∧ (∃ e, E.load (source .v0 segs) = .error e) ∧
      inStr §"RECIPE_MANAGER_SUBSTITUTION_MARKER" (source .v0 segs) = false ∧
      E.load (hidden segs) = .ok (.str (hidden segs)) ∧ Unquoted (hidden segs))

end Crm.Spec
