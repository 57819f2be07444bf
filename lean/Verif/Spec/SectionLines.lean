import Verif.Spec.FileDeps
import Verif.Spec.TemplateLine
import Verif.Props.PlainValue

/-!
# What the lines of a list say

The values of the lines of a list in a file of the old format, under the definitions of the file.
-/

namespace Crm.Spec
open Doc

/-- With the definitions `vars`, the lines `cs` of a list say `items`: one line says what its text says; several lines are what YAML
reads in them, with each text replaced by what it says. -/
inductive LinesRead (E : Env) (vars : List (Str × PyVal)) : List Doc → List PyVal → Prop
  | one {vt c : Str} {segs : List Seg} {w : PyVal} : Says E .v0 vars segs w → LinesRead E vars [item vt (.str (source .v0 segs)) c] [w]
  | lines {cs : List Doc} {raw items : List PyVal} : cs ≠ [] → (∀ vt v c, cs ≠ [item vt v c]) → ReadsText E (text cs) (.list raw) →
      Filled E .v0 vars E.recLimit (.list raw) (.list items) → LinesRead E vars cs items

end Crm.Spec
