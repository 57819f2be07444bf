import Verif.Model.Commands
import Verif.Spec.PatchFile

/-!
# One patch file, or several one after the other

`patch` is run with the first patch file; as long as it succeeds, it is run with the next.
-/

namespace Crm.Spec
open Doc

/-- `patch` with these patches on a file with this text: how it ends, and the file. -/
def patchOnce (E : Env) (text : Str) (ps : List PyVal) : Stop × Option Str := patchCommand E (.ok (.list ps)) (some text)

/-- `patch` with one patch file after the other, until a run does not succeed: how the last run ends, and the file. -/
def patchEach (E : Env) : Str → List (List PyVal) → Stop × Option Str
  | text, [] => (.exit 0, some text)
  | text, ps :: rest =>
    match patchOnce E text ps with
    | (.exit 0, some text') => patchEach E text' rest
    | stopped => stopped

/-- The patches of each patch file are edits of the entries and tests that hold; what is between them is a file of its own. -/
inductive Pieces (E : Env) : List (List PyVal) → List Doc → List Doc → Prop
  | nil {ds} : Pieces E [] ds ds
  | cons {ps rest ds ds1 ds2} : PatchRun E ps ds ds1 0 → Document E ds1 → SameFormat ds ds1 → Pieces E rest ds1 ds2 →
      Pieces E (ps :: rest) ds ds2

end Crm.Spec
