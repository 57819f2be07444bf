import Verif.Spec.Transfer
import Verif.Lemmas.CleanEdit
import Verif.Props.PatchMove

/-! # Copies and moves: the tree is exactly that of the edited document -/

namespace Crm
open Spec Doc

theorem transfer_patch {E : Env} {p : PyVal} {ds ds' : List Doc} (h : Transfer E p ds ds') (r : Recipe) (hr : r.root = Doc.root ds) :
    r.patch E p = (.ok true, edited r (Doc.root ds')) := by
  cases h with
  | copy path src v hp hs hv hvs he =>
    rw [C14_copy_is_add E r p v path src hp hs (hv r hr) hvs]
    exact cleanEdit_patch he r hr
  | move path src v both rest hp hs hne hv hvs h1 h2 h3 =>
    exact C13_move_succeeds E r _ _ _ p v path src hp hs hne (hv r hr) hvs (cleanEdit_patch h1 r hr) (cleanEdit_patch h2 r hr)
      (cleanEdit_patch h3 _ rfl)

end Crm
