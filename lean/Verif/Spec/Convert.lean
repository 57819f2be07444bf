import Verif.Spec.Patch
import Verif.Model.Convert

/-! # Specification vocabulary: converting a recipe -/

namespace Crm.Spec

/-- One change made to the converted copy; `failed` is the patch, if it was a patch and it was refused. -/
inductive Change (E : Env) : Recipe → (failed : List PyVal) → Recipe → Prop
  | patched {r r' : Recipe} (p : PyVal) : r.patch E p = (.ok true, r') → Change E r [] r'
  | refused {r r' : Recipe} (p : PyVal) : r.patch E p = (.ok false, r') → Change E r [p] r'
  | unselected {r r' : Recipe} (path : Str) (o : Option Str) : r.removeSelector path = (.ok o, r') → Change E r [] r'
  | sorted {r r' : Recipe} (path : Str) (tbl : List (Str × Nat)) : r.sortSubtreeKeys path tbl = .ok r' → Change E r [] r'
  | variables {r : Recipe} (vs : List (Str × PyVal)) : Change E r [] { r with vars := vs }
  | schema {r : Recipe} : Change E r [] { r with schema := .v1 }

/-- Changes made one after the other, with the refused patches in order. -/
inductive Changes (E : Env) : Recipe → List PyVal → Recipe → Prop
  | done (r : Recipe) : Changes E r [] r
  | step {r r1 r2 : Recipe} {f fs : List PyVal} : Change E r f r1 → Changes E r1 fs r2 → Changes E r (f ++ fs) r2

/-- The messages of one kind have only been added to, and among the added ones are `ms`, in this order. -/
def Reports (old new : MsgTable) (cat : Category) (ms : List Str) : Prop :=
  ∃ added, new.get cat = old.get cat ++ added ∧ ms.Sublist added

/-- How a refused patch is reported. -/
def refusal (p : PyVal) : Str := §"Failed to patch: " ++ pyStr p

/-- Reading a recipe and converting it: the new text and the messages. -/
def converted (E : Env) (W : ConvWorld) (text : Str) : Except PyErr (Str × MsgTable) :=
  match newConv E text with
  | .ok c => (renderToV1 E W c).1
  | .error e => .error e

end Crm.Spec
