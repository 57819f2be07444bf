import Verif.Model.Messages

/-! # Specification vocabulary: histories of the small data structures -/

namespace Crm.Spec

/-- A call on a message table. -/
inductive MsgOp where
  | add (c : Category) (m : Str)
  | clear

/-- Messages of category `c` since the last clear, in order; `past` is what was there before. -/
def messagesSince (c : Category) : List Str → List MsgOp → List Str
  | past, [] => past
  | past, .add c' m :: ops => messagesSince c (if c' = c then past ++ [m] else past) ops
  | _, .clear :: ops => messagesSince c [] ops

end Crm.Spec
