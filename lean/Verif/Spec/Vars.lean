import Verif.Model.Value

/-! # Specification vocabulary: histories of variable edits -/

namespace Crm.Spec

/-- One variable edit. -/
inductive VarOp where
  | set (name : Str) (value : PyVal)
  | del (name : Str)

/-- The variable an edit is about. -/
def VarOp.name : VarOp → Str
  | .set n _ => n
  | .del n => n

/-- The value an edit leaves behind. -/
def VarOp.result : VarOp → Option PyVal
  | .set _ v => some v
  | .del _ => none

/-- The value of `name` after a history: what the last edit of that name left, else the initial value. -/
def valueAfter (initial : Option PyVal) (ops : List VarOp) (name : Str) : Option PyVal :=
  match ops.reverse.find? (fun o => o.name == name) with
  | some o => o.result
  | none => initial

/-- The names, in order: setting an unknown name puts it last, setting a known one keeps its place, deleting takes it
out. -/
def orderAfter (names : List Str) : List VarOp → List Str
  | [] => names
  | .set n _ :: ops => orderAfter (if n ∈ names then names else names ++ [n]) ops
  | .del n :: ops => orderAfter (names.filter (· ≠ n)) ops

end Crm.Spec
