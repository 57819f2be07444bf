import Verif.Model.Str

/-!
# Message table (`conda_recipe_manager/types.py`)
-/

namespace Crm

/-- `MessageCategory`, `types.py:63-71`. -/
inductive Category where
  | exception | error | warning
deriving DecidableEq, Repr

/-- `MessageTable._tbl`, `types.py:80-84`. -/
abbrev MsgTable := List (Category × List Str)

namespace MsgTable

/-- `category in self._tbl` / `self._tbl[category]`. -/
def find (t : MsgTable) (c : Category) : Option (List Str) := (t.find? (·.1 == c)).map (·.2)

/-- `add_message`, `types.py:86-95`. -/
def add (t : MsgTable) (c : Category) (m : Str) : MsgTable :=
  let t := if (t.find c).isNone then t ++ [(c, [])] else t
  t.map fun e => if e.1 == c then (e.1, e.2 ++ [m]) else e

/-- `get_messages`, `types.py:97-106`.  Simplification: Python returns the stored list itself, not a copy. -/
def get (t : MsgTable) (c : Category) : List Str := (t.find c).getD []

/-- `get_message_count`, `types.py:108-117`. -/
def count (t : MsgTable) (c : Category) : Nat := match t.find c with | none => 0 | some l => l.length

/-- `_pluralize`, `types.py:130-133`. -/
def pluralize (n : Nat) (s : Str) : Str := if n = 1 then s else s ++ §"s"

/-- `get_totals_message`, `types.py:119-142`. -/
def totals (t : MsgTable) : Str :=
  if t.isEmpty then []
  else
    let ne := match t.find .error with | none => 0 | some l => l.length
    let nw := match t.find .warning with | none => 0 | some l => l.length
    natStr ne ++ §" " ++ pluralize ne §"error" ++ §" and " ++ (natStr nw ++ §" " ++ pluralize nw §"warning") ++ §" were found."

/-- `clear_messages`, `types.py:144-148`. -/
def clear (_ : MsgTable) : MsgTable := []

end MsgTable
end Crm
