import Verif.Spec.FileValues

/-!
# Where a file uses a variable
-/

namespace Crm.Spec.Doc

mutual
/-- The names of the keys of an entry, at any depth. -/
def keyNames : Doc → List Str
  | comment _ => []
  | empty k _ => [k]
  | scalar k _ _ _ => [k]
  | multi k _ _ _ => [k]
  | block k _ cs => k :: keyNamesL cs
  | item _ _ _ => []
  | elem first rest => first.keyNames ++ keyNamesL rest
def keyNamesL : List Doc → List Str
  | [] => []
  | d :: ds => d.keyNames ++ keyNamesL ds
end

end Crm.Spec.Doc
