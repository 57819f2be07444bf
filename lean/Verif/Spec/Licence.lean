import Verif.Model.Spdx

/-!
# Specification: licences (C53)

Said in terms of the database only.
-/

namespace Crm.Spec

/-- `s` is the identifier of a licence of the database. -/
def IsLicenceId (db : List License) (s : Str) : Prop := ∃ l ∈ db, l.id = s

/-- `s` looks like a combination of licences: somewhere it has the letters of an operator, in any case, or a comma. -/
def LooksCombined (s : Str) : Prop :=
  ∃ a w b, s = a ++ w ++ b ∧
    (w.map Char.toUpper = §"AND" ∨ w.map Char.toUpper = §"OR" ∨ w.map Char.toUpper = §"WITH" ∨ w = §",")

/-- `s`, without the space around it and in any case, is one of the two known mistakes, which stands for `a`. -/
def Alias (s a : Str) : Prop :=
  ∃ x w y, s = x ++ w ++ y ∧ (∀ c ∈ x ++ y, isSpace c = true) ∧
    (w.map Char.toUpper = §"BSD 2-CLAUSE \"SIMPLIFIED\"" ∧ a = §"BSD-2-Clause" ∨
      w.map Char.toUpper = §"UNLIMITED" ∧ a = §"NOASSERTION")

/-- Every name and identifier of the database, each once, in the order of the database. -/
def licenceNames (db : List License) : List Str :=
  (db.flatMap fun l => [l.name, l.id]).foldl (fun seen s => if s ∈ seen then seen else seen ++ [s]) []

/-- `a` is the identifier of the last licence that has `m` as its name or identifier. -/
def Names (db : List License) (m a : Str) : Prop :=
  ∃ before l after, db = before ++ l :: after ∧ (m = l.name ∨ m = l.id) ∧ a = l.id ∧
    ∀ l' ∈ after, m ≠ l'.name ∧ m ≠ l'.id

end Crm.Spec
