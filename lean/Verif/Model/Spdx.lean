import Verif.Model.Value

/-!
# Licence matching (`licenses/spdx_utils.py`)

The licence database (`spdx_licenses.json`) is a parameter: the list of its licences in the order of the file.
`difflib.get_close_matches(word, keys, 1)` is a parameter as well, `close word keys`; nothing is assumed about it.
-/

namespace Crm

/-- One entry of `licenses` in the database, `spdx_utils.py:42-44`: `licenseId` and `name`. -/
structure License where
  id : Str
  name : Str
deriving DecidableEq, Repr, Inhabited

/-- `SPDX_EXPRESSION_OPS`, `spdx_utils.py:22`. -/
def spdxOps : List Str := [§"AND", §"OR", §"WITH"]

/-- One turn of the loop `spdx_utils.py:42-48`. -/
def spdxStep (tbl : List (Str × Str)) (l : License) : List (Str × Str) := insertD l.id l.id (insertD l.name l.id tbl)

/-- `_license_matching_table`, `spdx_utils.py:40-48`. -/
def spdxTable (db : List License) : List (Str × Str) := db.foldl spdxStep []

/-- `_license_ids`, `spdx_utils.py:41,49`. -/
def spdxIds (db : List License) : List Str := db.map (·.id)

/-- `_license_matching_patch_tbl`, `spdx_utils.py:53-58`. -/
def spdxPatches : List (Str × Str) :=
  [(§"BSD 2-CLAUSE \"SIMPLIFIED\"", §"BSD-2-Clause"), (§"UNLIMITED", §"NOASSERTION")]

/-- `find_closest_license_match`, `spdx_utils.py:60-100`.  Simplification: `upper` changes ASCII letters only. -/
def findLicense (close : Str → List Str → List Str) (db : List License) (field : Str) : Option Str :=
  if field ∈ spdxIds db then some field
  else
    let sanitized := upperS (strip field)
    if spdxOps.any (inStr · sanitized) then none
    else if inStr §"," sanitized then none
    else match lookupD sanitized spdxPatches with
      | some a => some a
      | none =>
        match close field ((spdxTable db).map (·.1)) with
        | [] => none
        | m :: _ => lookupD m (spdxTable db)

end Crm
