import Verif.Model.Parser
import Verif.Model.Selector

/-! # Conda build configuration files (`parser/cbc_parser.py`) -/

namespace Crm

/-- `_CBCEntry`, `cbc_parser.py:16-22`. -/
structure CbcEntry where
  value : PyVal
  selector : Option SelectorParser

/-- `_CbcTable`, `cbc_parser.py:26`. -/
abbrev CbcTable := List (Str × List CbcEntry)

/-- Add an entry for a variable, `cbc_parser.py:85-88`. -/
def cbcPut (var : Str) (entry : CbcEntry) : CbcTable → CbcTable
  | [] => [(var, [entry])]
  | (k, es) :: rest => if k = var then (k, es ++ [entry]) :: rest else (k, es) :: cbcPut var entry rest

/-- The selector of an entry, `cbc_parser.py:75-79`. -/
def cbcSelector (r : Recipe) (path : Str) : Except PyErr (Option SelectorParser) :=
  match r.getSelectorAtPath path with
  | .ok s => .ok (some (SelectorParser.mk' s false))
  | .error .keyError => .ok none
  | .error e => .error e

/-- The loop over the values of a variable, `cbc_parser.py:72-88`; `i` is the index of the first one. -/
def cbcValues (r : Recipe) (var : Str) : List PyVal → Nat → CbcTable → Except PyErr CbcTable
  | [], _, tbl => .ok tbl
  | value :: rest, i, tbl => do
    let selector ← cbcSelector r (§"/" ++ var ++ §"/" ++ natStr i)
    cbcValues r var rest (i + 1) (cbcPut var ⟨value, selector⟩ tbl)

/-- The loop over the variables, `cbc_parser.py:64-88`. -/
def cbcLoop (r : Recipe) : List (Str × PyVal) → CbcTable → Except PyErr CbcTable
  | [], tbl => .ok tbl
  | (var, value) :: rest, tbl =>
    match value with
    | .list values =>
      if var = §"zip_keys" then cbcLoop r rest tbl
      else do
        let tbl ← cbcValues r var values 0 tbl
        cbcLoop r rest tbl
    | _ => cbcLoop r rest tbl

/-- `CbcParser.__init__` after the file has been read as a recipe `r`, `cbc_parser.py:51-88`. -/
def cbcTable (E : Env) (r : Recipe) : Except PyErr CbcTable := do
  match ← r.getValue E §"/" with
  | .dict kvs => cbcLoop r kvs []
  | _ => .error .attributeError

/-- `__contains__` for a text, `cbc_parser.py:90-99`. -/
def CbcTable.contains (t : CbcTable) (var : Str) : Bool := (lookupD var t).isSome

/-- `list_cbc_variables`, `cbc_parser.py:101-107`. -/
def CbcTable.variables (t : CbcTable) : List Str := t.map (·.1)

/-- The entry applies, `cbc_parser.py:134`. -/
def CbcEntry.applies (query : Option Platform) (e : CbcEntry) : Bool :=
  match e.selector with
  | none => true
  | some s => s.applies query

/-- `get_cbc_variable_value`, `cbc_parser.py:109-140`. -/
def CbcTable.value (t : CbcTable) (var : Str) (query : Option Platform) (default : Option PyVal := none) :
    Except PyErr PyVal :=
  match lookupD var t with
  | none => match default with
    | none => .error .keyError
    | some d => .ok d
  | some [⟨v, none⟩] => .ok v
  | some entries => match entries.find? (CbcEntry.applies query) with
    | some e => .ok e.value
    | none => match default with
      | none => .error .valueError
      | some d => .ok d

end Crm
