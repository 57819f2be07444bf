import Verif.Model.CiLog

/-!
# Specification: summary of CI logs (C59)
-/

namespace Crm.Spec

/-- The statistics of a result: its table `stats`, or its table `statistics` if it has no entry `stats`. -/
def statistics (r : List (Str × PyVal)) : Option (List (Str × PyVal)) :=
  match lookupD §"stats" r, lookupD §"statistics" r with
  | some (.dict kvs), _ => some kvs
  | some _, _ => none
  | none, some (.dict kvs) => some kvs
  | none, _ => none

/-- A number, which Booleans are in Python. -/
def IsNumber (v : PyVal) : Prop := (∃ n, v = .int n) ∨ (∃ b, v = .bool b) ∨ (∃ f, v = .flt f)

instance (v : PyVal) : Decidable (IsNumber v) := by
  cases v <;> first
    | exact isTrue (Or.inl ⟨_, rfl⟩)
    | exact isTrue (Or.inr (Or.inl ⟨_, rfl⟩))
    | exact isTrue (Or.inr (Or.inr ⟨_, rfl⟩))
    | (refine isFalse ?_; rintro (⟨_, h⟩ | ⟨_, h⟩ | ⟨_, h⟩) <;> cases h)

/-- The numbers that the results have for a statistic, in the order of the results. -/
def counted (key : Str) (rs : List (List (Str × PyVal))) : List PyVal :=
  rs.flatMap fun r => ((statistics r).getD []).filterMap fun kv => if kv.1 = key ∧ IsNumber kv.2 then some kv.2 else none

/-- The test that a result belongs to: the last component of its directory. -/
def testOf (base : Str → Str) (r : List (Str × PyVal)) : Option Str :=
  match lookupD §"info" r with
  | some (.dict info) => match lookupD §"directory" info with
    | some (.str d) => some (base d)
    | _ => none
  | _ => none

/-- The results of a test. -/
def resultsOf (base : Str → Str) (test : Str) (rs : List (List (Str × PyVal))) : List (List (Str × PyVal)) :=
  rs.filter fun r => testOf base r = some test

/-- The values that the results have for a field, in the order of the results. -/
def fieldValues (f : Str) (rs : List (List (Str × PyVal))) : List PyVal :=
  rs.filterMap fun r => (statistics r).bind (lookupD f)

/-- The five percentages that are shown for each test. -/
def shownFields : List Str :=
  [§"percent_recipe_exceptions", §"percent_recipe_errors", §"percent_recipe_success", §"percent_errors", §"percent_success"]

/-- An object in a log, between two lines that hold nothing but a brace, and the lines after it. -/
structure LogPart where
  body : List Str
  after : List Str

/-- The lines of the object itself. -/
def LogPart.object (p : LogPart) : List Str := §"{" :: p.body ++ [§"}"]

/-- The lines of a log: some lines, then objects with lines between them. -/
def logLines (first : List Str) (parts : List LogPart) : List Str :=
  first ++ parts.flatMap fun p => p.object ++ p.after

/-- None of the lines is just a brace. -/
def NoBrace (lines : List Str) : Prop := §"{" ∉ lines ∧ §"}" ∉ lines

/-- The name of the command that a result is of. -/
def commandOf (data : List (Str × PyVal)) : Option PyVal :=
  match lookupD §"info" data with
  | some (.dict info) => lookupD §"command_name" info
  | _ => none

/-- The objects of a log that are results of conversions (`true`) or of other commands (`false`). -/
def logResults (loads : Str → Option (List (Str × PyVal))) (conversion : Bool) (parts : List LogPart) : List (List (Str × PyVal)) :=
  parts.filterMap fun p => (loads (joinStr §"\n" p.object)).bind fun data =>
    match commandOf data with
    | none => none
    | some (.str c) => if (decide (c = §"convert")) = conversion then some data else none
    | some _ => if conversion then none else some data

end Crm.Spec
