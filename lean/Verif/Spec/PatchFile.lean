import Verif.Spec.Session
import Verif.Spec.FileValue

/-!
# What `crm patch` makes of a recipe file

In terms of the entries of the file: which patches are made, which are the first to be refused, and the exit code.
-/

namespace Crm.Spec
open Doc

/-- The patch asks whether the entry at `path` reads as `v`; it reads as `w`. -/
structure Asks (E : Env) (p : PyVal) (path : List Str) (ds : List Doc) (v w : PyVal) : Prop where
  isTest : IsPatch p §"test" (absPath path)
  comps : ∀ x ∈ path, Component x
  value : field p §"value" = some v
  entry : ∃ d, LeadsTo path ds d ∧ WrittenValue E none d w
  wellFormed : OkL E ds

/-- The patch is about an entry that the file does not have. -/
structure NoEntry (p : PyVal) (path : List Str) (ds : List Doc) : Prop where
  isPatch : IsPatch p §"test" (absPath path) ∨ IsPatch p §"remove" (absPath path) ∨
    IsPatch p §"replace" (absPath path) ∧ endsInNumber path = false
  comps : ∀ x ∈ path, Component x
  below : path ≠ []
  missing : ∀ d, ¬ LeadsTo path ds d
  noText : ∀ x ∈ path, x ∉ valueTextsL ds

/-- `PatchRun E ps ds ds' code`: the patches `ps` make the document `ds'` of `ds`, and the command ends with `code`. -/
inductive PatchRun (E : Env) : List PyVal → List Doc → List Doc → Nat → Prop
  | done {ds} : PatchRun E [] ds ds 0
  | made {p ps ds ds' ds'' code} : CleanEdit E p ds ds' → PatchRun E ps ds' ds'' code → PatchRun E (p :: ps) ds ds'' code
  | transferred {p ps ds ds' ds'' code} : Transfer E p ds ds' → PatchRun E ps ds' ds'' code → PatchRun E (p :: ps) ds ds'' code
  /-- a test that holds changes nothing -/
  | holds {p ps ds ds' code} (path : List Str) (v w : PyVal) : Asks E p path ds v w → pyEq w v = true → PatchRun E ps ds ds' code →
      PatchRun E (p :: ps) ds ds' code
  /-- a test that does not hold ends the command, and so does a patch of an entry that is not there -/
  | fails {p ps ds} (path : List Str) (v w : PyVal) : Asks E p path ds v w → pyEq w v = false → PatchRun E (p :: ps) ds ds 106
  | missing {p ps ds} (path : List Str) : NoEntry p path ds → PatchRun E (p :: ps) ds ds 106
  /-- something that is no patch ends the command -/
  | noPatch {p ps ds} : ¬ RfcPatch p → PatchRun E (p :: ps) ds ds 4

/-- The patch puts something at a number that is not below the number of entries there. -/
structure PastEnd (p : PyVal) (init : List Str) (i : Str) (ds : List Doc) : Prop where
  isPatch : IsPatch p §"add" (absPath (init ++ [i])) ∨ IsPatch p §"replace" (absPath (init ++ [i]))
  comps : ∀ x ∈ init ++ [i], Component x
  number : isDigitS i = true
  short : ∃ ds', Within (fun cs _ => entryCount cs ≤ natOfStr i) init ds ds'

/-- `PatchCrash E ps ds`: among the patches `ps` for the document `ds` is one that puts something behind the end of a list, and those in
front of it are made. -/
inductive PatchCrash (E : Env) : List PyVal → List Doc → Prop
  | now {p ps ds} (init : List Str) (i : Str) : PastEnd p init i ds → PatchCrash E (p :: ps) ds
  | made {p ps ds ds'} : CleanEdit E p ds ds' → PatchCrash E ps ds' → PatchCrash E (p :: ps) ds
  | transferred {p ps ds ds'} : Transfer E p ds ds' → PatchCrash E ps ds' → PatchCrash E (p :: ps) ds
  | holds {p ps ds} (path : List Str) (v w : PyVal) : Asks E p path ds v w → pyEq w v = true → PatchCrash E ps ds → PatchCrash E (p :: ps) ds

end Crm.Spec
