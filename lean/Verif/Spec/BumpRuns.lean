import Verif.Spec.BumpFile
import Verif.Spec.BumpNew

/-!
# Many runs of `bump-recipe`

Each run has its own surroundings (network, order of downloads) and options, and works on the file the run before has left.
-/

namespace Crm.Spec
open Doc

/-- One run on a file with this text. -/
def bumpRun (E : Env) (sha : Str → Str) (text : Str) (run : BumpWorld × BumpArgs) : BumpResult :=
  bumpRecipe E sha { run.1 with file := some text } run.2

/-- The file after all runs, one after the other. -/
def fileAfter (E : Env) (sha : Str → Str) : Str → List (BumpWorld × BumpArgs) → Option Str
  | text, [] => some text
  | text, run :: rest => (bumpRun E sha text run).file.bind fun text' => fileAfter E sha text' rest

/-- What a history of runs makes of the definitions and the document, and the lines it changes. -/
inductive BumpRuns (E : Env) (sha : Str → Str) :
    List (BumpWorld × BumpArgs) → List LineChange → List (Str × PyVal) → List Doc → List (Str × PyVal) → List Doc → Prop
  | nil {vars ds} : BumpRuns E sha [] [] vars ds vars ds
  /-- a run that writes -/
  | written {W args rest chs chs' vars ds vars1 ds1 vars2 ds2} : args.dryRun = false → goodArgs args → (∀ l, (W.order l).Perm l) →
      W.variants.Perm hashTypeLines → W.writeFails = none → NoHashType (recipeText vars ds) → Bumped E sha W args chs vars ds vars1 ds1 →
      OkL E ds1 → BumpRuns E sha rest chs' vars1 ds1 vars2 ds2 → BumpRuns E sha ((W, args) :: rest) (chs ++ chs') vars ds vars2 ds2
  /-- a dry run, or a run that does not succeed -/
  | kept {W args rest chs vars ds vars2 ds2} : W.writeFails = none →
      (args.dryRun = true ∨ (bumpRun E sha (recipeText vars ds) (W, args)).stop ≠ .exit 0) →
      BumpRuns E sha rest chs vars ds vars2 ds2 → BumpRuns E sha ((W, args) :: rest) chs vars ds vars2 ds2

/-- The same for files of the new format, which have no definitions. -/
inductive BumpRunsNew (E : Env) (sha : Str → Str) :
    List (BumpWorld × BumpArgs) → List LineChange → List Doc → List Doc → Prop
  | nil {ds} : BumpRunsNew E sha [] [] ds ds
  | written {W args rest chs chs' ds ds1 ds2} : args.dryRun = false → goodArgs args → (∀ l, (W.order l).Perm l) →
      W.variants.Perm hashTypeLines → W.writeFails = none → NoHashType (text ds) → BumpedNew E sha W args chs ds ds1 →
      OkL E ds1 → BumpRunsNew E sha rest chs' ds1 ds2 → BumpRunsNew E sha ((W, args) :: rest) (chs ++ chs') ds ds2
  | kept {W args rest chs ds ds2} : W.writeFails = none →
      (args.dryRun = true ∨ (bumpRun E sha (text ds) (W, args)).stop ≠ .exit 0) →
      BumpRunsNew E sha rest chs ds ds2 → BumpRunsNew E sha ((W, args) :: rest) chs ds ds2

/-- Runs that are dry or do not succeed on this file. -/
def NoneWrites (E : Env) (sha : Str → Str) (file : Str) (runs : List (BumpWorld × BumpArgs)) : Prop :=
  ∀ run ∈ runs, run.1.writeFails = none ∧ (run.2.dryRun = true ∨ (bumpRun E sha file run).stop ≠ .exit 0)

/-- A document with the given line among the keys of `build`. -/
def withLine (pre post : List Doc) (c : Str) (above below : List Doc) (line : Doc) : List Doc :=
  pre ++ block §"build" c (above ++ line :: below) :: post

/-- `number: n`. -/
def numberLine (n : Int) : Doc := scalar §"number" (yamlText (.int n)) (.int n) []

/-- The build number in the line can be read, and raised: the file is one of definitions and a document of the old format, its `build`
section is read, and YAML writes the next number plainly. -/
structure CanRaise (E : Env) (vars : List (Str × PyVal)) (ds : List Doc) (next : Int) : Prop where
  definitions : Writable E vars
  document : Document E ds
  format : Fresh §"schema_version" ds
  noHashType : NoHashType (recipeText vars ds)
  section_ : ∀ o, Recipe.ofString E (recipeText vars ds) = .ok o → ∃ v, o.getValue E §"/build" = .ok v
  plain : Scalar E (.int next) (.int next)

/-- The same for a file of the new format. -/
structure CanRaiseNew (E : Env) (ds : List Doc) (next : Int) : Prop where
  opened : ∃ o v, OpenedNew E ds o ∧ o.getValue E §"/build" = .ok v
  noHashType : NoHashType (text ds)
  plain : Scalar E (.int next) (.int next)

end Crm.Spec
