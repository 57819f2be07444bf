import Verif.Spec.BumpRuns
import Verif.Spec.PatchPieces

/-!
# `bump-recipe` and `patch` in any order

Each command works on the file the one before has left.
-/

namespace Crm.Spec
open Doc

/-- A command with its options: `bump-recipe` in its surroundings, or `patch` with the patches of the patch file. -/
inductive FileCommand where
  | bump (W : BumpWorld) (args : BumpArgs)
  | patch (ps : List PyVal)

/-- How a command ends on a file with this text, and the file. -/
def runCommand (E : Env) (sha : Str → Str) (text : Str) : FileCommand → Stop × Option Str
  | .bump W args => ((bumpRun E sha text (W, args)).stop, (bumpRun E sha text (W, args)).file)
  | .patch ps => patchOnce E text ps

/-- How the commands end, and the file after all of them. -/
def runCommands (E : Env) (sha : Str → Str) : Str → List FileCommand → List Stop × Option Str
  | text, [] => ([], some text)
  | text, c :: rest =>
    match runCommand E sha text c with
    | (stop, none) => ([stop], none)
    | (stop, some text') => (stop :: (runCommands E sha text' rest).1, (runCommands E sha text' rest).2)

/-- What a history of commands makes of the definitions and the document of a file of the old format, and how the commands end. -/
inductive CommandRuns (E : Env) (sha : Str → Str) :
    List FileCommand → List Stop → List (Str × PyVal) → List Doc → List (Str × PyVal) → List Doc → Prop
  | nil {vars ds} : CommandRuns E sha [] [] vars ds vars ds
  /-- a bump that writes -/
  | bumped {W args rest stops chs vars ds vars1 ds1 vars2 ds2} : args.dryRun = false → goodArgs args → (∀ l, (W.order l).Perm l) →
      W.variants.Perm hashTypeLines → W.writeFails = none → NoHashType (recipeText vars ds) → Bumped E sha W args chs vars ds vars1 ds1 →
      OkL E ds1 → CommandRuns E sha rest stops vars1 ds1 vars2 ds2 →
      CommandRuns E sha (.bump W args :: rest) (.exit 0 :: stops) vars ds vars2 ds2
  /-- a dry run, or one that does not succeed -/
  | kept {W args rest stop stops vars ds vars2 ds2} : W.writeFails = none → (bumpRun E sha (recipeText vars ds) (W, args)).stop = stop →
      (args.dryRun = true ∨ stop ≠ .exit 0) → CommandRuns E sha rest stops vars ds vars2 ds2 →
      CommandRuns E sha (.bump W args :: rest) (stop :: stops) vars ds vars2 ds2
  /-- patches, all of them or up to one that is refused -/
  | patched {ps rest code stops vars ds ds1 vars2 ds2} : Writable E vars → Document E ds → Fresh §"schema_version" ds →
      PatchRun E ps ds ds1 code → OkL E ds1 → CommandRuns E sha rest stops vars ds1 vars2 ds2 →
      CommandRuns E sha (.patch ps :: rest) (.exit code :: stops) vars ds vars2 ds2
  /-- patches one of which is past the end of a list -/
  | raised {ps rest stops vars ds vars2 ds2} : Writable E vars → Document E ds → Fresh §"schema_version" ds → PatchCrash E ps ds →
      CommandRuns E sha rest stops vars ds vars2 ds2 →
      CommandRuns E sha (.patch ps :: rest) (.raised .indexError :: stops) vars ds vars2 ds2

/-- The same for files of the new format, which have no definitions. -/
inductive CommandRunsNew (E : Env) (sha : Str → Str) : List FileCommand → List Stop → List Doc → List Doc → Prop
  | nil {ds} : CommandRunsNew E sha [] [] ds ds
  | bumped {W args rest stops chs ds ds1 ds2} : args.dryRun = false → goodArgs args → (∀ l, (W.order l).Perm l) →
      W.variants.Perm hashTypeLines → W.writeFails = none → NoHashType (text ds) → BumpedNew E sha W args chs ds ds1 →
      OkL E ds1 → CommandRunsNew E sha rest stops ds1 ds2 → CommandRunsNew E sha (.bump W args :: rest) (.exit 0 :: stops) ds ds2
  | kept {W args rest stop stops ds ds2} : W.writeFails = none → (bumpRun E sha (text ds) (W, args)).stop = stop →
      (args.dryRun = true ∨ stop ≠ .exit 0) → CommandRunsNew E sha rest stops ds ds2 →
      CommandRunsNew E sha (.bump W args :: rest) (stop :: stops) ds ds2
  | patched {o ps rest code stops ds ds1 ds2} : OpenedNew E ds o → PatchRun E ps ds ds1 code → OkL E ds1 →
      CommandRunsNew E sha rest stops ds1 ds2 → CommandRunsNew E sha (.patch ps :: rest) (.exit code :: stops) ds ds2
  | raised {o ps rest stops ds ds2} : OpenedNew E ds o → PatchCrash E ps ds → CommandRunsNew E sha rest stops ds ds2 →
      CommandRunsNew E sha (.patch ps :: rest) (.raised .indexError :: stops) ds ds2

end Crm.Spec
