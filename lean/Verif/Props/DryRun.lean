import Verif.Props.Bump

/-!
# C122: A dry run shows what the run would do
-/

namespace Crm
open Spec

/-- C122: with the same file, options and downloads a dry run ends as the run does; if that is a success, it prints the text the run writes,
and otherwise nothing.  The run prints nothing, and the dry run writes nothing. -/
theorem C122_dry_run (E : Env) (sha : Str → Str) (W : BumpWorld) (args : BumpArgs) (hw : W.writeFails = none) :
    let dry := bumpRecipe E sha W { args with dryRun := true }
    let run := bumpRecipe E sha W { args with dryRun := false }
    dry.stop = run.stop ∧ run.printed = none ∧ dry.file = W.file ∧
      (run.stop = .exit 0 → dry.printed = run.file ∧ run.file ≠ none) ∧ (run.stop ≠ .exit 0 → dry.printed = none ∧ run.file = W.file) := by
  intro dry run
  have he : ∀ b r, bumpEdits E sha W { args with dryRun := b } r = bumpEdits E sha W args r := fun _ _ => rfl
  simp only [dry, run, bumpRecipe, he, hw]
  repeat' split
  all_goals first
    | (simp_all; done)
    | (rename_i stop hb
       refine ⟨rfl, rfl, rfl, ?_, fun _ => ⟨rfl, rfl⟩⟩
       intro h
       have h : stop = .exit 0 := h
       subst h
       have := bumpEdits_code hb
       omega)

/-- Both kinds of end. -/
example : (bumpRecipe Toy.env id exBumpWorld { buildNum := true }).stop = .exit 0 ∧
    (bumpRecipe Toy.env id { exBumpWorld with net := fun _ _ _ => exCut } { target := some §"2.0.1" }).stop = .exit 108 :=
  ⟨by decide +kernel, by decide +kernel⟩

example : (bumpRecipe Toy.env id exBumpWorld { buildNum := true, dryRun := true }).printed =
    some §"package:\n  name: p\n  version: 1.0.1\n\nsource:\n  url: http://x\n  sha256: ab\n\nbuild:\n  number: 6\n" := by
  have h := (C122_dry_run Toy.env id exBumpWorld { buildNum := true } rfl).2.2.2.1 (by decide +kernel)
  exact h.1.trans (by decide +kernel)

end Crm
