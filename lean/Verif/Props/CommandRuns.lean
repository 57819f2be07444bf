import Verif.Spec.CommandRuns
import Verif.Props.BumpRunsNew
import Verif.Props.PatchPieces

/-!
# C121: Commands one after the other
-/

namespace Crm
open Spec Doc

theorem runs_step {E : Env} {sha : Str → Str} {t t' : Str} {c : FileCommand} {rest : List FileCommand} {stop : Stop} {stops : List Stop}
    {file : Option Str} (h1 : runCommand E sha t c = (stop, some t')) (h2 : runCommands E sha t' rest = (stops, file)) :
    runCommands E sha t (c :: rest) = (stop :: stops, file) := by
  simp only [runCommands, h1, h2]

/-- C121: whatever `bump-recipe` and `patch` are run on a file of the old format, in any order, every run finds what the last one left,
ends as said, and at the end the file is the text of the definitions and entries with all edits made one after the other. -/
theorem C121_history_partial (E : Env) (sha : Str → Str) (cs : List FileCommand) (stops : List Stop) (vars vars' : List (Str × PyVal))
    (ds ds' : List Doc) (h : CommandRuns E sha cs stops vars ds vars' ds') :
    runCommands E sha (recipeText vars ds) cs = (stops, some (recipeText vars' ds')) := by
  induction h with
  | nil => rfl
  | @bumped W args rest stops chs vars ds vars1 ds1 vars2 ds2 hd hg hord hvar hw hh hb ho _ ih =>
    refine runs_step ?_ ih
    obtain ⟨_, _, _, _, _, h1⟩ := C100_bump_changes_only_these_lines_partial E sha { W with file := some (recipeText vars ds) } args chs
      vars vars1 ds ds1 hg hord hvar hw rfl hh (bumped_on hb _) ho
    have h2 : bumpRun E sha (recipeText vars ds) (W, args) = ⟨.exit 0, some (recipeText vars1 ds1), none⟩ := by
      unfold bumpRun
      rw [h1, hd]
      rfl
    simp only [runCommand, h2]
  | kept hw hs hk _ ih =>
    refine runs_step ?_ ih
    simp only [runCommand, run_kept hw (hs ▸ hk), hs]
  | @patched ps rest code stops vars ds ds1 vars2 ds2 hv hd hf hrun ho _ ih =>
    refine runs_step ?_ ih
    obtain ⟨o, h1, t1, t2, t3, _⟩ := open_v0 hv hd hf
    obtain ⟨r', l1, l2, l3, l4⟩ := patchRun_loop hrun o t2
    simp only [runCommand, patchOnce_eq h1, l1]
    rw [C31_render E r' ds1 l2 ho, l3, l4, t1, if_pos rfl, t3]
  | @raised ps rest stops vars ds vars2 ds2 hv hd hf hrun _ ih =>
    refine runs_step ?_ ih
    obtain ⟨o, h1, t1, t2, t3, _⟩ := open_v0 hv hd hf
    obtain ⟨r', l1⟩ := patchCrash_loop hrun o t2
    simp only [runCommand, patchOnce_eq h1, l1]

/-- C121: the same for files of the new format. -/
theorem C121_new_format_partial (E : Env) (sha : Str → Str) (cs : List FileCommand) (stops : List Stop) (ds ds' : List Doc)
    (h : CommandRunsNew E sha cs stops ds ds') : runCommands E sha (text ds) cs = (stops, some (text ds')) := by
  induction h with
  | nil => rfl
  | @bumped W args rest stops chs ds ds1 ds2 hd hg hord hvar hw hh hb ho _ ih =>
    refine runs_step ?_ ih
    obtain ⟨_, _, _, _, _, h1⟩ := C100_new_format_partial E sha { W with file := some (text ds) } args chs
      ds ds1 hg hord hvar hw rfl hh (bumpedNew_on hb _) ho
    have h2 : bumpRun E sha (text ds) (W, args) = ⟨.exit 0, some (text ds1), none⟩ := by
      unfold bumpRun
      rw [h1, hd]
      rfl
    simp only [runCommand, h2]
  | kept hw hs hk _ ih =>
    refine runs_step ?_ ih
    simp only [runCommand, run_kept hw (hs ▸ hk), hs]
  | @patched o ps rest code stops ds ds1 ds2 ho hrun hok _ ih =>
    refine runs_step ?_ ih
    have h1 : Recipe.ofString E (text ds) = .ok o := ho.opened
    obtain ⟨_, t2, _⟩ := C31_text_is_kept_partial E [] ds o (writable_none E) ho.document ho.opened fun _ => rfl
    obtain ⟨r', l1, l2, l3, l4⟩ := patchRun_loop hrun o t2
    simp only [runCommand, patchOnce_eq h1, l1]
    rw [C31_render E r' ds1 l2 hok, l4, ho.format, if_neg (by decide)]
    rfl
  | @raised o ps rest stops ds ds2 ho hrun _ ih =>
    refine runs_step ?_ ih
    have h1 : Recipe.ofString E (text ds) = .ok o := ho.opened
    obtain ⟨_, t2, _⟩ := C31_text_is_kept_partial E [] ds o (writable_none E) ho.document ho.opened fun _ => rfl
    obtain ⟨r', l1⟩ := patchCrash_loop hrun o t2
    simp only [runCommand, patchOnce_eq h1, l1]

/-- C121: the layout of the file has no influence on any history of the two commands, whatever their options, patches and downloads are and
however they end: of two files that show the same entries each command ends in the same way, and at the end both files have the same text
or, if no command has written, both are as they were. -/
theorem C121_layout_does_not_matter_partial (E : Env) (sha : Str → Str) (cs : List FileCommand) (vars : List (Str × PyVal)) (ds : List Doc)
    (fs gs : List Str) (hvar : ∀ W args, .bump W args ∈ cs → W.variants.Perm hashTypeLines) (ho : OkL E ds) (hf : FreeFile E vars ds fs)
    (hg : FreeFile E vars ds gs) (hhf : NoHashType (fileText fs)) (hhg : NoHashType (fileText gs)) :
    (runCommands E sha (fileText fs) cs).1 = (runCommands E sha (fileText gs) cs).1 ∧
      ((runCommands E sha (fileText fs) cs).2 = (runCommands E sha (fileText gs) cs).2 ∨
        (runCommands E sha (fileText fs) cs).2 = some (fileText fs) ∧ (runCommands E sha (fileText gs) cs).2 = some (fileText gs)) := by
  induction cs with
  | nil => exact ⟨rfl, Or.inr ⟨rfl, rfl⟩⟩
  | cons c rest ih =>
    have hc : ∃ stop, (∃ file, runCommand E sha (fileText fs) c = (stop, file) ∧ runCommand E sha (fileText gs) c = (stop, file)) ∨
        (runCommand E sha (fileText fs) c = (stop, some (fileText fs)) ∧ runCommand E sha (fileText gs) c = (stop, some (fileText gs))) := by
      cases c with
      | bump W args =>
        obtain ⟨stop, printed, h⟩ := C100_layout_does_not_matter_partial E sha W args vars ds fs gs (hvar W args (by simp)) ho hf hg hhf hhg
        refine ⟨stop, ?_⟩
        rcases h with ⟨file, h1, h2⟩ | ⟨h1, h2⟩
        · exact Or.inl ⟨file, by simp only [runCommand, bumpRun, h1], by simp only [runCommand, bumpRun, h2]⟩
        · exact Or.inr ⟨by simp only [runCommand, bumpRun, h1], by simp only [runCommand, bumpRun, h2]⟩
      | patch ps =>
        obtain ⟨stop, h⟩ := C113_layout_does_not_matter_partial E vars ds fs gs (.ok (.list ps)) ho hf hg
        refine ⟨stop, ?_⟩
        rcases h with ⟨t, h1, h2⟩ | ⟨h1, h2⟩
        · exact Or.inl ⟨some t, h1, h2⟩
        · exact Or.inr ⟨h1, h2⟩
    obtain ⟨stop, ⟨file, h1, h2⟩ | ⟨h1, h2⟩⟩ := hc
    · have : runCommands E sha (fileText fs) (c :: rest) = runCommands E sha (fileText gs) (c :: rest) := by
        simp only [runCommands, h1, h2]
      rw [this]
      exact ⟨rfl, Or.inl rfl⟩
    · obtain ⟨i1, i2⟩ := ih fun W args hm => hvar W args (by simp [hm])
      simp only [runCommands, h1, h2, i1, true_and]
      exact i2

/-! ## A history that meets the hypotheses -/

namespace CommandRunsExample
open BumpFileExample

/-- To version 2.0; then the build number is set, and something is no patch; then a bump to an empty version, which is refused; then
`--build-num`. -/
def commands : List FileCommand :=
  [ .bump world args, .patch [mkPatch §"replace" §"/build/number" [(§"value", .int 2)], .int 3], .bump world { target := some [] },
    .bump world { buildNum := true } ]

def d4 : List Doc := d3.take 2 ++ [block §"build" [] [numberLine 2, noarch]]
def d5 : List Doc := d3.take 2 ++ [block §"build" [] [numberLine 3, noarch]]

theorem edit : CleanEdit Toy.env (mkPatch §"replace" §"/build/number" [(§"value", .int 2)]) d3 d4 := by
  refine .setKey §"replace" [§"build"] §"number" (.int 2) (.int 2) (by decide) (by decide) (Or.inl rfl)
    ⟨(schemaValid_iff _).1 (by decide), rfl, rfl⟩ rfl DocEditExample.scalar_int ?_
  refine Within.key (k := §"build") (c := []) (pre := d3.take 2) (post := []) (cs := [_, _]) (cs' := [_, _]) (by decide) ?_
    (.here ⟨?_, by decide⟩)
  · simp [Fresh, d3, pkg, node]
  · exact ⟨[], _, [_], rfl, rfl, rfl, rfl, by simp [Fresh]⟩

theorem scalar_three : Scalar Toy.env (.int 3) (.int 3) :=
  ⟨rfl, by simp, ⟨by decide +kernel, by decide +kernel, by decide +kernel, by decide +kernel, by decide +kernel, by decide +kernel,
    by decide +kernel⟩, rfl, by simp⟩

theorem last : Bumped Toy.env id world { buildNum := true } [.becomes §"number: 2" §"number: 3"] vars1 d4 vars1 d5 := by
  have h := BumpRunsExample.canRaise (ds := d4) (n := 1) writable1 (by decide +kernel) (by simp [Fresh, d4, d3, pkg, node])
    (by unfold NoHashType; decide +kernel) (by decide +kernel) (by decide)
  exact raised_once (pre := d3.take 2) (post := []) (above := []) (below := [noarch]) (c := []) (vt := §"2") (cm := []) (v := .int 2) (n := 2)
    (by simp [Fresh, d3, pkg, node]) (by simp [Fresh]) rfl
    ⟨h.definitions, h.document, h.format, h.noHashType, h.section_, scalar_three⟩

theorem history : CommandRuns Toy.env id commands [.exit 0, .exit 4, .exit 2, .exit 0] vars0 d0 vars1 d5 :=
  .bumped rfl ⟨by decide, by decide, Or.inr rfl⟩ (fun l => List.reverse_perm l) (.refl _) rfl noHashType bumped
    (okLB_sound _ _ (by decide +kernel))
    (.patched (ds1 := d4) writable1 (documentB_sound (by decide +kernel)) (by simp [Fresh, d3, pkg, node])
      (.made edit (.noPatch fun h => absurd ((schemaValid_iff _).2 h) (by decide))) (okLB_sound _ _ (by decide +kernel))
      (.kept rfl (by decide +kernel) (Or.inr (by decide))
        (.bumped rfl ⟨by decide, by decide, Or.inl rfl⟩ (fun l => List.reverse_perm l) (.refl _) rfl (by unfold NoHashType; decide +kernel)
          last (okLB_sound _ _ (by decide +kernel)) .nil)))

example : runCommands Toy.env id (recipeText vars0 d0) commands = ([.exit 0, .exit 4, .exit 2, .exit 0], some §"{% set version = \"2.0\" %}

package:
  name: p
  version: {{ version }}

source:
  - url: http://x  # [unix]
    # checked
    sha256: abc
  - url: http://y
    fn: y
    sha256: abc

build:
  number: 3
  noarch: generic  # why
") := by
  rw [C121_history_partial Toy.env id commands _ vars0 vars1 d0 d5 history]
  decide +kernel

/-! The new format: `--build-num`, then a patch, then something that is no patch. -/

def newCommands : List FileCommand :=
  [ .bump BumpNewExample.world1 { buildNum := true }, .patch [mkPatch §"replace" §"/build/number" [(§"value", .int 2)]], .patch [.int 3] ]

theorem newEdit : CleanEdit Toy.env (mkPatch §"replace" §"/build/number" [(§"value", .int 2)]) BumpNewExample.f1 BumpRunsNewExample.f2 := by
  refine .setKey §"replace" [§"build"] §"number" (.int 2) (.int 2) (by decide) (by decide) (Or.inl rfl)
    ⟨(schemaValid_iff _).1 (by decide), rfl, rfl⟩ rfl DocEditExample.scalar_int ?_
  refine Within.key (k := §"build") (c := []) (pre := [_]) (post := []) (cs := [_]) (cs' := [_]) (by decide) ?_ (.here ⟨?_, by decide⟩)
  · simp [Fresh, node]
  · exact ⟨[], _, [], rfl, rfl, rfl, rfl, by simp [Fresh]⟩

theorem newHistory : CommandRunsNew Toy.env id newCommands [.exit 0, .exit 0, .exit 4] BumpNewExample.f0 BumpRunsNewExample.f2 :=
  .bumped rfl ⟨by decide, by decide, Or.inl rfl⟩ (fun l => .refl l) (.refl _) rfl (by unfold NoHashType; decide +kernel)
    BumpNewExample.bumped1 (okLB_sound _ _ (by decide +kernel))
    (.patched (BumpNewExample.opened (by decide +kernel) (by decide +kernel)) (.made newEdit .done) (okLB_sound _ _ (by decide +kernel))
      (.patched (BumpNewExample.opened (by decide +kernel) (by decide +kernel))
        (.noPatch fun h => absurd ((schemaValid_iff _).2 h) (by decide)) (okLB_sound _ _ (by decide +kernel)) .nil))

example : runCommands Toy.env id (text BumpNewExample.f0) newCommands =
    ([.exit 0, .exit 0, .exit 4], some §"schema_version: 1\n\nbuild:\n  number: 2\n") := by
  rw [C121_new_format_partial Toy.env id newCommands _ _ _ newHistory]
  decide +kernel

/-! Two layouts of one recipe, and any commands -/

example (sha : Str → Str) (patches : List PyVal) (options : BumpArgs) :
    let commands := [.patch patches, .bump LayoutBumpExample.world options]
    (runCommands Toy.env sha (fileText LayoutExample.lines) commands).1 =
      (runCommands Toy.env sha (fileText ConvLayoutExample.tidy) commands).1 :=
  (C121_layout_does_not_matter_partial Toy.env sha _ LayoutExample.vars LayoutExample.doc LayoutExample.lines ConvLayoutExample.tidy
    (by
      intro W args h
      simp only [List.mem_cons, List.not_mem_nil, or_false, reduceCtorEq, false_or, FileCommand.bump.injEq] at h
      rw [h.1]
      exact .refl _)
    LayoutExample.document.1 LayoutExample.free_file ConvLayoutExample.tidy_file LayoutBumpExample.noHashType
    LayoutBumpExample.noHashType_tidy).1

end CommandRunsExample

end Crm
