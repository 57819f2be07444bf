import Verif.Props.BumpRuns
import Verif.Props.BumpNew

/-!
# C119: Running bump-recipe again and again, on files of the new format and in any layout
-/

namespace Crm
open Spec Doc

theorem bumpedNew_on {E : Env} {sha : Str → Str} {W : BumpWorld} {args : BumpArgs} {chs : List LineChange} {ds ds' : List Doc}
    (h : BumpedNew E sha W args chs ds ds') (file : Option Str) : BumpedNew E sha { W with file := file } args chs ds ds' := by
  cases h with
  | number a b c d => exact .number a b c d
  | version a b c d e f g h i j => exact .version a b c d e f g h i j

theorem bumped_on {E : Env} {sha : Str → Str} {W : BumpWorld} {args : BumpArgs} {chs : List LineChange}
    {vars vars' : List (Str × PyVal)} {ds ds' : List Doc} (h : Bumped E sha W args chs vars ds vars' ds') (file : Option Str) :
    Bumped E sha { W with file := file } args chs vars ds vars' ds' := by
  cases h with
  | number a b c d => exact .number a b c d
  | version a b c d e f g h i => exact .version a b c d e f g h i

theorem runsNew_lines {E : Env} {sha : Str → Str} {runs : List (BumpWorld × BumpArgs)} {chs : List LineChange} {ds ds' : List Doc}
    (h : BumpRunsNew E sha runs chs ds ds') : LinesDiffer chs (fileTextLines [] ds) (fileTextLines [] ds') := by
  induction h with
  | nil => exact .nil
  | written _ _ hord _ _ _ hb _ _ ih => exact linesDiffer_append (bumpedNew_file hord hb) ih
  | kept _ _ _ ih => exact ih

theorem run_kept {E : Env} {sha : Str → Str} {W : BumpWorld} {args : BumpArgs} {file : Str} (hw : W.writeFails = none)
    (hk : args.dryRun = true ∨ (bumpRun E sha file (W, args)).stop ≠ .exit 0) :
    (bumpRun E sha file (W, args)).file = some file := by
  obtain ⟨u1, u2⟩ := C45_untouched_partial E sha { W with file := some file } args
  rcases hk with hk | hk
  · exact u1 hk
  · exact u2 hw hk

theorem noneWrites_file {E : Env} {sha : Str → Str} {file : Str} (rest : List (BumpWorld × BumpArgs)) :
    ∀ {before : List (BumpWorld × BumpArgs)}, NoneWrites E sha file before →
      fileAfter E sha file (before ++ rest) = fileAfter E sha file rest
  | [], _ => rfl
  | (W, args) :: before, h => by
    obtain ⟨h1, h2⟩ := h (W, args) (by simp)
    rw [List.cons_append, fileAfter, run_kept h1 h2]
    exact noneWrites_file rest fun run hr => h run (by simp [hr])

/-- C119: after any history of runs on a file of the new format the file is the text with all their changes made one after the other. -/
theorem C119_new_format_partial (E : Env) (sha : Str → Str) (runs : List (BumpWorld × BumpArgs)) (chs : List LineChange)
    (ds ds' : List Doc) (h : BumpRunsNew E sha runs chs ds ds') :
    ∃ xs ys, text ds = joinStr §"\n" xs ∧ text ds' = joinStr §"\n" ys ∧ LinesDiffer chs xs ys ∧
      fileAfter E sha (text ds) runs = some (text ds') := by
  refine ⟨fileTextLines [] ds, fileTextLines [] ds', rfl, rfl, runsNew_lines h, ?_⟩
  induction h with
  | nil => rfl
  | @written W args rest chs chs' ds ds1 ds2 hd hg hord hvar hw hh hb ho _ ih =>
    obtain ⟨_, _, _, _, _, h1⟩ := C100_new_format_partial E sha { W with file := some (text ds) } args chs
      ds ds1 hg hord hvar hw rfl hh (bumpedNew_on hb _) ho
    have h2 : bumpRun E sha (text ds) (W, args) = ⟨.exit 0, some (text ds1), none⟩ := by
      unfold bumpRun
      rw [h1, hd]
      rfl
    rw [fileAfter, h2]
    exact ih
  | @kept W args rest chs ds ds2 hw hk _ ih =>
    rw [fileAfter, run_kept hw hk]
    exact ih

/-- C119: a file in any layout of `Spec/Layout.lean`: runs before the first that writes leave every character, and from that run on the
history is that of the canonical text of the same content. -/
theorem C119_free_layout_partial (E : Env) (sha : Str → Str) (before rest : List (BumpWorld × BumpArgs)) (W : BumpWorld) (args : BumpArgs)
    (chs chs' : List LineChange) (vars vars1 vars2 : List (Str × PyVal)) (ds ds1 ds2 : List Doc) (fs : List Str)
    (hf : FreeFile E vars ds fs) (hbefore : NoneWrites E sha (fileText fs) before) (hdry : args.dryRun = false) (hargs : goodArgs args)
    (hord : ∀ l, (W.order l).Perm l) (hvar : W.variants.Perm hashTypeLines) (hw : W.writeFails = none)
    (hhash : NoHashType (fileText fs)) (hb : Bumped E sha W args chs vars ds vars1 ds1) (hok : OkL E ds1)
    (hrest : BumpRuns E sha rest chs' vars1 ds1 vars2 ds2) :
    fileAfter E sha (fileText fs) before = some (fileText fs) ∧
      ∃ xs ys, recipeText vars ds = joinStr §"\n" xs ∧ recipeText vars2 ds2 = joinStr §"\n" ys ∧ LinesDiffer (chs ++ chs') xs ys ∧
        fileAfter E sha (fileText fs) (before ++ (W, args) :: rest) = some (recipeText vars2 ds2) := by
  refine ⟨?_, fileTextLines vars ds, fileTextLines vars2 ds2, rfl, rfl, linesDiffer_append (bumped_file hord hb) (runs_lines hrest), ?_⟩
  · have := noneWrites_file [] hbefore
    rw [List.append_nil] at this
    rw [this]
    rfl
  · obtain ⟨_, _, _, _, _, h1⟩ := C100_bump_free_layout_partial E sha { W with file := some (fileText fs) } args chs vars vars1 ds ds1 fs
      hargs hord hvar hw rfl hf hhash (bumped_on hb _) hok
    have h2 : bumpRun E sha (fileText fs) (W, args) = ⟨.exit 0, some (recipeText vars1 ds1), none⟩ := by
      unfold bumpRun
      rw [h1, hdry]
      rfl
    obtain ⟨_, _, _, _, _, h3⟩ := C119_history_partial E sha rest chs' vars1 vars2 ds1 ds2 hrest
    rw [noneWrites_file _ hbefore, fileAfter, h2]
    exact h3

/-- C119: the same for a file of the new format. -/
theorem C119_new_format_free_layout_partial (E : Env) (sha : Str → Str) (before rest : List (BumpWorld × BumpArgs)) (W : BumpWorld)
    (args : BumpArgs) (chs chs' : List LineChange) (ds ds1 ds2 : List Doc) (fs : List Str) (hf : FreeFile E [] ds fs)
    (hbefore : NoneWrites E sha (fileText fs) before) (hdry : args.dryRun = false) (hargs : goodArgs args)
    (hord : ∀ l, (W.order l).Perm l) (hvar : W.variants.Perm hashTypeLines) (hw : W.writeFails = none)
    (hhash : NoHashType (fileText fs)) (hb : BumpedNew E sha W args chs ds ds1) (hok : OkL E ds1)
    (hrest : BumpRunsNew E sha rest chs' ds1 ds2) :
    fileAfter E sha (fileText fs) before = some (fileText fs) ∧
      ∃ xs ys, text ds = joinStr §"\n" xs ∧ text ds2 = joinStr §"\n" ys ∧ LinesDiffer (chs ++ chs') xs ys ∧
        fileAfter E sha (fileText fs) (before ++ (W, args) :: rest) = some (text ds2) := by
  refine ⟨?_, fileTextLines [] ds, fileTextLines [] ds2, rfl, rfl, linesDiffer_append (bumpedNew_file hord hb) (runsNew_lines hrest), ?_⟩
  · have := noneWrites_file [] hbefore
    rw [List.append_nil] at this
    rw [this]
    rfl
  · obtain ⟨_, _, _, _, _, h1⟩ := C100_new_format_free_layout_partial E sha { W with file := some (fileText fs) } args chs ds ds1 fs
      hargs hord hvar hw rfl hf hhash (bumpedNew_on hb _) hok
    have h2 : bumpRun E sha (fileText fs) (W, args) = ⟨.exit 0, some (text ds1), none⟩ := by
      unfold bumpRun
      rw [h1, hdry]
      rfl
    obtain ⟨_, _, _, _, _, h3⟩ := C119_new_format_partial E sha rest chs' ds1 ds2 hrest
    rw [noneWrites_file _ hbefore, fileAfter, h2]
    exact h3

theorem raisedNew_once {E : Env} {sha : Str → Str} {W : BumpWorld} {pre post above below : List Doc}
    {c vt cm : Str} {v : PyVal} {n : Int} (hpre : Fresh §"build" pre) (hab : Fresh §"number" above) (hn : wholeNumber v = some n)
    (h : CanRaiseNew E (withLine pre post c above below (scalar §"number" vt v cm)) (n + 1)) :
    BumpedNew E sha W { buildNum := true } [.becomes (withComment (§"number: " ++ vt) cm) (§"number: " ++ yamlText (.int (n + 1)))]
      (withLine pre post c above below (scalar §"number" vt v cm)) (withLine pre post c above below (numberLine (n + 1))) := by
  obtain ⟨o, w, ho, hw⟩ := h.opened
  refine .number rfl ho hw (.raised rfl hn h.plain ?_)
  have hw : Within (ScalarBecomes §"number" vt v cm (.int (n + 1))) [] (above ++ scalar §"number" vt v cm :: below)
      (above ++ numberLine (n + 1) :: below) := .here ⟨above, below, rfl, rfl, hab⟩
  have := Within.key (c := c) (post := post) (by decide : isDigitS §"build" = false) hpre hw
  have hs : ∀ d, sec §"build" c (above ++ d :: below) = block §"build" c (above ++ d :: below) := by
    intro d
    cases above <;> rfl
  rw [hs, hs] at this
  exact this

/-- C119: running `bump-recipe --build-num` `k` times on a file of the new format raises the build number by `k`, and nothing else in the
file changes but the comment behind the number, which goes. -/
theorem C119_new_format_build_number_partial (E : Env) (sha : Str → Str) (W : BumpWorld) (pre post above below : List Doc)
    (c vt cm : Str) (v : PyVal) (n : Int) (line : Nat → Doc) (hord : ∀ l, (W.order l).Perm l) (hvar : W.variants.Perm hashTypeLines)
    (hw : W.writeFails = none) (hpre : Fresh §"build" pre) (hab : Fresh §"number" above) (hn : wholeNumber v = some n)
    (h0 : line 0 = scalar §"number" vt v cm) (hline : ∀ j : Nat, line (j + 1) = numberLine (n + (j + 1))) (k : Nat)
    (hcan : ∀ j : Nat, j < k → CanRaiseNew E (withLine pre post c above below (line j)) (n + (j + 1)))
    (hok : OkL E (withLine pre post c above below (line k))) :
    fileAfter E sha (text (withLine pre post c above below (line 0))) (List.replicate k (W, { buildNum := true })) =
      some (text (withLine pre post c above below (line k))) := by
  induction k with
  | zero => rfl
  | succ k ih =>
    have hk := hcan k (by omega)
    obtain ⟨_, _, ho, _⟩ := hk.opened
    rw [List.replicate_succ', fileAfter_snoc, ih (fun j hj => hcan j (by omega)) ho.document.1, Option.bind_some]
    have step : ∀ (vt cm : Str) (v : PyVal), line k = scalar §"number" vt v cm → wholeNumber v = some (n + k) →
        (bumpRun E sha (text (withLine pre post c above below (line k))) (W, { buildNum := true })).file =
          some (text (withLine pre post c above below (line (k + 1)))) := by
      intro vt cm v hl hv
      rw [hl, show n + ((k : Int) + 1) = n + k + 1 by omega] at hk
      have hb := raisedNew_once (sha := sha) (W := { W with file := some (text (withLine pre post c above below (line k))) })
        hpre hab hv hk
      rw [show n + (k : Int) + 1 = n + (k + 1) by omega, ← hline k, ← hl] at hb
      obtain ⟨_, _, _, _, _, h1⟩ := C100_new_format_partial E sha
        { W with file := some (text (withLine pre post c above below (line k))) } { buildNum := true } _ _ _
        ⟨by decide, by decide, Or.inl rfl⟩ hord hvar hw rfl (by rw [hl]; exact hk.noHashType) hb hok
      unfold bumpRun
      rw [h1]
      rfl
    cases k with
    | zero => exact step vt cm v h0 (by rw [hn]; simp)
    | succ k => exact step _ _ _ (hline k) rfl

/-! ## Histories that meet the hypotheses -/

namespace BumpRunsNewExample

/-! The file of `BumpNewExample`, in its free layout: a dry run, then `--build-num` twice. -/

open BumpNewExample (f0 f1 bld lines world1)

def f2 : List Doc := [scalar §"schema_version" §"1" (.int 1) [], bld §"2" 2]

theorem scalar_two : Scalar Toy.env (.int 2) (.int 2) :=
  ⟨rfl, by simp, ⟨by decide +kernel, by decide +kernel, by decide +kernel, by decide +kernel, by decide +kernel, by decide +kernel,
    by decide +kernel⟩, rfl, by simp⟩

theorem again : BumpedNew Toy.env id world1 { buildNum := true } [.becomes §"number: 1" §"number: 2"] f1 f2 :=
  .number (o := BumpNewExample.recipe f1) (v := .dict [(§"number", .int 1)]) rfl
    (BumpNewExample.opened (by decide +kernel) (by decide +kernel)) (by decide +kernel)
    (.raised (vt := §"1") (v := .int 1) (c := []) (n := 1) rfl rfl scalar_two
      (.key (pre := f1.take 1) (post := []) (c := []) (cs := [scalar §"number" §"1" (.int 1) []])
        (cs' := [scalar §"number" §"2" (.int 2) []]) (by decide) (by simp [Fresh, f1, node]) (.here ⟨[], [], rfl, rfl, by simp [Fresh]⟩)))

theorem history : BumpRunsNew Toy.env id [(world1, { target := some [] }), (world1, { buildNum := true })]
    ([.becomes §"number: 1" §"number: 2"] ++ []) f1 f2 :=
  .kept rfl (Or.inr (by decide +kernel))
    (.written rfl ⟨by decide, by decide, Or.inl rfl⟩ (fun l => .refl l) (.refl _) rfl (by unfold NoHashType; decide +kernel) again
      (okLB_sound _ _ (by decide +kernel)) .nil)

example : fileAfter Toy.env id (text f1) [(world1, { target := some [] }), (world1, { buildNum := true })] = some (text f2) := by
  obtain ⟨_, _, _, _, _, h⟩ := C119_new_format_partial Toy.env id _ _ f1 f2 history
  exact h

example : fileAfter Toy.env id (fileText lines)
    ([(world1, { buildNum := true, dryRun := true })] ++ (world1, { buildNum := true }) ::
      [(world1, { target := some [] }), (world1, { buildNum := true })]) =
    some §"schema_version: 1\n\nbuild:\n  number: 2\n" := by
  obtain ⟨_, _, _, _, _, _, h⟩ := C119_new_format_free_layout_partial Toy.env id [(world1, { buildNum := true, dryRun := true })] _ world1
    { buildNum := true } _ _ f0 f1 f2 lines BumpNewExample.free
    (by
      intro run hr
      rw [List.mem_singleton.1 hr]
      exact ⟨rfl, Or.inl rfl⟩)
    rfl ⟨by decide, by decide, Or.inl rfl⟩ (fun l => .refl l) (.refl _) rfl BumpNewExample.noHashType1
    BumpNewExample.bumped1 (okLB_sound _ _ (by decide +kernel)) history
  rw [h]
  decide +kernel

/-! The file of the old format in a free layout of C100: a refused run, then `--build-num`, then a dry run. -/

example : fileAfter Toy.env id (fileText LayoutExample.lines)
    ([(LayoutBumpExample.world, { target := some [] })] ++ (LayoutBumpExample.world, LayoutBumpExample.args) ::
      [(LayoutBumpExample.world, { buildNum := true, dryRun := true })]) =
    some (recipeText LayoutExample.vars LayoutBumpExample.doc1) := by
  obtain ⟨_, _, _, _, _, _, h⟩ := C119_free_layout_partial Toy.env id [(LayoutBumpExample.world, { target := some [] })]
    [(LayoutBumpExample.world, { buildNum := true, dryRun := true })] LayoutBumpExample.world
    LayoutBumpExample.args _ _ _ _ _ _ _ _ _ LayoutExample.free_file
    (by
      intro run hr
      rw [List.mem_singleton.1 hr]
      exact ⟨rfl, Or.inr (by decide +kernel)⟩)
    rfl ⟨by decide, by decide, Or.inl rfl⟩ (fun l => List.reverse_perm l) (.refl _) rfl LayoutBumpExample.noHashType
    LayoutBumpExample.bumped (okLB_sound _ _ (by decide +kernel)) (.kept rfl (Or.inl rfl) .nil)
  exact h

/-! `--build-num` twice on a file of the new format -/

def line : Nat → Doc
  | 0 => scalar §"number" §"5" (.int 5) §"# reset"
  | j + 1 => numberLine (5 + (j + 1))

theorem can (j : Nat) (h : j < 2) : CanRaiseNew Toy.env (withLine BumpNewExample.front [] [] [] [] (line j)) (5 + (j + 1)) := by
  rcases j with _ | _ | j
  · exact ⟨⟨_, .dict [(§"number", .int 5)], BumpNewExample.opened (by decide +kernel) (by decide +kernel), by decide +kernel⟩,
      by unfold NoHashType; decide +kernel, BumpRunsExample.scalar_number 6 (by decide)⟩
  · exact ⟨⟨_, .dict [(§"number", .int 6)], BumpNewExample.opened (by decide +kernel) (by decide +kernel), by decide +kernel⟩,
      by unfold NoHashType; decide +kernel, BumpRunsExample.scalar_number 7 (by decide)⟩
  · omega

example : fileAfter Toy.env id §"schema_version: 1

context:
  name: p  # why

build:
  number: 5  # reset
" [(world1, { buildNum := true }), (world1, { buildNum := true })] = some §"schema_version: 1

context:
  name: p  # why

build:
  number: 7
" := by
  have := C119_new_format_build_number_partial Toy.env id world1 BumpNewExample.front [] [] [] [] §"5" §"# reset" (.int 5) 5 line
    (fun l => .refl l) (.refl _) rfl (by simp [Fresh, BumpNewExample.front, node]) (by simp [Fresh]) rfl rfl (fun _ => rfl) 2 can
    (okLB_sound _ _ (by decide +kernel))
  refine Eq.trans (congrArg (fileAfter Toy.env id · _) ?_) (this.trans ?_)
  · decide +kernel
  · decide +kernel

end BumpRunsNewExample

end Crm
