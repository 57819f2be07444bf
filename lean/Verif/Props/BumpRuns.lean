import Verif.Spec.BumpRuns
import Verif.Props.BumpFile

/-!
# C119: Running bump-recipe again and again
-/

namespace Crm
open Spec Doc

theorem linesDiffer_append {as bs : List LineChange} {xs ys zs : List Str} (h1 : LinesDiffer as xs ys) (h2 : LinesDiffer bs ys zs) :
    LinesDiffer (as ++ bs) xs zs := by
  induction h1 with
  | nil => exact h2
  | cons h _ ih => exact .cons h (ih h2)

theorem runs_lines {E : Env} {sha : Str → Str} {runs : List (BumpWorld × BumpArgs)} {chs : List LineChange}
    {vars vars' : List (Str × PyVal)} {ds ds' : List Doc} (h : BumpRuns E sha runs chs vars ds vars' ds') :
    LinesDiffer chs (fileTextLines vars ds) (fileTextLines vars' ds') := by
  induction h with
  | nil => exact .nil
  | written _ _ hord _ _ _ hb _ _ ih => exact linesDiffer_append (bumped_file hord hb) ih
  | kept _ _ _ ih => exact ih

/-- C119: after any history of runs the file is the text with all their changes made one after the other: every other line is as it
was, and dry runs and runs that fail leave no trace.  Missing: runs whose writing fails
(`C45_write_failure_violation`).  `Props/BumpRunsNew.lean` has a first file in any layout, and files of the new format. -/
theorem C119_history_partial (E : Env) (sha : Str → Str) (runs : List (BumpWorld × BumpArgs)) (chs : List LineChange)
    (vars vars' : List (Str × PyVal)) (ds ds' : List Doc) (h : BumpRuns E sha runs chs vars ds vars' ds') :
    ∃ xs ys, recipeText vars ds = joinStr §"\n" xs ∧ recipeText vars' ds' = joinStr §"\n" ys ∧ LinesDiffer chs xs ys ∧
      fileAfter E sha (recipeText vars ds) runs = some (recipeText vars' ds') := by
  refine ⟨fileTextLines vars ds, fileTextLines vars' ds', rfl, rfl, runs_lines h, ?_⟩
  induction h with
  | nil => rfl
  | @written W args rest chs chs' vars ds vars1 ds1 vars2 ds2 hd hg hord hvar hw hh hb ho _ ih =>
    have hb' : Bumped E sha { W with file := some (recipeText vars ds) } args chs vars ds vars1 ds1 := by
      cases hb with
      | number a b c d => exact .number a b c d
      | version a b c d e f g h i => exact .version a b c d e f g h i
    obtain ⟨_, _, _, _, _, h1⟩ := C100_bump_changes_only_these_lines_partial E sha { W with file := some (recipeText vars ds) } args chs
      vars vars1 ds ds1 hg hord hvar hw rfl hh hb' ho
    have h2 : bumpRun E sha (recipeText vars ds) (W, args) = ⟨.exit 0, some (recipeText vars1 ds1), none⟩ := by
      unfold bumpRun
      rw [h1, hd]
      rfl
    rw [fileAfter, h2]
    exact ih
  | @kept W args rest chs vars ds vars2 ds2 hw hk _ ih =>
    obtain ⟨u1, u2⟩ := C45_untouched_partial E sha { W with file := some (recipeText vars ds) } args
    have h2 : (bumpRun E sha (recipeText vars ds) (W, args)).file = some (recipeText vars ds) := by
      rcases hk with hk | hk
      · exact u1 hk
      · exact u2 hw hk
    rw [fileAfter, h2]
    exact ih

theorem raised_once {E : Env} {sha : Str → Str} {W : BumpWorld} {vars : List (Str × PyVal)} {pre post above below : List Doc}
    {c vt cm : Str} {v : PyVal} {n : Int} (hpre : Fresh §"build" pre) (hab : Fresh §"number" above) (hn : wholeNumber v = some n)
    (h : CanRaise E vars (withLine pre post c above below (scalar §"number" vt v cm)) (n + 1)) :
    Bumped E sha W { buildNum := true } [.becomes (withComment (§"number: " ++ vt) cm) (§"number: " ++ yamlText (.int (n + 1)))] vars
      (withLine pre post c above below (scalar §"number" vt v cm)) vars (withLine pre post c above below (numberLine (n + 1))) := by
  obtain ⟨o, ho, _⟩ := open_v0 h.definitions h.document h.format
  obtain ⟨w, hw⟩ := h.section_ o ho
  refine .number rfl ⟨h.definitions, h.document, h.format, ho⟩ hw (.raised rfl hn h.plain ?_)
  have hw : Within (ScalarBecomes §"number" vt v cm (.int (n + 1))) [] (above ++ scalar §"number" vt v cm :: below)
      (above ++ numberLine (n + 1) :: below) := .here ⟨above, below, rfl, rfl, hab⟩
  have := Within.key (c := c) (post := post) (by decide : isDigitS §"build" = false) hpre hw
  have hs : ∀ d, sec §"build" c (above ++ d :: below) = block §"build" c (above ++ d :: below) := by
    intro d
    cases above <;> rfl
  rw [hs, hs] at this
  exact this

theorem fileAfter_snoc (E : Env) (sha : Str → Str) (run : BumpWorld × BumpArgs) : ∀ (runs : List (BumpWorld × BumpArgs)) (text : Str),
    fileAfter E sha text (runs ++ [run]) = (fileAfter E sha text runs).bind fun t => (bumpRun E sha t run).file
  | [], text => by simp [fileAfter]
  | x :: rest, text => by
    simp only [List.cons_append, fileAfter]
    cases (bumpRun E sha text x).file with
    | none => rfl
    | some t => exact fileAfter_snoc E sha run rest t

/-- C119: running `bump-recipe --build-num` `k` times raises the build number by `k`, and nothing else in the file changes but the comment
behind the number, which goes. -/
theorem C119_build_number_partial (E : Env) (sha : Str → Str) (W : BumpWorld) (vars : List (Str × PyVal)) (pre post above below : List Doc)
    (c vt cm : Str) (v : PyVal) (n : Int) (line : Nat → Doc) (hord : ∀ l, (W.order l).Perm l) (hvar : W.variants.Perm hashTypeLines)
    (hw : W.writeFails = none) (hpre : Fresh §"build" pre) (hab : Fresh §"number" above) (hn : wholeNumber v = some n)
    (h0 : line 0 = scalar §"number" vt v cm) (hline : ∀ j : Nat, line (j + 1) = numberLine (n + (j + 1))) (k : Nat)
    (hcan : ∀ j : Nat, j < k → CanRaise E vars (withLine pre post c above below (line j)) (n + (j + 1)))
    (hok : OkL E (withLine pre post c above below (line k))) :
    fileAfter E sha (recipeText vars (withLine pre post c above below (line 0))) (List.replicate k (W, { buildNum := true })) =
      some (recipeText vars (withLine pre post c above below (line k))) := by
  induction k with
  | zero => rfl
  | succ k ih =>
    have hk := hcan k (by omega)
    rw [List.replicate_succ', fileAfter_snoc, ih (fun j hj => hcan j (by omega)) hk.document.1, Option.bind_some]
    have step : ∀ (vt cm : Str) (v : PyVal), line k = scalar §"number" vt v cm → wholeNumber v = some (n + k) →
        (bumpRun E sha (recipeText vars (withLine pre post c above below (line k))) (W, { buildNum := true })).file =
          some (recipeText vars (withLine pre post c above below (line (k + 1)))) := by
      intro vt cm v hl hv
      rw [hl, show n + ((k : Int) + 1) = n + k + 1 by omega] at hk
      have hb := raised_once (sha := sha) (W := { W with file := some (recipeText vars (withLine pre post c above below (line k))) })
        hpre hab hv hk
      rw [show n + (k : Int) + 1 = n + (k + 1) by omega, ← hline k, ← hl] at hb
      obtain ⟨_, _, _, _, _, h1⟩ := C100_bump_changes_only_these_lines_partial E sha
        { W with file := some (recipeText vars (withLine pre post c above below (line k))) } { buildNum := true } _ vars vars _ _
        ⟨by decide, by decide, Or.inl rfl⟩ hord hvar hw rfl (by rw [hl]; exact hk.noHashType) hb hok
      unfold bumpRun
      rw [h1]
      rfl
    cases k with
    | zero => exact step vt cm v h0 (by rw [hn]; simp)
    | succ k => exact step _ _ _ (hline k) rfl

/-- C119: the same where there is no build number yet: the first run adds `number: 0` at the end of `build` (which may be
empty), so that after `k + 1` runs the
number is `k`. -/
theorem C119_no_number_partial (E : Env) (sha : Str → Str) (W : BumpWorld) (vars : List (Str × PyVal)) (pre post cs : List Doc) (c : Str)
    (hord : ∀ l, (W.order l).Perm l) (hvar : W.variants.Perm hashTypeLines) (hw : W.writeFails = none) (hpre : Fresh §"build" pre)
    (hcs : Fresh §"number" cs) (hnew : Collection E (.dict [(§"number", .int 0)]) [numberLine 0])
    (hfirst : CanRaise E vars (pre ++ sec §"build" c cs :: post) 0) (k : Nat)
    (hcan : ∀ j : Nat, j < k → CanRaise E vars (withLine pre post c cs [] (numberLine j)) (j + 1))
    (hok : ∀ j : Nat, j ≤ k → OkL E (withLine pre post c cs [] (numberLine j))) :
    fileAfter E sha (recipeText vars (pre ++ sec §"build" c cs :: post)) (List.replicate (k + 1) (W, { buildNum := true })) =
      some (recipeText vars (withLine pre post c cs [] (numberLine k))) := by
  obtain ⟨o, ho, _⟩ := open_v0 hfirst.definitions hfirst.document hfirst.format
  obtain ⟨w, hsec⟩ := hfirst.section_ o ho
  have hwithin : Within (EndsFresh §"number" (numberLine 0)) [§"build"] (pre ++ sec §"build" c cs :: post)
      (withLine pre post c cs [] (numberLine 0)) := by
    have := Within.key (c := c) (post := post) (by decide : isDigitS §"build" = false) hpre
      (Within.here (R := EndsFresh §"number" (numberLine 0)) ⟨hcs, rfl⟩)
    have e2 : sec §"build" c (cs ++ [numberLine 0]) = block §"build" c (cs ++ [numberLine 0]) := by cases cs <;> rfl
    rw [e2] at this
    exact this
  have hb : Bumped E sha { W with file := some (recipeText vars (pre ++ sec §"build" c cs :: post)) } { buildNum := true }
      [.added (§"number: " ++ yamlText (.int 0))] vars (pre ++ sec §"build" c cs :: post) vars
      (withLine pre post c cs [] (numberLine 0)) :=
    .number rfl ⟨hfirst.definitions, hfirst.document, hfirst.format, ho⟩ hsec (.reset (Or.inr ⟨_, rfl⟩) (.added hnew hwithin))
  obtain ⟨_, _, _, _, _, h1⟩ := C100_bump_changes_only_these_lines_partial E sha
    { W with file := some (recipeText vars (pre ++ sec §"build" c cs :: post)) } { buildNum := true } _ vars vars _ _
    ⟨by decide, by decide, Or.inl rfl⟩ hord hvar hw rfl hfirst.noHashType hb (hok 0 (by omega))
  have h2 : bumpRun E sha (recipeText vars (pre ++ sec §"build" c cs :: post)) (W, { buildNum := true }) =
      ⟨.exit 0, some (recipeText vars (withLine pre post c cs [] (numberLine 0))), none⟩ := by
    unfold bumpRun
    rw [h1]
    rfl
  rw [List.replicate_succ, fileAfter, h2, Option.bind_some]
  exact C119_build_number_partial E sha W vars pre post cs [] c (yamlText (.int 0)) [] (.int 0) 0 (fun j => numberLine j) hord hvar hw hpre hcs
    rfl rfl (fun j => by simp) k (fun j hj => by simpa using hcan j hj) (hok k (by omega))

/-! ## Cases that meet the hypotheses -/

namespace BumpRunsExample
open BumpFileExample

theorem scalar_number (n : Int) (h : n ∈ [0, 1, 6, 7]) : Scalar Toy.env (.int n) (.int n) := by
  simp only [List.mem_cons, List.not_mem_nil, or_false] at h
  rcases h with rfl | rfl | rfl | rfl <;>
  exact ⟨rfl, by simp, ⟨by decide +kernel, by decide +kernel, by decide +kernel, by decide +kernel, by decide +kernel, by decide +kernel,
    by decide +kernel⟩, rfl, by simp⟩

theorem canRaise {vars : List (Str × PyVal)} {ds : List Doc} {n : Int} (hv : Writable Toy.env vars) (hd : documentB Toy.env ds = true)
    (hf : Fresh §"schema_version" ds) (hh : NoHashType (recipeText vars ds))
    (hs : ((recipe vars ds).getValue Toy.env §"/build").toOption.isSome = true) (hn : n ∈ [0, 1, 6, 7]) : CanRaise Toy.env vars ds n := by
  refine ⟨hv, documentB_sound hd, hf, hh, ?_, scalar_number n hn⟩
  intro o ho
  have := (BumpFileExample.opened hv hd hf).opened
  rw [ho] at this
  injection this with this
  subst this
  cases h : (recipe vars ds).getValue Toy.env §"/build" with
  | error e => rw [h] at hs; cases hs
  | ok v => exact ⟨v, rfl⟩

def top : List Doc := [pkg, block §"source" [] [src1 §"ab", src2 []]]
def line : Nat → Doc
  | 0 => scalar §"number" §"5" (.int 5) §"# [win]"
  | j + 1 => numberLine (5 + (j + 1))

theorem fresh (d : Doc) : Fresh §"schema_version" (withLine top [] [] [] [noarch] d) := by
  simp [Fresh, withLine, top, pkg, node]

theorem can (j : Nat) (h : j < 2) : CanRaise Toy.env vars0 (withLine top [] [] [] [noarch] (line j)) (5 + (j + 1)) := by
  rcases j with _ | _ | j
  · exact canRaise writable0 (by decide +kernel) (fresh _) (by unfold NoHashType; decide +kernel) (by decide +kernel) (by decide)
  · exact canRaise writable0 (by decide +kernel) (fresh _) (by unfold NoHashType; decide +kernel) (by decide +kernel) (by decide)
  · omega

/-- Two runs with `--build-num` on the file of C100. -/
example : fileAfter Toy.env id (recipeText vars0 d0) [(world, { buildNum := true }), (world, { buildNum := true })] =
    some §"{% set version = \"1.0\" %}

package:
  name: p
  version: {{ version }}

source:
  - url: http://x  # [unix]
    # checked
    sha256: ab
  - url: http://y
    fn: y

build:
  number: 7
  noarch: generic  # why
" := by
  have := C119_build_number_partial Toy.env id world vars0 top [] [] [noarch] [] §"5" §"# [win]" (.int 5) 5 line
    (fun l => List.reverse_perm l) (.refl _) rfl (by simp [Fresh, top, pkg, node]) (by simp [Fresh]) rfl rfl (fun _ => rfl) 2 can
    (okLB_sound _ _ (by decide +kernel))
  exact this.trans (by decide +kernel)

/-- Two runs on a file without a build number. -/
theorem can_first (j : Nat) (h : j < 1) : CanRaise Toy.env vars0 (withLine top [] [] [noarch] [] (numberLine j)) (j + 1) := by
  rcases j with _ | j
  · exact canRaise writable0 (by decide +kernel) (by simp [Fresh, withLine, top, pkg, node]) (by unfold NoHashType; decide +kernel)
      (by decide +kernel) (by decide)
  · omega

example : fileAfter Toy.env id (recipeText vars0 (top ++ [block §"build" [] [noarch]]))
    [(world, { buildNum := true }), (world, { buildNum := true })] = some §"{% set version = \"1.0\" %}

package:
  name: p
  version: {{ version }}

source:
  - url: http://x  # [unix]
    # checked
    sha256: ab
  - url: http://y
    fn: y

build:
  noarch: generic  # why
  number: 1
" := by
  have := C119_no_number_partial Toy.env id world vars0 top [] [noarch] [] (fun l => List.reverse_perm l) (.refl _) rfl
    (by simp [Fresh, top, pkg, node]) (by simp [Fresh, node, noarch])
    ⟨Or.inr ⟨_, rfl⟩, okLB_sound _ _ (by decide +kernel), by simp [numberLine], by decide, by decide +kernel,
      by simp [Fresh, node, numberLine]⟩
    (canRaise writable0 (by decide +kernel) (by simp [Fresh, sec, top, pkg, node]) (by unfold NoHashType; decide +kernel)
      (by decide +kernel) (by decide)) 1 can_first
    (fun j hj => by
      rcases j with _ | _ | j
      · exact okLB_sound _ _ (by decide +kernel)
      · exact okLB_sound _ _ (by decide +kernel)
      · omega)
  exact this.trans (by decide +kernel)

/-- To version 2.0, then a dry run to another version, then a run with an empty version, which is refused, then `--build-num`. -/
def runs : List (BumpWorld × BumpArgs) :=
  [(world, args), (world, { target := some §"3.0", dryRun := true }), (world, { target := some [] }), (world, { buildNum := true })]

def after : List Doc := [pkg, block §"source" [] [src1 §"abc", src2 [hash]], block §"build" [] [numberLine 1, noarch]]

theorem last : Bumped Toy.env id world { buildNum := true } [.becomes §"number: 0" §"number: 1"] vars1 d3 vars1 after :=
  raised_once (pre := d3.take 2) (post := []) (above := []) (below := [noarch]) (c := []) (vt := §"0") (cm := []) (v := .int 0) (n := 0)
    (by simp [Fresh, d3, pkg, node]) (by simp [Fresh]) rfl
    (canRaise writable1 (by decide +kernel) (by simp [Fresh, withLine, d3, pkg, node]) (by unfold NoHashType; decide +kernel)
      (by decide +kernel) (by decide))

theorem history : BumpRuns Toy.env id runs ([.becomes §"number: 5  # [win]" §"number: 0",
    .becomes §"{% set version = \"1.0\" %}" §"{% set version = \"2.0\" %}",
    .added §"sha256: abc", .becomes §"sha256: ab" §"sha256: abc"] ++ [.becomes §"number: 0" §"number: 1"]) vars0 d0 vars1 after :=
  .written rfl ⟨by decide, by decide, Or.inr rfl⟩ (fun l => List.reverse_perm l) (.refl _) rfl noHashType bumped
    (okLB_sound _ _ (by decide +kernel))
    (.kept rfl (Or.inl rfl)
      (.kept rfl (Or.inr (by decide +kernel))
        (.written (chs := [.becomes §"number: 0" §"number: 1"]) (chs' := []) rfl ⟨by decide, by decide, Or.inl rfl⟩
          (fun l => List.reverse_perm l) (.refl _) rfl (by unfold NoHashType; decide +kernel) last (okLB_sound _ _ (by decide +kernel))
          .nil)))

example : fileAfter Toy.env id (recipeText vars0 d0) runs = some (recipeText vars1 after) := by
  obtain ⟨_, _, _, _, _, h⟩ := C119_history_partial Toy.env id runs _ vars0 vars1 d0 after history
  exact h

end BumpRunsExample

end Crm
