import Verif.Props.BumpFile
import Verif.Props.Layout
import Verif.Props.ConvLayout
import Verif.Props.PatchFile

/-!
# C100: bumping a recipe file as people write it
-/

namespace Crm
open Spec Doc

/-- C100: for a file in any layout of `Spec/Layout.lean` the run succeeds, and the file it writes is the canonical text of the
document with the build number, the version and the hashes set: apart from the layout, each changes or adds one line, and every
other line is as it was. -/
theorem C100_bump_free_layout_partial (E : Env) (sha : Str → Str) (W : BumpWorld) (args : BumpArgs) (chs : List LineChange)
    (vars vars' : List (Str × PyVal)) (ds ds' : List Doc) (fs : List Str) (hargs : goodArgs args) (hord : ∀ l, (W.order l).Perm l)
    (hvar : W.variants.Perm hashTypeLines) (hwrite : W.writeFails = none) (hfile : W.file = some (fileText fs))
    (hf : FreeFile E vars ds fs) (hhash : NoHashType (fileText fs)) (h : Bumped E sha W args chs vars ds vars' ds') (hok : OkL E ds') :
    ∃ xs ys, recipeText vars ds = joinStr §"\n" xs ∧ recipeText vars' ds' = joinStr §"\n" ys ∧ LinesDiffer chs xs ys ∧
      bumpRecipe E sha W args =
        if args.dryRun then ⟨.exit 0, W.file, some (recipeText vars' ds')⟩ else ⟨.exit 0, some (recipeText vars' ds'), none⟩ := by
  refine ⟨fileTextLines vars ds, fileTextLines vars' ds', rfl, rfl, bumped_file hord h, ?_⟩
  obtain ⟨o, ho⟩ := bumped_opened h
  have hopen : Recipe.ofString E (fileText fs) = .ok { o with init := fileText fs } := by
    rw [C31_layout_does_not_matter_partial E vars ds fs ho.definitions ho.document hf, ho.opened]; rfl
  have hst : Stands .v0 vars ds { o with init := fileText fs } := ⟨ho.stored.stands.tree, ho.stored.stands.vars, ho.stored.stands.schema⟩
  obtain ⟨r', h1, h2⟩ := bumped_step hord h hst
  obtain ⟨ns, h3, h4⟩ := h2.tree
  have hren : r'.render = recipeText vars' ds' := by rw [shows_render h3 h4 hok, h2.schema, h2.vars]; rfl
  obtain ⟨g1, g2, g3⟩ := hargs
  unfold bumpRecipe
  rw [if_neg (by rintro (h | h); exact g1 h; omega), if_neg (by
    unfold asksSomething at g3
    rcases g3 with g3 | g3
    · simp [g3]
    · cases ht : args.target <;> simp_all), hfile]
  simp only [noHashType_kept hvar hhash, hopen, h1, hren, hwrite]

section
variable (E : Env) (s : Str)

/-- The same recipe, read from another text. -/
def again (r : Recipe) : Recipe := { r with init := s }

theorem exitOnFailedPatch_again (r : Recipe) (p : PyVal) :
    exitOnFailedPatch E (again s r) p = (exitOnFailedPatch E r p).map (again s) := by
  unfold exitOnFailedPatch
  rw [show (again s r).patch E p = _ from patch_init E r s p]
  rcases r.patch E p with ⟨res, r'⟩
  rcases res with e | b
  · rfl
  · cases b <;> rfl

theorem updateBuildNum_again (r : Recipe) (b : Bool) : updateBuildNum E (again s r) b = (updateBuildNum E r b).map (again s) := by
  unfold updateBuildNum
  rw [show (again s r).getValue E §"/build" = r.getValue E §"/build" from rfl,
    show (again s r).containsValue §"/build/number" = r.containsValue §"/build/number" from rfl,
    show (again s r).getValue E §"/build/number" = r.getValue E §"/build/number" from rfl]
  simp only [bind, Except.bind, exitOnFailedPatch_again]
  split
  · rfl
  · rfl
  · cases orRaise (r.containsValue §"/build/number") with
    | error e => rfl
    | ok present =>
      simp only
      split
      · cases orRaise (r.getValue E §"/build/number") with
        | error e => rfl
        | ok v =>
          simp only
          cases asInt v <;> rfl
      · rfl

theorem updateVersion_again (r : Recipe) (t : Str) : updateVersion E (again s r) t = (updateVersion E r t).map (again s) := by
  unfold updateVersion
  rw [show (again s r).getVariable §"version" (some .none) = r.getVariable §"version" (some .none) from rfl,
    show (again s r).containsValue §"/package/version" = r.containsValue §"/package/version" from rfl]
  simp only [bind, Except.bind, exitOnFailedPatch_again]
  cases orRaise (r.getVariable §"version" (some .none)) with
  | error e => rfl
  | ok old =>
    simp only
    split
    · rfl
    · cases orRaise (r.containsValue §"/package/version") <;> rfl

theorem patchShas_again : ∀ (tbl : List (Str × Str)) (r : Recipe), patchShas E tbl (again s r) = (patchShas E tbl r).map (again s)
  | [], r => rfl
  | (path, x) :: rest, r => by
    unfold patchShas
    rw [show (again s r).containsValue path = r.containsValue path from rfl]
    simp only [bind, Except.bind, exitOnFailedPatch_again]
    cases orRaise (r.containsValue path) with
    | error e => rfl
    | ok b =>
      simp only
      cases exitOnFailedPatch E r (valuePatch (if b = true then §"replace" else §"add") path (.str x)) with
      | error e => rfl
      | ok r' => exact patchShas_again rest r'

theorem checkHashVar_again (sha : Str → Str) (net : Requests) (r : Recipe) (tbl : List (Str × Fetcher)) :
    checkHashVar sha net (again s r) tbl = (checkHashVar sha net r tbl).map (Option.map (again s)) := by
  unfold checkHashVar
  rw [show (again s r).listVariables = r.listVariables from rfl]
  split
  · rename_i hv path _ _ _
    rw [show (again s r).getVariableReferences hv = r.getVariableReferences hv from rfl]
    split
    · simp only [bind, Except.bind]
      cases orHttpExit (getSha256 sha (net path)).1 <;> rfl
    · rfl
  · rfl

theorem updateSha256_again (sha : Str → Str) (net : Network) (order : List Str → List Str) (r : Recipe) :
    updateSha256 E sha net order (again s r) = (updateSha256 E sha net order r).map (again s) := by
  unfold updateSha256
  rw [show fetchersOf E (again s r) true = fetchersOf E r true from rfl]
  simp only [bind, Except.bind]
  cases orRaise (fetchersOf E r true) with
  | error e => rfl
  | ok tbl =>
    simp only [checkHashVar_again]
    split
    · rfl
    · cases checkHashVar sha (requests net tbl) r tbl with
      | error e => rfl
      | ok o =>
        cases o with
        | some r' => rfl
        | none =>
          simp only [Except.map, Option.map]
          cases collectShas sha (requests net tbl) (order (httpPaths tbl)) [] with
          | error e => rfl
          | ok t => exact patchShas_again E s t r

theorem bumpEdits_again (sha : Str → Str) (W : BumpWorld) (args : BumpArgs) (r : Recipe) :
    bumpEdits E sha W args (again s r) = (bumpEdits E sha W args r).map (again s) := by
  unfold bumpEdits
  simp only [bind, Except.bind, updateBuildNum_again]
  cases updateBuildNum E r args.buildNum with
  | error e => rfl
  | ok r1 =>
    simp only [Except.map]
    cases args.target with
    | none => rfl
    | some t =>
      simp only
      rw [show (again s r1).getValue E §"/package/version" (some .none) true = r1.getValue E §"/package/version" (some .none) true from rfl]
      cases orRaise (r1.getValue E §"/package/version" (some .none) true) with
      | error e => rfl
      | ok v =>
        simp only [updateVersion_again]
        cases updateVersion E r1 t with
        | error e => rfl
        | ok r2 => exact updateSha256_again E s sha W.net W.order r2

end

/-- C100: the layout of the file has no influence on a run, whatever the options, the network and the recipe: of two files that show the
same entries it makes the same text, or it leaves both as they are; how it ends and what it prints is the same. -/
theorem C100_layout_does_not_matter_partial (E : Env) (sha : Str → Str) (W : BumpWorld) (args : BumpArgs) (vars : List (Str × PyVal))
    (ds : List Doc) (fs gs : List Str) (hvar : W.variants.Perm hashTypeLines) (ho : OkL E ds) (hf : FreeFile E vars ds fs)
    (hg : FreeFile E vars ds gs) (hhf : NoHashType (fileText fs)) (hhg : NoHashType (fileText gs)) :
    ∃ stop printed, (∃ file, bumpRecipe E sha { W with file := some (fileText fs) } args = ⟨stop, file, printed⟩ ∧
        bumpRecipe E sha { W with file := some (fileText gs) } args = ⟨stop, file, printed⟩) ∨
      (bumpRecipe E sha { W with file := some (fileText fs) } args = ⟨stop, some (fileText fs), printed⟩ ∧
        bumpRecipe E sha { W with file := some (fileText gs) } args = ⟨stop, some (fileText gs), printed⟩) := by
  have h := layouts_opened E ho hf hg
  unfold bumpRecipe
  by_cases h1 : args.target = some [] ∨ args.interval ≤ 0
  · rw [if_pos h1, if_pos h1]; exact ⟨_, _, Or.inr ⟨rfl, rfl⟩⟩
  rw [if_neg h1, if_neg h1]
  by_cases h2 : (!args.buildNum && args.target.isNone) = true
  · rw [if_pos h2, if_pos h2]; exact ⟨_, _, Or.inr ⟨rfl, rfl⟩⟩
  rw [if_neg h2, if_neg h2]
  simp only [noHashType_kept hvar hhf, noHashType_kept hvar hhg, h]
  cases hr : Recipe.ofString E (fileText fs) with
  | error e => exact ⟨_, _, Or.inr ⟨rfl, rfl⟩⟩
  | ok r =>
    have key : ∀ (file : Option Str) (r : Recipe), bumpEdits E sha { W with file := file } args r = bumpEdits E sha W args r := fun _ _ => rfl
    simp only [Except.map, key, show ({ r with init := fileText gs } : Recipe) = again (fileText gs) r from rfl, bumpEdits_again]
    cases bumpEdits E sha W args r with
    | error stop => exact ⟨_, _, Or.inr ⟨rfl, rfl⟩⟩
    | ok r' =>
      simp only
      split
      · exact ⟨_, _, Or.inr ⟨rfl, rfl⟩⟩
      · cases W.writeFails <;> exact ⟨_, _, Or.inl ⟨_, rfl, rfl⟩⟩

/-! ## A file that meets the hypotheses -/

namespace LayoutBumpExample
open LayoutExample

def doc1 : List Doc :=
  [ comment §"# A recipe",
    block §"package" [] [scalar §"name" §"foo" (.str §"foo") §"# [win]", scalar §"version" §"1.2" (.flt §"1.2") []],
    block §"build" [] [multi §"script" .pipe [] [§"make", §"make install", []], scalar §"number" §"1" (.int 1) []] ]

def world : BumpWorld := { file := some (fileText lines), net := fun _ _ _ => exGood, order := List.reverse }
def args : BumpArgs := { buildNum := true }

theorem scalar_one : Scalar Toy.env (.int 1) (.int 1) :=
  ⟨rfl, by simp, ⟨by decide +kernel, by decide +kernel, by decide +kernel, by decide +kernel, by decide +kernel, by decide +kernel,
    by decide +kernel⟩, rfl, by simp⟩

theorem number : NumberBumped Toy.env true (.becomes §"number: 0" §"number: 1") doc doc1 :=
  .raised (vt := §"0") (v := .int 0) (c := []) (n := 0) rfl rfl scalar_one
    (.key (pre := doc.take 2) (post := []) (c := [])
      (cs := [multi §"script" .pipe [] [§"make", §"make install", []], scalar §"number" §"0" (.int 0) []])
      (cs' := [multi §"script" .pipe [] [§"make", §"make install", []], scalar §"number" §"1" (.int 1) []])
      (by decide) (by simp [Fresh, doc, node])
      (.here ⟨[multi §"script" .pipe [] [§"make", §"make install", []]], [], rfl, rfl, by simp [Fresh, node]⟩))

theorem build_value : (BumpFileExample.recipe vars doc).getValue Toy.env §"/build" =
    .ok (.dict [(§"script", .str §"make\nmake install"), (§"number", .int 0)]) := by decide +kernel

theorem bumped : Bumped Toy.env id world args [.becomes §"number: 0" §"number: 1"] vars doc vars doc1 :=
  .number (o := BumpFileExample.recipe vars doc) rfl
    (BumpFileExample.opened writable (by decide +kernel) (by simp [Fresh, doc, node])) build_value number

theorem noHashType : NoHashType (fileText lines) := by
  unfold NoHashType
  decide +kernel

/-- What the theorem gives for this run. -/
example : bumpRecipe Toy.env id world args = ⟨.exit 0, some §"{% set name = \"foo\" %}
{% set n = 3 %}

# A recipe
package:
  name: foo  # [win]
  version: 1.2

build:
  script: |
    make
    make install

  number: 1
", none⟩ := by
  obtain ⟨_, _, _, _, _, h⟩ := C100_bump_free_layout_partial Toy.env id world args _ vars vars doc doc1 lines
    ⟨by decide, by decide, Or.inl rfl⟩ (fun l => List.reverse_perm l) (.refl _) rfl rfl free_file noHashType bumped
    (okLB_sound _ _ (by decide +kernel))
  rw [h]
  decide +kernel

theorem noHashType_tidy : NoHashType (fileText ConvLayoutExample.tidy) := by
  unfold NoHashType
  decide +kernel

/-- The same file in another layout: the same ends, whatever the options are. -/
example (options : BumpArgs) (sha : Str → Str) : ∃ stop printed,
    (∃ file, bumpRecipe Toy.env sha { world with file := some (fileText lines) } options = ⟨stop, file, printed⟩ ∧
      bumpRecipe Toy.env sha { world with file := some (fileText ConvLayoutExample.tidy) } options = ⟨stop, file, printed⟩) ∨
    (bumpRecipe Toy.env sha { world with file := some (fileText lines) } options = ⟨stop, some (fileText lines), printed⟩ ∧
      bumpRecipe Toy.env sha { world with file := some (fileText ConvLayoutExample.tidy) } options =
        ⟨stop, some (fileText ConvLayoutExample.tidy), printed⟩) :=
  C100_layout_does_not_matter_partial Toy.env sha world options vars doc lines ConvLayoutExample.tidy (.refl _) document.1 free_file
    ConvLayoutExample.tidy_file noHashType noHashType_tidy

end LayoutBumpExample

end Crm
