import Verif.Props.Commands
import Verif.Props.Sort
import Verif.Lemmas.RegexFirst

/-! # Bulk commands: success thresholds (C50), output files (C72), bulk builds (C52) -/

namespace Crm
open Spec

/-! ## Thresholds -/

namespace Spec

/-- `round2 n t` is `n / t` rounded to hundredths: at most half a hundredth away. -/
def Nearest (round2 : Nat → Nat → Int) : Prop :=
  ∀ n t : Nat, 0 < t → 2 * (100 * n - t * round2 n t) ≤ (t : Int) ∧ 2 * (t * round2 n t - 100 * n) ≤ (t : Int)

end Spec

/-- Rounding half up is such a rounding. -/
theorem nearest_half_up : Nearest fun n t => ((200 * n + t) / (2 * t) : Nat) := by
  intro n t ht
  have h1 := Nat.div_add_mod (200 * n + t) (2 * t)
  have h2 := Nat.mod_lt (200 * n + t) (show 2 * t > 0 by omega)
  simp only
  generalize (200 * n + t) / (2 * t) = q at *
  generalize (200 * n + t) % (2 * t) = m at *
  have h3 : ((t * q : Nat) : Int) = (t : Int) * (q : Int) := by simp
  have h4 : 2 * t * q = 2 * (t * q) := by rw [Nat.mul_assoc]
  rw [h4] at h1
  constructor
  · show 2 * (100 * (n : Int) - (t : Int) * (q : Int)) ≤ t
    rw [← h3]; omega
  · show 2 * ((t : Int) * (q : Int) - 100 * (n : Int)) ≤ t
    rw [← h3]; omega

/-- A rate that reaches a threshold of whole hundredths passes. -/
theorem meets_of_le {round2 : Nat → Nat → Int} (hr : Nearest round2) (n total k : Nat) (ht : 0 < total)
    (h : k * total ≤ 100 * n) : meets round2 n total ⟨k, 100⟩ = true := by
  have ⟨h1, _⟩ := hr n total ht
  simp only [meets, decide_eq_true_eq]
  by_cases hk : (k : Int) ≤ round2 n total
  · show round2 n total * (100 : Int) ≥ 100 * (k : Int)
    omega
  · exfalso
    have h2 : (total : Int) * round2 n total ≤ total * ((k : Int) - 1) :=
      Int.mul_le_mul_of_nonneg_left (by omega) (by omega)
    have h3 : ((k * total : Nat) : Int) = (total : Int) * k := by simp [Int.mul_comm]
    rw [Int.mul_sub] at h2
    omega

/-- A rate that passes reaches the threshold up to half a hundredth. -/
theorem le_of_meets {round2 : Nat → Nat → Int} (hr : Nearest round2) (n total : Nat) (t : Threshold) (ht : 0 < total)
    (h : meets round2 n total t = true) : 200 * t.num * total ≤ 200 * n * t.den + t.den * total := by
  have ⟨_, h1⟩ := hr n total ht
  simp only [meets, decide_eq_true_eq, ge_iff_le] at h
  have a : (total : Int) * (100 * t.num) ≤ total * (round2 n total * t.den) := Int.mul_le_mul_of_nonneg_left h (by omega)
  have b : (t.den : Int) * (2 * (total * round2 n total - 100 * n)) ≤ t.den * total :=
    Int.mul_le_mul_of_nonneg_left h1 (by omega)
  have e1 : (total : Int) * (round2 n total * t.den) = t.den * (total * round2 n total) := by
    rw [← Int.mul_assoc, Int.mul_comm]
  rw [e1] at a
  have e2 : (t.den : Int) * (2 * (total * round2 n total - 100 * n)) =
      2 * (t.den * (total * round2 n total)) - 200 * n * t.den := by
    rw [Int.mul_left_comm, Int.mul_sub, Int.mul_sub, Int.mul_comm (t.den : Int) (100 * (n : Int)), ← Int.mul_assoc 2 (100 * (n : Int)),
      ← Int.mul_assoc 2 100 (n : Int)]
    rfl
  rw [e2] at b
  have e3 : (total : Int) * (100 * t.num) = 100 * (t.num * total) := by
    rw [Int.mul_left_comm, Int.mul_comm (total : Int)]
  rw [e3] at a
  have c : (200 * t.num * total : Int) ≤ 200 * n * t.den + t.den * total := by
    rw [Int.mul_assoc]; omega
  have e4 : ((200 * t.num * total : Nat) : Int) = 200 * t.num * total := by simp
  have e5 : ((200 * n * t.den + t.den * total : Nat) : Int) = 200 * n * t.den + t.den * total := by simp
  omega

/-- C50: the exit code of a bulk conversion is 0 when the success rate reaches a threshold given in whole hundredths. -/
theorem C50_reached (K : Converter) (round2 : Nat → Nat → Int) (hr : Nearest round2) (files : List SrcFile) (output : Option Str)
    (k : Nat) (h2 : 2 ≤ files.length)
    (h : k * files.length ≤ 100 * (convertCommand K round2 files output ⟨k, 100⟩).stats.numSuccess) :
    (convertCommand K round2 files output ⟨k, 100⟩).stop = .exit 0 := by
  match files, h2 with
  | f :: g :: files, _ =>
    show Stop.exit (if meets round2 _ (f :: g :: files).length ⟨k, 100⟩ then _ else _) = _
    rw [if_pos]
    exact meets_of_le hr _ _ _ (by simp) h

/-- C50: a bulk conversion ends with the code 0 or 42; with 0 only if the success rate is at least the threshold minus half
a hundredth. -/
theorem C50_passed_partial (K : Converter) (round2 : Nat → Nat → Int) (hr : Nearest round2) (files : List SrcFile)
    (output : Option Str) (t : Threshold) (h2 : 2 ≤ files.length) :
    (convertCommand K round2 files output t).stop = .exit 42 ∨
    (convertCommand K round2 files output t).stop = .exit 0 ∧
      200 * t.num * files.length ≤
        200 * (convertCommand K round2 files output t).stats.numSuccess * t.den + t.den * files.length := by
  match files, h2 with
  | f :: g :: files, _ =>
    cases hm : meets round2 (convertCommand K round2 (f :: g :: files) output t).stats.numSuccess (f :: g :: files).length t with
    | true =>
      right
      refine ⟨?_, le_of_meets hr _ _ _ (by simp) hm⟩
      show Stop.exit (if meets round2 _ (f :: g :: files).length t then _ else _) = _
      exact congrArg Stop.exit (if_pos hm)
    | false =>
      left
      show Stop.exit (if meets round2 _ (f :: g :: files).length t then _ else _) = _
      exact congrArg Stop.exit (if_neg (fun h => Bool.false_ne_true (hm.symm.trans h)))

/-- A conversion that fails for the empty text only. -/
def exConverter : Converter where
  pre s := if s = [] then .error .valueError else .ok s
  parse s := Recipe.ofString Toy.env s
  convert r := .ok (r.render, [])

def exFile (p : String) (c : String) : SrcFile := ⟨p.toList, p.toList ++ §"/meta.yaml", p.toList ++ §"/meta.yaml", some c.toList⟩

/-- The rounded rate is compared: two successes out of three pass the threshold 0.67. -/
theorem C50_threshold_violation (round2 : Nat → Nat → Int) (hr : Nearest round2) :
    let files := [exFile "a" "x: 1\n", exFile "b" "x: 1\n", exFile "c" ""]
    (convertCommand exConverter round2 files none ⟨67, 100⟩).stop = .exit 0 ∧
    (convertCommand exConverter round2 files none ⟨67, 100⟩).stats.numSuccess = 2 ∧ 100 * 2 < 67 * files.length := by
  intro files
  have hn : (convStats (dictOf (files.map fun f => (f.rel, convertFile exConverter f.path f.content)))).numSuccess = 2 := by
    decide +kernel
  have hm : meets round2 2 3 ⟨67, 100⟩ = true := by
    have ⟨h1, h2⟩ := hr 2 3 (by omega)
    simp only [meets, decide_eq_true_eq]
    show round2 2 3 * (100 : Int) ≥ 100 * (67 : Int)
    omega
  refine ⟨?_, hn, by decide⟩
  show Stop.exit (if meets round2 (convStats _).numSuccess 3 ⟨67, 100⟩ then _ else _) = _
  rw [hn, if_pos hm]

/-- The number of successes the command expects is wrong when a recipe fails in pre-processing. -/
theorem C50_self_check_violation :
    let files := [exFile "a" "x: 1\n", exFile "b" ""]
    let stats := convStats (files.map fun f => (f.rel, convertFile exConverter f.path f.content))
    stats.theoretical files.length = 2 ∧ stats.numSuccess = 1 := by
  decide +kernel

/-- Single files and empty directories. -/
theorem C50_few (K : Converter) (round2 : Nat → Nat → Int) (output : Option Str) (t : Threshold) (f : SrcFile) :
    (convertCommand K round2 [] output t).stop = .exit 2 ∧ (convertCommand K round2 [] output t).written = [] ∧
    (convertCommand K round2 [f] output t).stop = .exit (convertFile K f.path f.content).code := ⟨rfl, rfl, rfl⟩

/-! ## C72: output files of `crm convert` -/

theorem writes_iff (K : Converter) (path : Str) (content : Option Str) :
    (convertFile K path content).writes = true ↔ ∃ out msgs, Converted K content out msgs := by
  constructor
  · intro h
    apply Classical.byContradiction
    intro hc
    obtain ⟨_, _, _, _, a5⟩ := C50_failed K path content hc
    have hcode : (convertFile K path content).code ∈ [102, 103, 104, 105, 106] := by
      rcases a5 with ⟨h, _⟩ | ⟨_, _, ⟨h, _⟩ | ⟨_, _, ⟨h, _⟩ | ⟨_, _, ⟨h, _⟩ | ⟨h, _⟩⟩⟩⟩ <;> simp [h]
    simp only [List.mem_cons, List.not_mem_nil, or_false] at hcode
    simp only [ConvResult.writes, decide_eq_true_eq, ExitCode.success, ExitCode.renderErrors, ExitCode.renderWarnings] at h
    omega
  · rintro ⟨out, msgs, hc⟩
    rw [C50_converted K path content out msgs hc]
    by_cases he : msgs.get .error = []
    · by_cases hw : msgs.get .warning = [] <;> simp [he, hw, ConvResult.writes]
    · simp [he, ConvResult.writes]

/-- C72: without an output option nothing is written. -/
theorem C72_none (K : Converter) (round2 : Nat → Nat → Int) (files : List SrcFile) (t : Threshold) :
    (convertCommand K round2 files none t).written = [] := by
  match files with
  | [] => rfl
  | [f] => rfl
  | f :: g :: files =>
    show (f :: g :: files).filterMap (bulkWrite K none) = []
    simp [bulkWrite]

/-- C72: a bulk conversion writes next to each recipe whose conversion runs to its end (be it with errors) the output of
that conversion, and nothing else, in the order of the recipes. -/
theorem C72_bulk (K : Converter) (round2 : Nat → Nat → Int) (files : List SrcFile) (o : Str) (t : Threshold)
    (h2 : 2 ≤ files.length) :
    (∀ path out, (path, out) ∈ (convertCommand K round2 files (some o) t).written ↔
      ∃ f ∈ files, path = f.parent ++ §"/" ++ o ∧ ∃ msgs, Converted K f.content out msgs) ∧
    ((convertCommand K round2 files (some o) t).written.map (·.1)).Sublist (files.map fun f => f.parent ++ §"/" ++ o) := by
  match files, h2 with
  | f :: g :: files, _ =>
    have hw : (convertCommand K round2 (f :: g :: files) (some o) t).written =
      (f :: g :: files).filterMap (bulkWrite K (some o)) := rfl
    rw [hw]
    generalize f :: g :: files = l
    constructor
    · intro path out
      simp only [List.mem_filterMap]
      have key : ∀ f, bulkWrite K (some o) f = some (path, out) ↔
          path = f.parent ++ §"/" ++ o ∧ ∃ msgs, Converted K f.content out msgs := by
        intro f
        unfold bulkWrite
        simp only
        constructor
        · intro h
          split at h
          · rename_i hwr
            obtain ⟨out', msgs, hc⟩ := (writes_iff K f.path f.content).1 hwr
            rw [C50_converted K f.path f.content out' msgs hc] at h
            simp only [Option.some.injEq, Prod.mk.injEq] at h
            obtain ⟨rfl, rfl⟩ := h
            exact ⟨rfl, msgs, hc⟩
          · cases h
        · rintro ⟨rfl, msgs, hc⟩
          rw [if_pos ((writes_iff K f.path f.content).2 ⟨out, msgs, hc⟩), C50_converted K f.path f.content out msgs hc]
      simp only [key]
    · induction l with
      | nil => simp
      | cons f l ih =>
        cases hb : bulkWrite K (some o) f with
        | none => rw [List.filterMap_cons_none hb]; exact ih.cons _
        | some p =>
          rw [List.filterMap_cons_some hb]
          have : p.1 = f.parent ++ §"/" ++ o := by
            unfold bulkWrite at hb
            simp only at hb
            split at hb
            · simp only [Option.some.injEq] at hb; rw [← hb]
            · cases hb
          simp only [List.map_cons, this]
          exact ih.cons_cons _

/-- C72: a single recipe is written to the path given. -/
theorem C72_single_partial (K : Converter) (round2 : Nat → Nat → Int) (f : SrcFile) (o : Str) (t : Threshold) (path out : Str) :
    (path, out) ∈ (convertCommand K round2 [f] (some o) t).written ↔ path = o ∧ ∃ msgs, Converted K f.content out msgs := by
  show (path, out) ∈ (if (convertFile K f.path f.content).writes = true then _ else _) ↔ _
  constructor
  · intro h
    split at h
    · rename_i hwr
      obtain ⟨out', msgs, hc⟩ := (writes_iff K f.path f.content).1 hwr
      rw [C50_converted K f.path f.content out' msgs hc] at h
      simp only [List.mem_singleton, Prod.mk.injEq] at h
      obtain ⟨rfl, rfl⟩ := h
      exact ⟨rfl, msgs, hc⟩
    · cases h
  · rintro ⟨rfl, msgs, hc⟩
    rw [if_pos ((writes_iff K f.path f.content).2 ⟨out, msgs, hc⟩), C50_converted K f.path f.content out msgs hc]
    simp

/-- A directory with one recipe in it: the output goes to the path given, not next to the recipe. -/
theorem C72_one_recipe_violation :
    ((convertCommand exConverter (fun _ _ => 0) [exFile "a" "x: 1\n"] (some §"recipe.yaml") ⟨0, 1⟩).written.map (·.1)) =
      [§"recipe.yaml"] ∧
    ((convertCommand exConverter (fun _ _ => 0) [exFile "a" "x: 1\n", exFile "b" ""] (some §"recipe.yaml") ⟨0, 1⟩).written.map
      (·.1)) = [§"a/recipe.yaml"] := by
  decide +kernel

/-! ## C52 -/

/-- C52: one result for each recipe, in order. -/
theorem C52_results (round2 : Nat → Nat → Int) (files : List (Str × Option (Nat × Str))) (m : Threshold) (h : files ≠ [])
    (hd : (files.map (·.1)).Nodup) :
    (rattlerCommand round2 files m).results = files.map (fun f => (f.1, buildRecipe f.2)) ∧
    (rattlerCommand round2 files m).stats = buildStats (files.map fun f => (f.1, buildRecipe f.2)) ∧
    (rattlerCommand round2 files m).debug = debugEntries (files.map fun f => (f.1, buildRecipe f.2))
      (buildStats (files.map fun f => (f.1, buildRecipe f.2))).hist := by
  match files, h with
  | f :: files, _ =>
    have hnd : (((f :: files).map fun f => (f.1, buildRecipe f.2)).map (·.1)).Nodup := by
      rw [List.map_map]; exact hd
    have := dictOf_distinct _ hnd
    refine ⟨this, ?_, ?_⟩
    · show buildStats (dictOf _) = _
      rw [this]
    · show debugEntries (dictOf _) (buildStats (dictOf _)).hist = _
      rw [this]

/-- C52: every recipe is counted once, as a success or as a failure; the failing recipes are listed in order; the histogram
counts every error message. -/
theorem C52_stats (results : List (Str × BuildResult)) :
    let s := buildStats results
    s.success = results.countP (·.2.code = 0) ∧ s.success + s.errors = results.length ∧
    s.withErrors = (results.filter (·.2.code ≠ 0)).map (·.1) ∧ s.withErrors.length = s.errors ∧
    Counts s.hist (results.flatMap (·.2.errors)) := by
  have key : ∀ (results : List (Str × BuildResult)) (s : BuildStats),
      (results.foldl BuildStats.step s).success = s.success + results.countP (·.2.code = 0) ∧
      (results.foldl BuildStats.step s).errors = s.errors + results.countP (·.2.code ≠ 0) ∧
      (results.foldl BuildStats.step s).withErrors = s.withErrors ++ (results.filter (·.2.code ≠ 0)).map (·.1) ∧
      (results.foldl BuildStats.step s).hist = (results.flatMap (·.2.errors)).foldl histAdd s.hist := by
    intro results
    induction results with
    | nil => intro s; simp
    | cons e results ih =>
      intro s
      obtain ⟨a1, a2, a3, a4⟩ := ih (s.step e)
      rw [List.foldl_cons, a1, a2, a3, a4]
      by_cases h : e.2.code = 0
      · simp [BuildStats.step, h, List.foldl_append]; omega
      · simp [BuildStats.step, h, List.foldl_append]; omega
  intro s
  have hs : s = results.foldl BuildStats.step {} := rfl
  obtain ⟨a1, a2, a3, a4⟩ := key results {}
  rw [← hs] at a1 a2 a3 a4
  simp only [Nat.zero_add, List.nil_append] at a1 a2 a3
  refine ⟨a1, ?_, a3, ?_, ?_⟩
  · rw [a1, a2, List.length_eq_countP_add_countP (fun e : Str × BuildResult => decide (e.2.code = 0))]
    simp
  · rw [a3, a2, List.length_map, ← List.countP_eq_length_filter]
  · rw [a4]; exact histFold_counts _

theorem strLe_total (a b : Str) : strLe a b = true ∨ strLe b a = true := by
  induction a generalizing b with
  | nil => left; cases b <;> rfl
  | cons x a ih =>
    cases b with
    | nil => right; rfl
    | cons y b =>
      by_cases h : x = y
      · subst h; simpa [strLe] using ih b
      · have : x.toNat ≠ y.toNat := fun hxy => h (Char.toNat_inj.1 hxy)
        simp only [strLe, h, Ne.symm h, if_false, decide_eq_true_eq]
        omega

theorem strLe_trans {a b c : Str} (h1 : strLe a b = true) (h2 : strLe b c = true) : strLe a c = true := by
  induction a generalizing b c with
  | nil => cases c <;> rfl
  | cons x a ih =>
    cases b with
    | nil => cases h1
    | cons y b =>
      cases c with
      | nil => cases h2
      | cons z c =>
        by_cases hxy : x = y
        · subst hxy
          by_cases hxz : x = z
          · subst hxz
            simp only [strLe, if_true] at *
            exact ih h1 h2
          · simpa [strLe, hxz] using h2
        · by_cases hyz : y = z
          · subst hyz
            simpa [strLe, hxy] using h1
          · simp only [strLe, hxy, hyz, if_false, decide_eq_true_eq] at h1 h2
            have hxz : x ≠ z := by rintro rfl; omega
            simp only [strLe, hxz, if_false, decide_eq_true_eq]
            omega

theorem insertStr_perm (s : Str) (l : List Str) : (insertStr s l).Perm (s :: l) := by
  induction l with
  | nil => exact .refl _
  | cons t l ih =>
    simp only [insertStr]
    split
    · exact (ih.cons t).trans (.swap s t l)
    · exact .refl _

theorem sortStrs_perm (l : List Str) : (sortStrs l).Perm l := by
  induction l with
  | nil => exact .refl _
  | cons s l ih => exact (insertStr_perm s _).trans (ih.cons s)

theorem insertStr_sorted (s : Str) (l : List Str) (h : l.Pairwise fun a b => strLe a b = true) :
    (insertStr s l).Pairwise fun a b => strLe a b = true := by
  induction l with
  | nil => simp [insertStr]
  | cons t l ih =>
    rw [List.pairwise_cons] at h
    simp only [insertStr]
    split
    · rename_i hts
      rw [List.pairwise_cons]
      refine ⟨fun x hx => ?_, ih h.2⟩
      rcases List.mem_cons.1 ((insertStr_perm s l).mem_iff.1 hx) with rfl | hx
      · exact hts
      · exact h.1 x hx
    · rename_i hts
      have hst : strLe s t = true := (strLe_total s t).resolve_right hts
      rw [List.pairwise_cons, List.pairwise_cons]
      refine ⟨fun x hx => ?_, h⟩
      rcases List.mem_cons.1 hx with rfl | hx
      · exact hst
      · exact strLe_trans hst (h.1 x hx)

theorem sortStrs_sorted (l : List Str) : (sortStrs l).Pairwise fun a b => strLe a b = true := by
  induction l with
  | nil => simp [sortStrs]
  | cons s l ih => exact insertStr_sorted s _ ih

theorem counts_mem {hist : List (Str × Nat)} {l : List Str} (h : Counts hist l) (x : Str) : x ∈ hist.map (·.1) ↔ x ∈ l := by
  have := h.2 x
  by_cases hx : x ∈ l
  · rw [if_pos hx] at this
    simp only [hx, iff_true]
    have hs := lookupD_isSome (k := x) (d := hist)
    rw [this] at hs
    simpa using hs
  · rw [if_neg hx] at this
    simp only [hx, iff_false]
    have hs := lookupD_isSome (k := x) (d := hist)
    rw [this] at hs
    simpa using hs

/-- C52: the debug file has one entry for each error message that occurred; the entry lists exactly the recipes with that
error, each once, by name; the entries with the most recipes come first. -/
theorem C52_debug (results : List (Str × BuildResult)) (hd : (results.map (·.1)).Nodup) :
    let debug := debugEntries results (buildStats results).hist
    (debug.map (·.error)).Nodup ∧
    (∀ x, x ∈ debug.map (·.error) ↔ ∃ r ∈ results, x ∈ r.2.errors) ∧
    (∀ e ∈ debug, e.recipes.Nodup ∧ e.recipes.Pairwise (fun a b => strLe a b = true) ∧
      ∀ name, name ∈ e.recipes ↔ ∃ r, (name, r) ∈ results ∧ e.error ∈ r.errors) ∧
    debug.Pairwise (fun a b => b.recipes.length ≤ a.recipes.length) := by
  intro debug
  obtain ⟨_, _, _, _, hc⟩ := C52_stats results
  have hst := C32_stable_sort (fun e : DebugEntry => -(e.recipes.length : Int))
    ((buildStats results).hist.map fun h => ⟨h.1, sortStrs ((results.filter fun r => r.2.errors.contains h.1).map (·.1))⟩)
  have hp : (debug.map (·.error)).Perm ((buildStats results).hist.map (·.1)) := by
    have := hst.perm.map (·.error)
    rw [List.map_map] at this
    exact this
  refine ⟨hp.nodup_iff.2 hc.1, ?_, ?_, ?_⟩
  · intro x
    rw [hp.mem_iff, counts_mem hc]
    simp [List.mem_flatMap]
  · intro e he
    have he := hst.perm.mem_iff.1 he
    simp only [List.mem_map] at he
    obtain ⟨h, _, rfl⟩ := he
    refine ⟨?_, sortStrs_sorted _, ?_⟩
    · rw [(sortStrs_perm _).nodup_iff]
      exact (List.filter_sublist.map _).nodup hd
    · intro name
      rw [(sortStrs_perm _).mem_iff]
      simp
  · refine hst.sorted.imp ?_
    intro a b hab
    omega

theorem rattler_match (bef : Str) (w rest : Str) (c : Char) (hw : w = §"Error:" ++ c :: rest) (hc : isSpace c = true) :
    rattlerErrorRx.matchAt bef w = some ⟨bef.reverse,
      §"Error:" ++ (c :: rest).takeWhile isSpace ++ ((c :: rest).dropWhile isSpace).takeWhile (· != '\n'),
      ((c :: rest).dropWhile isSpace).dropWhile (· != '\n'), []⟩ := by
  refine Rx.matchAt_first ?_ ?_
  · have h1 := Rx.first_lit (s := ⟨bef, w, []⟩) §"Error:" (c :: rest) hw
    have h2 := Rx.first_plus (p := isSpace) (s := (⟨bef, w, []⟩ : MSt).eat §"Error:" (c :: rest)) rfl hc
    have h3 := Rx.first_star (fun c => c != '\n') (((⟨bef, w, []⟩ : MSt).eat §"Error:" (c :: rest)).eat
      ((c :: rest).takeWhile isSpace) ((c :: rest).dropWhile isSpace))
    refine (Rx.first_seq h1 (Rx.first_seq h2 h3)).trans ?_
    simp only [MSt.eat, List.reverse_append, List.append_assoc]
  · rw [List.append_assoc, List.takeWhile_append_dropWhile, List.append_assoc, List.takeWhile_append_dropWhile, hw]

theorem rattler_match_iff (bef w : Str) :
    (rattlerErrorRx.matchAt bef w).isSome = true ↔ ∃ c rest, w = §"Error:" ++ c :: rest ∧ isSpace c = true := by
  constructor
  · intro h
    obtain ⟨t, rest, rfl, u, v, rfl, hu, v1, v2, rfl, hv1, hv2⟩ := (Rx.matchAt_isSome _ _ _).1 h
    rw [Rx.lang_lit] at hu
    rw [show Rx.ws = Rx.cls isSpace from rfl, Rx.lang_plus_cls] at hv1
    subst hu
    cases v1 with
    | nil => exact absurd rfl hv1.1
    | cons c v1 => exact ⟨c, v1 ++ v2 ++ rest, by simp, hv1.2 c (by simp)⟩
  · rintro ⟨c, rest, hw, hc⟩
    rw [rattler_match bef w rest c hw hc]; rfl

/-- C52: a build that ends in time has the code of the process; its errors are lines of the error output: each starts with
`Error:` and white space and goes to the end of its line; there are none exactly when the output has no `Error:` followed by
white space.  A build that takes too long has the code 43 and one error. -/
theorem C52_build (code : Nat) (stderr : Str) :
    (buildRecipe (some (code, stderr))).code = code ∧
    (∀ e ∈ (buildRecipe (some (code, stderr))).errors, ∃ pre space line post, stderr = pre ++ e ++ post ∧
      e = §"Error:" ++ space ++ line ∧ space ≠ [] ∧ (∀ c ∈ space, isSpace c = true) ∧ '\n' ∉ line ∧
      (post = [] ∨ ∃ post', post = '\n' :: post')) ∧
    ((buildRecipe (some (code, stderr))).errors = [] ↔ ¬ ∃ pre c post, stderr = pre ++ §"Error:" ++ c :: post ∧ isSpace c = true) ∧
    (buildRecipe none).code = 43 ∧ (buildRecipe none).errors.length = 1 := by
  refine ⟨rfl, ?_, ?_, rfl, rfl⟩
  · intro e he
    obtain ⟨pre, aft, m, h1, h2, h3⟩ := Rx.findallGo_mem rattlerErrorRx (by decide) he
    obtain ⟨c, rest, hw, hc⟩ := (rattler_match_iff _ _).1 (by rw [h2]; rfl)
    rw [rattler_match _ _ rest c hw hc] at h2
    simp only [Option.some.injEq] at h2
    subst h2
    subst h3
    refine ⟨pre, (c :: rest).takeWhile isSpace, ((c :: rest).dropWhile isSpace).takeWhile (· != '\n'),
      ((c :: rest).dropWhile isSpace).dropWhile (· != '\n'), ?_, rfl, ?_, ?_, ?_, ?_⟩
    · simp only [List.append_assoc]
      rw [List.takeWhile_append_dropWhile, List.takeWhile_append_dropWhile, h1, hw]
    · rw [List.takeWhile_cons_of_pos hc]; simp
    · intro d hd; exact List.all_eq_true.1 List.all_takeWhile d hd
    · intro hn
      have := List.all_eq_true.1 (List.all_takeWhile (p := fun c => c != '\n')) _ hn
      simp at this
    · cases hd : ((c :: rest).dropWhile isSpace).dropWhile (· != '\n') with
      | nil => exact Or.inl rfl
      | cons d ds =>
        right
        have := List.head_dropWhile_not (fun c : Char => c != '\n') (l := (c :: rest).dropWhile isSpace) (by rw [hd]; simp)
        simp only [hd, List.head_cons] at this
        exact ⟨ds, by simp at this; rw [this]⟩
  · show rattlerErrorRx.findallGo 0 [] stderr = [] ↔ _
    rw [Rx.findallGo_nil]
    constructor
    · rintro h ⟨pre, c, post, hs, hc⟩
      have := h pre 'E' (§"rror:" ++ c :: post) (by simp [hs])
      have h2 := (rattler_match_iff (pre.reverse ++ []) (§"Error:" ++ c :: post)).2 ⟨c, post, rfl, hc⟩
      rw [show §"Error:" ++ c :: post = 'E' :: (§"rror:" ++ c :: post) from rfl, this] at h2
      cases h2
    · intro h pre c aft hs
      apply Option.isNone_iff_eq_none.1
      rw [← Option.not_isSome, Bool.not_eq_true', ← Bool.not_eq_true]
      intro hm
      obtain ⟨d, rest, hw, hd⟩ := (rattler_match_iff _ _).1 hm
      exact h ⟨pre, d, rest, by rw [hs, hw]; simp, hd⟩

/-- C52: the exit code, as for bulk conversions. -/
theorem C52_reached (round2 : Nat → Nat → Int) (hr : Nearest round2) (files : List (Str × Option (Nat × Str))) (k : Nat)
    (hne : files ≠ []) (h : k * files.length ≤ 100 * (rattlerCommand round2 files ⟨k, 100⟩).stats.success) :
    (rattlerCommand round2 files ⟨k, 100⟩).stop = .exit 0 := by
  match files, hne with
  | f :: files, _ =>
    show Stop.exit (if meets round2 _ (f :: files).length ⟨k, 100⟩ then _ else _) = _
    rw [if_pos]
    exact meets_of_le hr _ _ _ (by simp) h

theorem C52_passed_partial (round2 : Nat → Nat → Int) (hr : Nearest round2) (files : List (Str × Option (Nat × Str)))
    (t : Threshold) :
    (files = [] ∧ (rattlerCommand round2 files t).stop = .exit 3) ∨ (rattlerCommand round2 files t).stop = .exit 42 ∨
    (rattlerCommand round2 files t).stop = .exit 0 ∧
      200 * t.num * files.length ≤ 200 * (rattlerCommand round2 files t).stats.success * t.den + t.den * files.length := by
  match files with
  | [] => exact Or.inl ⟨rfl, rfl⟩
  | f :: files =>
    right
    cases hm : meets round2 (rattlerCommand round2 (f :: files) t).stats.success (f :: files).length t with
    | true =>
      right
      refine ⟨?_, le_of_meets hr _ _ _ (by simp) hm⟩
      show Stop.exit (if meets round2 _ (f :: files).length t then _ else _) = _
      exact congrArg Stop.exit (if_pos hm)
    | false =>
      left
      show Stop.exit (if meets round2 _ (f :: files).length t then _ else _) = _
      exact congrArg Stop.exit (if_neg (fun h => Bool.false_ne_true (hm.symm.trans h)))

def exBuilds : List (Str × Option (Nat × Str)) :=
  [(§"b/recipe.yaml", some (1, §"x\nError: no\nError: yes\n")), (§"a/recipe.yaml", some (1, §"Error: yes\n")),
   (§"c/recipe.yaml", none), (§"d/recipe.yaml", some (0, §"fine")), (§"e/recipe.yaml", some (1, §"killed"))]

example : (exBuilds.map (·.1)).Nodup ∧
    (rattlerCommand (fun n t => ((200 * n + t) / (2 * t) : Nat)) exBuilds ⟨20, 100⟩).debug =
      [⟨§"Error: yes", [§"a/recipe.yaml", §"b/recipe.yaml"]⟩, ⟨§"Error: no", [§"b/recipe.yaml"]⟩,
       ⟨§"Recipe build dry-run timed out.", [§"c/recipe.yaml"]⟩] := by decide +kernel

/-- The debug file does not list every failing recipe: one whose error output has no `Error:` line is in no entry. -/
theorem C52_debug_violation :
    let o := rattlerCommand (fun n t => ((200 * n + t) / (2 * t) : Nat)) exBuilds ⟨20, 100⟩
    §"e/recipe.yaml" ∈ o.stats.withErrors ∧ ∀ e ∈ o.debug, §"e/recipe.yaml" ∉ e.recipes := by
  decide +kernel

end Crm
