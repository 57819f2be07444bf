import Verif.Model.RandomSelect
import Verif.Props.Utils
import Verif.Props.Bulk

/-!
# Fetching recipes at random (C98)
-/

namespace Crm
open Spec

namespace Spec

/-- A text of the form `org/repo`, cut at the first slash. -/
def OrgRepo (r org repo : Str) : Prop := r = org ++ §"/" ++ repo ∧ '/' ∉ org

/-- The file of a repository. -/
def FileOf (r path : Str) : Prop := ∃ org repo, OrgRepo r org repo ∧ path = repo ++ §"/recipe/meta.yaml"

/-- The address of the recipe on a branch. -/
def branchUrl (r branch : Str) : Str :=
  §"https://raw.githubusercontent.com/" ++ r ++ §"/" ++ branch ++ §"/recipe/meta.yaml"

/-- The recipe of a repository: that of `main` or, if there is none, that of `master`. -/
def RecipeAt (get : Str → Option (Nat × Str)) (r text : Str) : Prop :=
  get (branchUrl r §"main") = some (200, text) ∨
  ((∀ t, get (branchUrl r §"main") ≠ some (200, t)) ∧ get (branchUrl r §"master") = some (200, text))

/-- A recipe can be had for this entry of the list. -/
def Available (get : Str → Option (Nat × Str)) (r : Str) : Prop := '/' ∈ r ∧ ∃ text, RecipeAt get r text

/-- The lines of a text: each ends with a line break, but the last one, if it is not empty, may go without. -/
inductive LinesOf : Str → List Str → Prop where
  | none : LinesOf [] []
  | last (l : Str) (hl : l ≠ []) (hn : '\n' ∉ l) : LinesOf l [l]
  | more (l t : Str) (ls : List Str) (hn : '\n' ∉ l) (h : LinesOf t ls) : LinesOf (l ++ '\n' :: t) (l :: ls)

/-- The entry is in the first column of the list and no line of the file with exclusions is that entry. -/
def Allowed (rows : List (List Str)) (exclude : Option Str) (r : Str) : Prop :=
  (∃ row ∈ rows, row.head? = some r) ∧ ∀ t, exclude = some t → ∃ ls, LinesOf t ls ∧ ∀ line ∈ ls, strip line ≠ r

/-- What `random.sample` promises. -/
def SampleOk (sample : List Str → Nat → List Str) : Prop :=
  ∀ l k, l.Nodup → k ≤ l.length → (sample l k).Nodup ∧ (sample l k).length = k ∧ ∀ x ∈ sample l k, x ∈ l

/-- Every worker writes once, in some order. -/
def AnyOrder (order : List Str → List Str) : Prop := ∀ l, (order l).Perm l

end Spec

/-! ## Helpers -/

theorem firstAnswer_iff (get : Str → Option (Nat × Str)) (r text : Str) :
    firstAnswer get (recipeUrls r) = some text ↔ RecipeAt get r text := by
  have h1 : §"https://raw.githubusercontent.com/" ++ r ++ §"/main/recipe/meta.yaml" = branchUrl r §"main" := by
    simp [branchUrl]
  have h2 : §"https://raw.githubusercontent.com/" ++ r ++ §"/master/recipe/meta.yaml" = branchUrl r §"master" := by
    simp [branchUrl]
  unfold recipeUrls RecipeAt
  rw [h1, h2]
  have hone : ∀ us, firstAnswer get [us] = some text ↔ get us = some (200, text) := by
    intro us
    unfold firstAnswer
    cases hg : get us with
    | none => simp [firstAnswer]
    | some ct =>
      obtain ⟨c, t⟩ := ct
      by_cases hc : c = 200
      · simp [hc]
      · simp [hc, firstAnswer]
  unfold firstAnswer
  cases hg : get (branchUrl r §"main") with
  | none => simp [hone]
  | some ct =>
    obtain ⟨c, t⟩ := ct
    by_cases hc : c = 200
    · simp [hc]
    · simp [hc, hone]

theorem orgRepo_iff (r : Str) (i : Nat) (h : findSub §"/" r = some i) (org repo : Str) :
    OrgRepo r org repo ↔ org = r.take i ∧ repo = r.drop (i + 1) := by
  induction r generalizing i org with
  | nil => simp [findSub] at h
  | cons c cs ih =>
    unfold findSub at h
    by_cases hc : c = '/'
    · rw [if_pos (by simp [hc])] at h
      injection h with h
      subst h
      constructor
      · rintro ⟨h1, h2⟩
        cases org with
        | nil => simp at h1; simp [h1.2]
        | cons o os =>
          simp only [List.cons_append, List.cons.injEq] at h1
          exact absurd (by rw [← h1.1, hc]; simp) h2
      · rintro ⟨rfl, rfl⟩
        simp [OrgRepo, hc]
    · rw [if_neg (by simp [Ne.symm hc])] at h
      cases hf : findSub §"/" cs with
      | none => simp [hf] at h
      | some j =>
        rw [hf] at h
        simp only [Option.map_some, Option.some.injEq] at h
        subst h
        constructor
        · rintro ⟨h1, h2⟩
          cases org with
          | nil => simp at h1; exact absurd h1.1 hc
          | cons o os =>
            simp only [List.cons_append, List.cons.injEq] at h1
            obtain ⟨h3, h4⟩ := (ih j hf os).1 ⟨by simpa using h1.2, fun hm => h2 (List.mem_cons_of_mem _ hm)⟩
            simp [h1.1, ← h3, h4]
        · rintro ⟨rfl, rfl⟩
          obtain ⟨h3, h4⟩ := (ih j hf (cs.take j)).2 ⟨rfl, by simp⟩
          refine ⟨?_, ?_⟩
          · simp only [List.take_succ_cons, List.drop_succ_cons, List.cons_append, List.cons.injEq, true_and]
            exact h3
          · simp only [List.take_succ_cons, List.mem_cons, not_or]
            exact ⟨Ne.symm hc, h4⟩

theorem findSub_slash (r : Str) : findSub §"/" r = none ↔ '/' ∉ r := by
  rw [findSub_none_iff]
  constructor
  · intro h hm
    obtain ⟨a, b, hab⟩ := List.append_of_mem hm
    exact h a b (by simp [hab])
  · intro h a b hab
    exact h (by simp [hab])

/-- What `fetch_repo` does. -/
theorem fetchRepo_cases (get : Str → Option (Nat × Str)) (r : Str) :
    (∃ text path, RecipeAt get r text ∧ FileOf r path ∧ (∀ p, FileOf r p → p = path) ∧ '/' ∈ r ∧
      fetchRepo get r = (r, some (path, text))) ∨
    (¬ Available get r ∧ fetchRepo get r = ([], none)) := by
  unfold fetchRepo
  cases hf : findSub §"/" r with
  | none =>
    right
    exact ⟨fun h => (findSub_slash r).1 hf h.1, rfl⟩
  | some i =>
    have hs : '/' ∈ r := by
      apply Classical.byContradiction
      intro h
      rw [(findSub_slash r).2 h] at hf
      cases hf
    simp only
    cases ha : firstAnswer get (recipeUrls r) with
    | none =>
      right
      refine ⟨fun h => ?_, rfl⟩
      obtain ⟨_, t, ht⟩ := h
      rw [(firstAnswer_iff get r t).2 ht] at ha
      cases ha
    | some t =>
      left
      refine ⟨t, r.drop (i + 1) ++ §"/recipe/meta.yaml", (firstAnswer_iff get r t).1 ha, ?_, ?_, hs, rfl⟩
      · exact ⟨_, _, (orgRepo_iff r i hf _ _).2 ⟨rfl, rfl⟩, rfl⟩
      · rintro p ⟨o, rp, h1, h2⟩
        rw [h2, ((orgRepo_iff r i hf _ _).1 h1).2]

theorem recipeAt_unique {get : Str → Option (Nat × Str)} {r a b : Str} (ha : RecipeAt get r a) (hb : RecipeAt get r b) :
    a = b := by
  have := (firstAnswer_iff get r a).2 ha
  rw [(firstAnswer_iff get r b).2 hb] at this
  injection this with h
  exact h.symm

theorem linesOf_fileLines {t : Str} {ls : List Str} (h : LinesOf t ls) : ls = fileLines t := by
  induction h with
  | none => rfl
  | last l hl hn => simp [fileLines, splitChar_of_not_mem _ _ hn, hl]
  | more l t ls hn h ih =>
    have hne := splitChar_ne_nil '\n' t
    rw [ih]
    unfold fileLines
    rw [splitChar_append_sep _ _ hn]
    cases hs : splitChar '\n' t with
    | nil => exact absurd hs hne
    | cons a as =>
      rw [List.getLast?_cons_cons, List.dropLast_cons_cons]
      split <;> rfl

theorem linesOf_exists (t : Str) : ∃ ls, LinesOf t ls := by
  induction t with
  | nil => exact ⟨_, .none⟩
  | cons c cs ih =>
    obtain ⟨ls, h⟩ := ih
    by_cases hc : c = '\n'
    · subst hc
      exact ⟨_, .more [] cs ls (by simp) h⟩
    · cases h with
      | none => exact ⟨_, .last [c] (by simp) (by simp [Ne.symm hc])⟩
      | last l hl hn => exact ⟨_, .last (c :: cs) (by simp) (by simp [Ne.symm hc, hn])⟩
      | more l t ls hn h => exact ⟨_, .more (c :: l) t ls (by simp [Ne.symm hc, hn]) h⟩

theorem linesOf_iff (t : Str) (ls : List Str) : LinesOf t ls ↔ ls = fileLines t := by
  constructor
  · exact linesOf_fileLines
  · rintro rfl
    obtain ⟨ls, h⟩ := linesOf_exists t
    exact linesOf_fileLines h ▸ h

example : LinesOf §"a/b\n\nc/d" [§"a/b", [], §"c/d"] ∧ LinesOf §"a/b\n" [§"a/b"] :=
  ⟨.more §"a/b" _ _ (by decide) (.more [] _ _ (by decide) (.last §"c/d" (by decide) (by decide))),
   .more §"a/b" _ _ (by decide) .none⟩

theorem allowed_iff (rows : List (List Str)) (exclude : Option Str) (r : Str) :
    r ∈ (allRepos rows).filter (fun r => decide (r ∉ excludedRepos exclude)) ↔ Allowed rows exclude r := by
  rw [List.mem_filter, allRepos, (C57_dedupe _).1, List.mem_filterMap, decide_eq_true_eq]
  unfold Allowed
  cases exclude with
  | none => simp [excludedRepos]
  | some t => simp [excludedRepos, linesOf_iff]

theorem allowed_nodup (rows : List (List Str)) (exclude : Option Str) :
    ((allRepos rows).filter (fun r => decide (r ∉ excludedRepos exclude))).Nodup :=
  (C57_dedupe _).2.1.filter _

/-- The files after the workers have written, in any order. -/
theorem writes_spec (get : Str → Option (Nat × Str)) (rs : List Str) (fs : FileTexts) (p : Str) :
    (∃ r ∈ rs, ∃ text, '/' ∈ r ∧ RecipeAt get r text ∧ FileOf r p ∧
      rs.foldl (fun fs r => writeFile fs (fetchRepo get r).2) fs p = some text) ∨
    ((∀ r ∈ rs, Available get r → ¬ FileOf r p) ∧
      rs.foldl (fun fs r => writeFile fs (fetchRepo get r).2) fs p = fs p) := by
  induction rs generalizing fs with
  | nil => right; simp
  | cons r rs ih =>
    simp only [List.foldl_cons]
    rcases ih (writeFile fs (fetchRepo get r).2) with ⟨q, hq, t, h⟩ | ⟨h1, h2⟩
    · exact Or.inl ⟨q, List.mem_cons_of_mem _ hq, t, h⟩
    · rcases fetchRepo_cases get r with ⟨t, path, ha, hb, hu, hs, he⟩ | ⟨hn, he⟩
      · rw [h2, he]
        by_cases hp : p = path
        · left
          exact ⟨r, by simp, t, hs, ha, hp ▸ hb, by simp [writeFile, hp]⟩
        · right
          refine ⟨?_, by simp [writeFile, hp]⟩
          intro q hq hav
          rcases List.mem_cons.1 hq with rfl | hq
          · exact fun hf => hp (hu p hf)
          · exact h1 q hq hav
      · rw [h2, he]
        right
        refine ⟨?_, rfl⟩
        intro q hq hav
        rcases List.mem_cons.1 hq with rfl | hq
        · exact absurd hav hn
        · exact h1 q hq hav

/-! ## C98 -/

/-- C98: for a request of zero or more recipes, the repositories picked are different entries of the list, none of them
is excluded, and they are as many as requested, or all if there are not so many. -/
theorem C98_selection (get : Str → Option (Nat × Str)) (sample : List Str → Nat → List Str) (hs : SampleOk sample)
    (order : List Str → List Str) (rows : List (List Str)) (exclude : Option Str) (n : Nat) (fs : FileTexts) :
    ∃ run, selectMain get sample order rows exclude n fs = .ok run ∧ run.requested = n ∧
      run.selected = run.picked.length ∧ run.picked.Nodup ∧ (∀ r ∈ run.picked, Allowed rows exclude r) ∧
      ∀ all : List Str, all.Nodup → (∀ r, r ∈ all ↔ Allowed rows exclude r) → run.selected = min n all.length := by
  have hal : ∀ all : List Str, all.Nodup → (∀ r, r ∈ all ↔ Allowed rows exclude r) →
      all.length = ((allRepos rows).filter (fun r => decide (r ∉ excludedRepos exclude))).length := by
    intro all hn hm
    exact ((List.perm_ext_iff_of_nodup hn (allowed_nodup rows exclude)).2
      (fun r => by rw [hm, allowed_iff])).length_eq
  unfold selectMain pickRepos
  simp only [bind, Except.bind]
  by_cases hle : (n : Int) ≥ ((allRepos rows).filter (fun r => decide (r ∉ excludedRepos exclude))).length
  · rw [if_pos hle]
    refine ⟨_, rfl, rfl, rfl, allowed_nodup rows exclude, fun r hr => (allowed_iff rows exclude r).1 hr, ?_⟩
    intro all hn hm
    have := hal all hn hm
    simp only
    omega
  · rw [if_neg hle]
    have hp := sortStrs_perm ((allRepos rows).filter (fun r => decide (r ∉ excludedRepos exclude)))
    obtain ⟨h1, h2, h3⟩ := hs _ n (hp.nodup_iff.2 (allowed_nodup rows exclude)) (by have := hp.length_eq; omega)
    have hd := C57_dedupe (sample (sortStrs ((allRepos rows).filter (fun r => decide (r ∉ excludedRepos exclude)))) n)
    have hlen := ((List.perm_ext_iff_of_nodup hd.2.1 h1).2 (fun r => hd.1 r)).length_eq
    refine ⟨_, rfl, rfl, rfl, hd.2.1, fun r hr => (allowed_iff rows exclude r).1 (hp.mem_iff.1 (h3 r ((hd.1 r).1 hr))), ?_⟩
    intro all hn hm
    have := hal all hn hm
    simp only [hlen, h2]
    omega

/-- C98: a negative number of recipes is refused. -/
theorem C98_negative (get : Str → Option (Nat × Str)) (sample : List Str → Nat → List Str) (order : List Str → List Str)
    (rows : List (List Str)) (exclude : Option Str) (n : Int) (hn : n < 0) (fs : FileTexts) :
    (selectMain get sample order rows exclude n fs).toOption.isNone = true := by
  unfold selectMain pickRepos
  simp only [bind, Except.bind]
  rw [if_neg (by omega)]
  cases n with
  | ofNat k => exact absurd hn (by simp)
  | negSucc k => rfl

theorem strLe_antisymm {a b : Str} (h1 : strLe a b = true) (h2 : strLe b a = true) : a = b := by
  induction a generalizing b with
  | nil => cases b with
    | nil => rfl
    | cons y ys => simp [strLe] at h2
  | cons x xs ih => cases b with
    | nil => simp [strLe] at h1
    | cons y ys =>
      by_cases hxy : x = y
      · subst hxy
        simp only [strLe, if_true] at h1 h2
        rw [ih h1 h2]
      · simp only [strLe, hxy, Ne.symm hxy, if_false, decide_eq_true_eq] at h1 h2
        omega

/-- Lists of different texts with the same elements are sorted alike. -/
theorem sortStrs_ext {l m : List Str} (hl : l.Nodup) (hm : m.Nodup) (h : ∀ x, x ∈ l ↔ x ∈ m) : sortStrs l = sortStrs m :=
  ((sortStrs_perm l).trans (((List.perm_ext_iff_of_nodup hl hm).2 h).trans (sortStrs_perm m).symm)).eq_of_pairwise
    (fun _ _ _ _ h1 h2 => strLe_antisymm h1 h2) (sortStrs_sorted l) (sortStrs_sorted m)

/-- C98: with the same random choices, the repositories that are picked depend only on which entries are allowed, not on
their order in the list, on repeated entries or on how the exclusions are written. -/
theorem C98_repeatable (get get' : Str → Option (Nat × Str)) (sample : List Str → Nat → List Str)
    (order order' : List Str → List Str) (rows rows' : List (List Str)) (exclude exclude' : Option Str) (n : Int)
    (fs fs' : FileTexts) (run run' : SelectRun) (hsame : ∀ r, Allowed rows exclude r ↔ Allowed rows' exclude' r)
    (h : selectMain get sample order rows exclude n fs = .ok run)
    (h' : selectMain get' sample order' rows' exclude' n fs' = .ok run') :
    run.picked.Perm run'.picked ∧ run.selected = run'.selected := by
  have hmem : ∀ r, r ∈ (allRepos rows).filter (fun r => decide (r ∉ excludedRepos exclude)) ↔
      r ∈ (allRepos rows').filter (fun r => decide (r ∉ excludedRepos exclude')) := by
    intro r
    rw [allowed_iff, allowed_iff, hsame]
  have hperm := (List.perm_ext_iff_of_nodup (allowed_nodup rows exclude) (allowed_nodup rows' exclude')).2 hmem
  have hlen := hperm.length_eq
  unfold selectMain pickRepos at h h'
  simp only [bind, Except.bind] at h h'
  by_cases hle : n ≥ ((allRepos rows).filter (fun r => decide (r ∉ excludedRepos exclude))).length
  · rw [if_pos hle] at h
    rw [if_pos (by omega)] at h'
    injection h with h
    injection h' with h'
    subst h h'
    exact ⟨hperm, hlen⟩
  · rw [if_neg hle] at h
    rw [if_neg (by omega), ← sortStrs_ext (allowed_nodup rows exclude) (allowed_nodup rows' exclude') hmem] at h'
    cases n with
    | negSucc k => cases h
    | ofNat k =>
      simp only at h h'
      injection h with h
      injection h' with h'
      subst h h'
      exact ⟨.refl _, rfl⟩

theorem selectMain_ok {get : Str → Option (Nat × Str)} {sample : List Str → Nat → List Str} {order : List Str → List Str}
    {rows : List (List Str)} {exclude : Option Str} {n : Int} {fs : FileTexts} {run : SelectRun}
    (h : selectMain get sample order rows exclude n fs = .ok run) :
    run.fetched = ((dedupe (run.picked.map fun r => (fetchRepo get r).1)).filter fun r => decide (r ≠ [])).length ∧
    run.files = (order run.picked).foldl (fun fs r => writeFile fs (fetchRepo get r).2) fs := by
  unfold selectMain at h
  simp only [bind, Except.bind] at h
  split at h
  · cases h
  · injection h with h
    subst h
    exact ⟨rfl, rfl⟩

/-- C98: the number of recipes reported as fetched is that of the picked repositories for which a recipe can be had. -/
theorem C98_fetched (get : Str → Option (Nat × Str)) (sample : List Str → Nat → List Str) (order : List Str → List Str)
    (rows : List (List Str)) (exclude : Option Str) (n : Int) (fs : FileTexts) (run : SelectRun)
    (h : selectMain get sample order rows exclude n fs = .ok run) :
    ∃ got : List Str, got.Nodup ∧ (∀ r, r ∈ got ↔ r ∈ run.picked ∧ Available get r) ∧ run.fetched = got.length := by
  refine ⟨_, (C57_dedupe _).2.1.filter _, fun r => ?_, (selectMain_ok h).1⟩
  rw [List.mem_filter, (C57_dedupe _).1, List.mem_map, decide_eq_true_eq]
  constructor
  · rintro ⟨⟨q, hq, hr⟩, hne⟩
    rcases fetchRepo_cases get q with ⟨t, path, ha, _, _, hs, he⟩ | ⟨_, he⟩
    · rw [he] at hr
      simp only at hr
      subst hr
      exact ⟨hq, hs, t, ha⟩
    · rw [he] at hr
      exact absurd hr.symm hne
  · rintro ⟨hq, hav⟩
    rcases fetchRepo_cases get r with ⟨t, path, ha, _, _, hs, he⟩ | ⟨hn, _⟩
    · exact ⟨⟨r, hq, by rw [he]⟩, by rintro rfl; cases hs⟩
    · exact absurd hav hn

/-- C98: whatever the order in which the workers finish, if the picked repositories have different names, the file of each
repository for which there is a recipe holds that recipe. -/
theorem C98_files_partial (get : Str → Option (Nat × Str)) (sample : List Str → Nat → List Str)
    (order : List Str → List Str) (ho : AnyOrder order) (rows : List (List Str)) (exclude : Option Str) (n : Int)
    (fs : FileTexts) (run : SelectRun) (h : selectMain get sample order rows exclude n fs = .ok run)
    (hd : ∀ r ∈ run.picked, ∀ q ∈ run.picked, ∀ p, FileOf r p → FileOf q p → r = q) :
    ∀ r ∈ run.picked, '/' ∈ r → ∀ text, RecipeAt get r text → ∀ p, FileOf r p → run.files p = some text := by
  intro r hr hs text ht p hp
  rw [(selectMain_ok h).2]
  rcases writes_spec get (order run.picked) fs p with ⟨q, hq, t, _, h2, h3, h4⟩ | ⟨h1, _⟩
  · rw [h4]
    have := hd r hr q ((ho _).mem_iff.1 hq) p hp h3
    subst this
    rw [recipeAt_unique ht h2]
  · exact absurd hp (h1 r ((ho _).mem_iff.2 hr) ⟨hs, text, ht⟩)

/-- C98: every file is the recipe of a picked repository of that name, or is what it was before the run. -/
theorem C98_nothing_else (get : Str → Option (Nat × Str)) (sample : List Str → Nat → List Str)
    (order : List Str → List Str) (ho : AnyOrder order) (rows : List (List Str)) (exclude : Option Str) (n : Int)
    (fs : FileTexts) (run : SelectRun) (h : selectMain get sample order rows exclude n fs = .ok run) (p : Str) :
    (∃ r ∈ run.picked, ∃ text, RecipeAt get r text ∧ FileOf r p ∧ run.files p = some text) ∨
    ((∀ r ∈ run.picked, Available get r → ¬ FileOf r p) ∧ run.files p = fs p) := by
  rw [(selectMain_ok h).2]
  rcases writes_spec get (order run.picked) fs p with ⟨q, hq, t, _, h2, h3, h4⟩ | ⟨h1, h2⟩
  · exact Or.inl ⟨q, (ho _).mem_iff.1 hq, t, h2, h3, h4⟩
  · exact Or.inr ⟨fun r hr => h1 r ((ho _).mem_iff.2 hr), h2⟩

/-! ### Examples -/

def exSelGet : Str → Option (Nat × Str) := fun u =>
  if u = §"https://raw.githubusercontent.com/o/a/main/recipe/meta.yaml" then some (200, §"A")
  else if u = §"https://raw.githubusercontent.com/o/b/main/recipe/meta.yaml" then some (404, §"no")
  else if u = §"https://raw.githubusercontent.com/o/b/master/recipe/meta.yaml" then some (200, §"B")
  else if u = §"https://raw.githubusercontent.com/p/a/main/recipe/meta.yaml" then some (200, §"other A")
  else none

def exSelRows : List (List Str) := [[§"o/a", §"first"], [], [§"o/b"], [§"o/c"], [§"o/a"]]

def exSelRun (order : List Str → List Str) (rows : List (List Str)) (exclude : Option Str) (n : Int) :
    Option ((Nat × Nat) × List Str × List (Option Str)) :=
  (selectMain exSelGet (fun l k => l.take k) order rows exclude n (fun _ => none)).toOption.map fun r =>
    ((r.selected, r.fetched), r.picked, [r.files §"a/recipe/meta.yaml", r.files §"b/recipe/meta.yaml"])

example : SampleOk (fun l k => l.take k) := by
  intro l k hn hk
  exact ⟨hn.sublist (List.take_sublist k l), by simp [hk], fun x hx => List.mem_of_mem_take hx⟩
example : AnyOrder List.reverse := fun l => List.reverse_perm l

example : exSelRun List.reverse exSelRows (some §"o/d\n") 5 =
    some ((3, 2), [§"o/a", §"o/b", §"o/c"], [some §"A", some §"B"]) := by decide +kernel
example : exSelRun id exSelRows (some §"o/a \n") 1 = some ((1, 1), [§"o/b"], [none, some §"B"]) := by decide +kernel

-- Two orders of the list, and exclusions written in two ways: the same repositories are picked.
example : (exSelRun id [[§"o/c"], [§"o/b"], [§"o/a"]] (some §"o/c") 1).map (·.2.1) =
    (exSelRun id [[§"o/a"], [§"o/b"], [§"o/a"], [§"o/c"]] (some §" o/c \n\n") 1).map (·.2.1) ∧
    (exSelRun id [[§"o/c"], [§"o/b"], [§"o/a"]] (some §"o/c") 1).map (·.2.1) = some [§"o/a"] := by
  constructor <;> decide +kernel

/-- C98 fails for repositories of the same name in two organisations: both are reported as fetched, there is one file, and
which recipe it holds depends on the order in which the workers finish. -/
theorem C98_same_name_violation :
    exSelRun id [[§"o/a"], [§"p/a"]] none 2 = some ((2, 2), [§"o/a", §"p/a"], [some §"other A", none]) ∧
    exSelRun List.reverse [[§"o/a"], [§"p/a"]] none 2 = some ((2, 2), [§"o/a", §"p/a"], [some §"A", none]) :=
  ⟨by decide +kernel, by decide +kernel⟩

/-- C98 fails for exclusions given by the names of the directories of an earlier run: nothing is excluded. -/
theorem C98_exclude_directories_violation :
    exSelRun id [[§"o/a"]] (some §"a\n") 1 = some ((1, 1), [§"o/a"], [some §"A", none]) := by decide +kernel

end Crm
