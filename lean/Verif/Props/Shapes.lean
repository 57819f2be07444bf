import Verif.Props.DepPaths
import Verif.Props.Cbc
import Verif.Props.Fetch
import Verif.Props.Scanner
import Verif.Props.References

/-!
# Values of the wrong shape (C36, C38, C55, C65, C92)

What is raised when a section is not the mapping or the list that is expected, and the results of calls of `fetch`.
-/

namespace Crm
open Spec

/-- C65: when `/outputs` is a value without elements (a number, a truth value, nothing), asking for the package paths raises
`TypeError`. -/
theorem C65_outputs_without_elements (E : Env) (r : Recipe) (v : PyVal)
    (h : r.getValue E §"/outputs" (some (.list [])) = .ok v) (hv : size v = none) :
    r.getPackagePaths E = .error .typeError := by
  unfold Recipe.getPackagePaths
  simp only [h, bind, Except.bind]
  cases v <;> first | rfl | cases hv

example : (Toy.recipe "outputs: 3\n").getPackagePaths Toy.env = .error .typeError := by decide +kernel
example : (Toy.recipe "outputs: 3\n").getValue Toy.env §"/outputs" (some (.list [])) = .ok (.int 3) ∧ size (.int 3) = none := by
  decide +kernel

theorem scanRequirements_size (E : Env) (r : Recipe) (pre : Str) (a b : List Str) (s : Str) (v : PyVal)
    (ha : ∀ t ∈ a, ∃ n, SizeAt E r (pre ++ §"/requirements/" ++ t) n)
    (h : r.getValue E (pre ++ §"/requirements/" ++ s) (some (.list [])) = .ok v) (hv : size v = none) :
    r.scanRequirements E pre (a ++ s :: b) = .error .typeError := by
  induction a with
  | nil =>
    rw [List.nil_append]
    unfold Recipe.scanRequirements
    simp only [h, bind, Except.bind]
    cases v <;> first | rfl | cases hv
  | cons t a ih =>
    obtain ⟨n, w, hw, hn⟩ := ha t (by simp)
    rw [List.cons_append]
    unfold Recipe.scanRequirements
    simp only [hw, bind, Except.bind, pyLen_size.2 hn, ih fun t ht => ha t (by simp [ht])]

/-- C92: the dependency paths are looked for in the sections of the top level first, in order; the first of them whose value
has no elements makes the search raise `TypeError`. -/
theorem C92_section_without_elements (E : Env) (r : Recipe) (a b : List Str) (s : Str) (v : PyVal)
    (hs : packageSections r.schema = a ++ s :: b)
    (ha : ∀ t ∈ a, ∃ n, SizeAt E r (§"/requirements/" ++ t) n)
    (h : r.getValue E (§"/requirements/" ++ s) (some (.list [])) = .ok v) (hv : size v = none) :
    r.getDependencyPaths E = .error .typeError := by
  unfold Recipe.getDependencyPaths
  rw [reqSections_eq, hs, scanRequirements_size E r [] a b s v ha h hv]
  rfl

example : (Toy.recipe "requirements:\n  run: 3\n").getDependencyPaths Toy.env = .error .typeError := by decide +kernel

theorem allDepsGo_shape (E : Env) (M : Str → Option Str) (r : Recipe) (reqs : Str → List (Str × PyVal))
    (pre post : List (PyVal × Str)) (package : PyVal) (path : Str) (v : PyVal)
    (hp : ∀ e ∈ pre, e.2 = §"/" ∨ e.2 ≠ [] ∧ e.2.getLast? ≠ some '/')
    (hr : ∀ e ∈ pre, r.getValue E (Recipe.appendToPath e.2 §"/requirements") (some (.dict [])) true =
      .ok (.dict (reqs e.2)) ∧ textLists (reqs e.2))
    (h : r.getValue E (Recipe.appendToPath path §"/requirements") (some (.dict [])) true = .ok v)
    (hv : ∀ kvs, v ≠ .dict kvs) :
    Recipe.allDepsGo E M r (pre ++ (package, path) :: post) = .error .attributeError := by
  induction pre with
  | nil =>
    rw [List.nil_append]
    unfold Recipe.allDepsGo
    simp only [h, bind, Except.bind]
    cases v <;> first | rfl | exact absurd rfl (hv _)
  | cons e pre ih =>
    obtain ⟨p, q⟩ := e
    have ih' := ih (fun e he => hp e (by simp [he])) fun e he => hr e (by simp [he])
    obtain ⟨h1, h2⟩ := hr (p, q) (by simp)
    rw [List.cons_append]
    unfold Recipe.allDepsGo
    simp only [h1, bind, Except.bind, Recipe.pyItems]
    rw [packageDeps_eq M r p q (hp (p, q) (by simp)) _ h2, ih']

/-- C36: the packages are taken in order; the first one whose `requirements` are no mapping makes `get_all_dependencies`
raise `AttributeError`. -/
theorem C36_requirements_no_mapping (E : Env) (M : Str → Option Str) (r : Recipe) (pre post : List (PyVal × Str)) (package : PyVal)
    (path : Str) (v : PyVal) (ht : r.packageNamesToPath E = .ok (pre ++ (package, path) :: post)) (reqs : Str → List (Str × PyVal))
    (hr : ∀ e ∈ pre, r.getValue E (Recipe.appendToPath e.2 §"/requirements") (some (.dict [])) true =
      .ok (.dict (reqs e.2)) ∧ textLists (reqs e.2))
    (h : r.getValue E (Recipe.appendToPath path §"/requirements") (some (.dict [])) true = .ok v)
    (hv : ∀ kvs, v ≠ .dict kvs) :
    r.getAllDependencies E M = .error .attributeError := by
  obtain ⟨h1, h2, h3⟩ := (C35_names_to_path E r _).1 ht
  obtain ⟨rest, hpaths, hrest⟩ := packagePaths_shape E r _ h1
  have hp : ∀ e ∈ pre, e.2 = §"/" ∨ e.2 ≠ [] ∧ e.2.getLast? ≠ some '/' := by
    intro e he
    have hm : e.2 ∈ (pre ++ (package, path) :: post).map (·.2) := List.mem_map.2 ⟨e, by simp [he], rfl⟩
    rw [hpaths] at hm
    rcases List.mem_cons.1 hm with hm | hm
    · exact .inl hm
    · exact .inr (hrest _ hm).2
  unfold Recipe.getAllDependencies
  simp only [ht, bind, Except.bind, allDepsGo_shape E M r reqs pre post package path v hp hr h hv]

example : ((Toy.recipe "package:\n  name: a\nrequirements:\n  - b\n").getAllDependencies Toy.env fun s => some s).map List.length =
    .error .attributeError := by decide +kernel

/-- C38: a file that is no mapping is refused with `AttributeError`. -/
theorem C38_no_mapping (E : Env) (r : Recipe) (v : PyVal) (h : r.getValue E §"/" = .ok v) (hv : ∀ kvs, v ≠ .dict kvs) :
    cbcTable E r = .error .attributeError := by
  unfold cbcTable
  simp only [h, bind, Except.bind]

example : (cbcTable Toy.env (Toy.recipe "- a\n- b\n")).map CbcTable.variables = .error .attributeError := by decide +kernel
example : (Toy.recipe "- a\n- b\n").getValue Toy.env §"/" = .ok (.list [.str §"a", .str §"b"]) := by decide +kernel

/-- C41: every call of `fetch` of a git fetcher gives one result, that of fetching in the state the calls before it left. -/
theorem C41_git_results (g : GitFetcher) (as : List GitAttempt) :
    (g.run as).1.length = as.length ∧
    ∀ i (a : GitAttempt), as[i]? = some a → (g.run as).1[i]? = some (((g.run (as.take i)).2).fetch a).1 := by
  induction as generalizing g with
  | nil => exact ⟨rfl, by intro i a h; simp at h⟩
  | cons b as ih =>
    obtain ⟨h1, h2⟩ := ih (g.fetch b).2
    have hr : ∀ bs, g.run (b :: bs) = ((g.fetch b).1 :: ((g.fetch b).2.run bs).1, ((g.fetch b).2.run bs).2) := by
      intro bs
      rw [GitFetcher.run]
    rw [hr]
    refine ⟨by simp [h1], ?_⟩
    intro i a h
    cases i with
    | zero =>
      simp only [List.getElem?_cons_zero, Option.some.injEq] at h
      subst h
      simp [GitFetcher.run]
    | succ i =>
      simp only [List.getElem?_cons_succ] at h
      rw [List.take_succ_cons, hr, List.getElem?_cons_succ]
      exact h2 i a h

/-- C55: dependencies in a project file that are a value without elements (a number, a truth value) make the scan raise
`TypeError`; nothing is reported. -/
theorem C55_dependencies_without_elements (M : Str → Option Str) (same : DepData → DepData → Bool) (fn : Str)
    (kvs project : List (Str × PyVal)) (v : PyVal) (tbl : MsgTable) (hp : lookupD §"project" kvs = some (.dict project))
    (hd : lookupD §"dependencies" project = some v) (hv : size v = none) :
    scanPyProject M same fn (.data kvs) tbl = (.error .typeError, tbl) := by
  unfold scanPyProject
  simp only [hp, tableGet, hd, Option.getD_some, bind, Except.bind]
  cases v <;> first | rfl | cases hv

example : lookupD §"project" [(§"project", PyVal.dict [(§"dependencies", .int 3)])] = some (PyVal.dict [(§"dependencies", .int 3)]) ∧
    lookupD §"dependencies" [(§"dependencies", PyVal.int 3)] = some (.int 3) ∧ size (.int 3) = none := by decide +kernel

/-- C55: a `project` entry that is no table, and optional dependencies that are none after readable dependencies, make the scan
raise `AttributeError`; nothing is reported. -/
theorem C55_no_table (M : Str → Option Str) (same : DepData → DepData → Bool) (fn : Str) (kvs : List (Str × PyVal)) (tbl : MsgTable)
    (h : (∃ v, lookupD §"project" kvs = some v ∧ ∀ d, v ≠ .dict d) ∨
      ∃ (project : List (Str × PyVal)) (ds : List Str) (v : PyVal), lookupD §"project" kvs = some (.dict project) ∧
        (lookupD §"dependencies" project = some (.list (ds.map .str)) ∨ lookupD §"dependencies" project = none) ∧
        lookupD §"optional-dependencies" project = some v ∧ ∀ d, v ≠ .dict d) :
    scanPyProject M same fn (.data kvs) tbl = (.error .attributeError, tbl) := by
  have hadd : ∀ (t : DepSection) (ds : List Str) (deps : List ProjDep), ∃ r, addAll M same t deps (ds.map .str) = .ok r := by
    intro t ds
    induction ds with
    | nil => exact fun deps => ⟨_, rfl⟩
    | cons d ds ih => exact fun deps => ih _
  unfold scanPyProject
  rcases h with ⟨v, hp, hv⟩ | ⟨project, ds, v, hp, hd, ho, hv⟩
  · simp only [hp]
    cases v <;> first | rfl | exact absurd rfl (hv _)
  · simp only [hp, tableGet, ho, Option.getD_some, bind, Except.bind]
    rcases hd with hd | hd
    · obtain ⟨r, hr⟩ := hadd .run ds []
      simp only [hd, Option.getD_some, pyIter, hr]
    · simp only [hd, Option.getD_none, pyIter, addAll]

example : lookupD §"project" [(§"project", PyVal.dict [(§"dependencies", .list [.str §"pip"]), (§"optional-dependencies", .list [])])] =
      some (PyVal.dict [(§"dependencies", .list [.str §"pip"]), (§"optional-dependencies", .list [])]) ∧
    lookupD §"dependencies" [(§"dependencies", PyVal.list [.str §"pip"]), (§"optional-dependencies", .list [])] =
      some (.list ([§"pip"].map .str)) ∧
    lookupD §"optional-dependencies" [(§"dependencies", PyVal.list [.str §"pip"]), (§"optional-dependencies", .list [])] =
      some (.list []) := by decide +kernel

/-- C71: what `bump-recipe` looks for, if the interpreter does not reorder the set, are the three definitions; so the text is
cleaned as described. -/
theorem C71_as_listed_partial (lines : List (Str × Str)) (h : ∀ l ∈ lines, cleaned l.1 l.2) :
    preProcessRemoveHashType hashTypeVariants (lines.map (·.1)).flatten = (lines.map (·.2)).flatten :=
  C71_cleaned_partial hashTypeVariants (by decide) lines h

end Crm
