import Verif.Spec.GraphDir
import Verif.Props.GraphFiles

/-! # The dependency graph of any directory (C109) -/

namespace Crm
open Spec Spec.Doc

theorem flatMap_split {α β : Type} {f : α → List β} : ∀ {l : List α} {as : List β} {q : β} {bs : List β}, l.flatMap f = as ++ q :: bs →
    ∃ pre x post a b, l = pre ++ x :: post ∧ f x = a ++ q :: b ∧ as = pre.flatMap f ++ a
  | [], as, q, bs, h => by simp at h
  | x :: l, as, q, bs, h => by
    rw [List.flatMap_cons, List.append_eq_append_iff] at h
    rcases h with ⟨as', h1, h2⟩ | ⟨bs', h1, h2⟩
    · obtain ⟨pre, y, post, a, b, e1, e2, e3⟩ := flatMap_split h2
      exact ⟨x :: pre, y, post, a, b, by rw [e1]; rfl, e2, by rw [h1, e3, List.flatMap_cons, List.append_assoc]⟩
    · cases bs' with
      | nil =>
        simp only [List.nil_append] at h2
        obtain ⟨pre, y, post, a, b, e1, e2, e3⟩ := flatMap_split (l := l) (as := []) h2.symm
        refine ⟨x :: pre, y, post, a, b, by rw [e1]; rfl, e2, ?_⟩
        rw [List.append_nil] at h1
        rw [List.flatMap_cons, h1, List.append_assoc, ← e3, List.append_nil]
      | cons z zs =>
        simp only [List.cons_append, List.cons.injEq] at h2
        exact ⟨[], x, l, as, zs, rfl, by rw [h1, h2.1], by simp⟩

theorem names_pkgsOf (M : Str → Option Str) (sha256 : Str → Str) (files : List RecipeFile) :
    (files.flatMap fun f => pkgsOf M (sha256 f.recipe.render) f).map (·.name) = allNames files := by
  rw [List.map_flatMap]
  unfold allNames
  congr 1
  funext f
  simp only [pkgsOf, List.map_map]
  rfl

/-- The lines of a package and its dependencies. -/
theorem pkg_depends {M : Str → Option Str} {sha : Str} {f : RecipeFile} {a : List (PyVal × Str)} {p : PyVal} {place : Str}
    {b : List (PyVal × Str)} (h : f.packages = a ++ (p, place) :: b) (sec : DepSection → Prop) (d : Str) :
    ∃ x q y, pkgsOf M sha f = x ++ q :: y ∧ q.name = p ∧ x.map (·.name) = a.map (·.1) ∧
      (dependsOn sec q d ↔ ∃ l ∈ f.linesOf place, sec l.type ∧ strip (f.fill l.text) ≠ [] ∧
        (depDataFromStr M (strip (f.fill l.text))).name = d) := by
  refine ⟨_, _, _, by unfold pkgsOf; rw [h, List.map_append, List.map_cons], rfl, by rw [List.map_map]; rfl, ?_⟩
  simp only
  constructor
  · rintro ⟨dep, hd, h1, h2⟩
    unfold RecipeFile.linesOf
    rcases List.mem_append.1 hd with hd | hd
    · obtain ⟨l, hl, h⟩ := (reported_edge _).1 ⟨dep, hd, h1, h2⟩
      exact ⟨l, List.mem_append.2 (Or.inl hl), h⟩
    · split at hd
      · cases hd
      · rename_i hn
        obtain ⟨l, hl, h⟩ := (reported_edge _).1 ⟨dep, hd, h1, h2⟩
        exact ⟨l, List.mem_append.2 (Or.inr (by rw [if_neg hn]; exact hl)), h⟩
  · rintro ⟨l, hl, h⟩
    unfold RecipeFile.linesOf at hl
    rcases List.mem_append.1 hl with hl | hl
    · obtain ⟨dep, hd, h⟩ := (reported_edge (M := M) (b := decide (f.recipe.schema = .v1)) (fill := f.fill) (place := place) (p := p) _).2 ⟨l, hl, h⟩
      exact ⟨dep, List.mem_append.2 (Or.inl hd), h⟩
    · split at hl
      · cases hl
      · rename_i hn
        obtain ⟨dep, hd, h⟩ := (reported_edge (M := M) (b := decide (f.recipe.schema = .v1)) (fill := f.fill) (place := §"/") (p := p) _).2 ⟨l, hl, h⟩
        exact ⟨dep, List.mem_append.2 (Or.inr (by rw [if_neg hn]; exact hd)), h⟩

theorem first_edge_iff {M : Str → Option Str} {sha256 : Str → Str} {files : List RecipeFile} {sec : DepSection → Prop} {p : PyVal} {d : Str} :
    (∃ q ∈ firsts (files.flatMap fun f => pkgsOf M (sha256 f.recipe.render) f), q.name = p ∧ dependsOn sec q d) ↔
      FirstLineFor M files sec p d := by
  constructor
  · rintro ⟨q, hq, rfl, hdep⟩
    obtain ⟨as, bs, e, hn⟩ := (C39_firsts_iff _ _).1 hq
    obtain ⟨pre, f, post, x, y, e1, e2, e3⟩ := flatMap_split e
    obtain ⟨a, w, b, h1, h2, h3, h4⟩ : ∃ a w b, f.packages = a ++ w :: b ∧ x.map (·.name) = a.map (·.1) ∧ q.name = w.1 ∧
        (dependsOn sec q d ↔ ∃ l ∈ f.linesOf w.2, sec l.type ∧ strip (f.fill l.text) ≠ [] ∧
          (depDataFromStr M (strip (f.fill l.text))).name = d) := by
      have e2' := e2
      unfold pkgsOf at e2
      obtain ⟨a, b', g1, g2, g3⟩ := List.map_eq_append_iff.1 e2
      obtain ⟨w, b, rfl, g4, g5⟩ := List.map_eq_cons_iff.1 g3
      obtain ⟨x', q', y', k1, k2, k3, k4⟩ := pkg_depends (M := M) (sha := sha256 f.recipe.render) g1 sec d
      have hlen : x.length = x'.length := by
        have := congrArg List.length k3
        simp only [List.length_map] at this
        rw [this, ← g2, List.length_map]
      obtain ⟨j1, j2⟩ := List.append_inj (e2'.symm.trans k1) hlen
      injection j2 with j2 _
      subst j1 j2
      exact ⟨a, w, b, g1, k3, k2, k4⟩
    refine ⟨f, w.2, ⟨pre, post, a, b, e1, by rw [h1, h3], ?_, ?_⟩, h4.1 hdep⟩
    · intro hm
      rw [← names_pkgsOf M sha256] at hm
      obtain ⟨r, hr, he⟩ := List.mem_map.1 hm
      exact hn r (by rw [e3]; exact List.mem_append.2 (Or.inl hr)) he
    · intro hm
      rw [← h2] at hm
      obtain ⟨r, hr, he⟩ := List.mem_map.1 hm
      exact hn r (by rw [e3]; exact List.mem_append.2 (Or.inr hr)) he
  · rintro ⟨f, place, ⟨before, after, a, b, e1, e2, n1, n2⟩, hl⟩
    obtain ⟨x, q, y, k1, k2, k3, k4⟩ := pkg_depends (M := M) (sha := sha256 f.recipe.render) e2 sec d
    refine ⟨q, (C39_firsts_iff _ _).2 ⟨(before.flatMap fun f => pkgsOf M (sha256 f.recipe.render) f) ++ x,
      y ++ after.flatMap fun f => pkgsOf M (sha256 f.recipe.render) f, ?_, ?_⟩, k2, k4.2 hl⟩
    · rw [e1, List.flatMap_append, List.flatMap_cons, k1]
      simp
    · intro r hr he
      rw [k2] at he
      rcases List.mem_append.1 hr with hr | hr
      · refine n1 ?_
        rw [← names_pkgsOf M sha256]
        exact List.mem_map.2 ⟨r, hr, he⟩
      · refine n2 ?_
        rw [← k3]
        exact List.mem_map.2 ⟨r, hr, he⟩

theorem recipeFiles_cons_recipe (f : RecipeFile) (dir : List DirFile) : recipeFiles (.recipe f :: dir) = f :: recipeFiles dir := rfl
theorem recipeFiles_cons_other (p : Str) (c : Option Str) (dir : List DirFile) : recipeFiles (.other p c :: dir) = recipeFiles dir := rfl

theorem readFiles_dir (E : Env) (sha256 : Str → Str) (dir : List DirFile) (h : ∀ f ∈ dir, f.Sound E) :
    readFiles E sha256 (dir.map fun f => (f.path, f.content)) = (recipeFiles dir).map (fun f => (sha256 f.recipe.render, f.recipe)) ∧
      unreadFiles E (dir.map fun f => (f.path, f.content)) = otherPaths dir := by
  induction dir with
  | nil => exact ⟨rfl, rfl⟩
  | cons x dir ih =>
    obtain ⟨i1, i2⟩ := ih fun y hy => h y (by simp [hy])
    cases x with
    | recipe f =>
      have hf : recipeOf E (some f.text) = some f.recipe := by
        simp [recipeOf, (show f.Sound E from h (.recipe f) (by simp)).opened, Except.toOption]
      constructor
      · rw [recipeFiles_cons_recipe, List.map_cons, List.map_cons, ← i1]
        simp [readFiles, DirFile.path, DirFile.content, hf, Recipe.calcSha256]
      · rw [List.map_cons]
        simp only [unreadFiles, List.filterMap_cons, DirFile.path, DirFile.content, hf, otherPaths] at i2 ⊢
        simpa using i2
    | other p c =>
      have hf : recipeOf E c = none := by
        cases c with
        | none => rfl
        | some t =>
          obtain ⟨e, he⟩ := (show ∀ t', some t = some t' → ∃ e, Recipe.ofString E t' = .error e from h (.other p (some t)) (by simp)) t rfl
          simp [recipeOf, he, Except.toOption]
      constructor
      · rw [recipeFiles_cons_other, List.map_cons, ← i1]
        simp [readFiles, DirFile.path, DirFile.content, hf]
      · rw [List.map_cons]
        simp only [unreadFiles, List.filterMap_cons, DirFile.path, DirFile.content, hf, otherPaths] at i2 ⊢
        simpa using i2

theorem firsts_names (ps : List Pkg) : ((firsts ps).map (·.name)).Nodup ∧ ∀ v, v ∈ (firsts ps).map (·.name) ↔ v ∈ ps.map (·.name) := by
  induction ps with
  | nil => simp [firsts]
  | cons p ps ih =>
    obtain ⟨i1, i2⟩ := ih
    simp only [firsts, List.map_cons, List.nodup_cons]
    have hm : ∀ v, v ∈ ((firsts ps).filter fun q => decide (q.name ≠ p.name)).map (·.name) ↔ v ∈ ps.map (·.name) ∧ v ≠ p.name := by
      intro v
      rw [← i2]
      simp only [List.mem_map, List.mem_filter, decide_eq_true_eq]
      constructor
      · rintro ⟨q, ⟨h1, h2⟩, rfl⟩; exact ⟨⟨q, h1, rfl⟩, h2⟩
      · rintro ⟨⟨q, h1, rfl⟩, h2⟩; exact ⟨q, ⟨h1, h2⟩, rfl⟩
    refine ⟨⟨fun h => ((hm _).1 h).2 rfl, ?_⟩, fun v => ?_⟩
    · exact i1.sublist (List.filter_sublist.map _)
    · rw [List.mem_cons, hm, List.mem_cons]
      by_cases hv : v = p.name <;> simp [hv]

/-- C109: the graph of a directory in which some files cannot be read or are no recipes, and some packages have the same name.  The
recipe files are read and counted, the other ones are reported; there is an edge from `p` to `d` in the build graph exactly if the first
package called `p` has a line for `d` in a `build` or `host` section, in the test graph exactly if it has one in a `run` or test
section; the duplicates are the names that more than one package has. -/
theorem C109_directory_partial (E : Env) (M : Str → Option Str) (sha256 : Str → Str) (dir : List DirFile) (h : ∀ f ∈ dir, f.Sound E)
    (hp : (dir.map (·.path)).Nodup) (hd : ((recipeFiles dir).map fun f => sha256 f.recipe.render).Nodup)
    (hnone : .none ∉ allNames (recipeFiles dir))
    (heq : ∀ a ∈ allNames (recipeFiles dir), ∀ b ∈ allNames (recipeFiles dir), pyEq a b = true → a = b) :
    ∃ g, Graph.fromDisk E M sha256 (dir.map fun f => (f.path, f.content)) = .ok g ∧
      (∀ p d, (p, d) ∈ g.build ↔ FirstLineFor M (recipeFiles dir) inBuild p d) ∧
      (∀ p d, (p, d) ∈ g.test ↔ FirstLineFor M (recipeFiles dir) inTest p d) ∧
      (∀ s, g.containsPackage s = true ↔ .str s ∈ allNames (recipeFiles dir)) ∧
      g.totalRecipes = dir.length ∧ g.totalParsed = (recipeFiles dir).length ∧ g.failedToParse = otherPaths dir ∧
      (∃ names : List PyVal, names.Nodup ∧ (∀ v, v ∈ names ↔ v ∈ allNames (recipeFiles dir)) ∧ g.totalPackages = names.length) ∧
      g.duplicates.Nodup ∧ (∀ v, v ∈ g.duplicates ↔ 2 ≤ (allNames (recipeFiles dir)).count v) ∧ g.failedDeps = [] := by
  have hr : ∀ f ∈ recipeFiles dir, f.Sound E := by
    intro f hf
    obtain ⟨x, hx, he⟩ := List.mem_filterMap.1 hf
    cases x with
    | recipe f' => injection he with he; subst he; exact h _ hx
    | other p c => cases he
  obtain ⟨r1, r2⟩ := readFiles_dir E sha256 dir h
  have hpk := packages_files E M sha256 (recipeFiles dir) hr
  have hnames : (packages E M ((recipeFiles dir).map fun f => (sha256 f.recipe.render, f.recipe))).map (·.name) = allNames (recipeFiles dir) := by
    rw [hpk, names_pkgsOf]
  have hplain : plainNames (packages E M ((recipeFiles dir).map fun f => (sha256 f.recipe.render, f.recipe))) := by
    have hm : ∀ q ∈ packages E M ((recipeFiles dir).map fun f => (sha256 f.recipe.render, f.recipe)), q.name ∈ allNames (recipeFiles dir) := by
      intro q hq
      rw [← hnames]
      exact List.mem_map_of_mem hq
    exact ⟨fun q hq he => hnone (he ▸ hm q hq), fun a ha b hb => heq _ (hm a ha) _ (hm b hb)⟩
  have hkeys : (((recipeFiles dir).map fun f => (sha256 f.recipe.render, f.recipe)).map (·.1)).Nodup := by
    rw [List.map_map]; exact hd
  obtain ⟨hdisk, gd, hgd, hgt, _⟩ := C40_from_disk_distinct E M sha256 (dir.map fun f => (f.path, f.content)) (by rw [List.map_map]; exact hp)
    (by rw [r1]; exact hkeys) (by rw [r1]; exact hplain)
  rw [r1, r2] at hdisk
  obtain ⟨g, hg, e1, e2⟩ := C39_edges_partial E M _ (otherPaths dir) hkeys hplain
  obtain ⟨g2, hg2, s1, s2, s3, s4, s5, s6, s7, s8⟩ := C40_stats_partial E M _ (otherPaths dir) hkeys hplain
  obtain ⟨g3, hg3, _, t2⟩ := C40_contains E M _ (otherPaths dir) hkeys hplain
  rw [hg] at hg2 hg3
  injection hg2 with hg2
  injection hg3 with hg3
  subst hg2; subst hg3
  have hgg : gd = g := by
    have := hgd.symm.trans (hdisk.trans hg)
    injection this
  refine ⟨g, hdisk.trans hg, ?_, ?_, ?_, ?_, ?_, s5, ?_, s4, ?_, ?_⟩
  · intro p d
    rw [e1, hpk]
    exact first_edge_iff
  · intro p d
    rw [e2, hpk]
    exact first_edge_iff
  · intro s
    rw [t2, ← hnames, List.mem_map]
  · rw [← hgg, hgt, List.length_map]
  · rw [s7, List.length_map]
  · obtain ⟨f1, f2⟩ := firsts_names (packages E M ((recipeFiles dir).map fun f => (sha256 f.recipe.render, f.recipe)))
    refine ⟨_, f1, fun v => ?_, ?_⟩
    · rw [f2, hnames]
    · rw [s1, List.length_map]
  · intro v
    rw [s3, hnames]
  · rw [s6]
    unfold unreadable
    rw [List.filterMap_map]
    apply List.filterMap_eq_nil_iff.2
    intro f hf
    have hs := hr f hf
    simp only [Function.comp_apply]
    rw [dependencies_in_tree E M f.ds f.recipe f.packages f.reqs f.mapping f.fill hs.root.1 hs.root.2 hs.names hs.listed hs.filled]

/-! ## A directory with a file that cannot be read, and two packages called `a` -/

namespace GraphDirExample
open GraphFilesExample

def file3 : List Doc :=
  [ block §"package" [] [scalar §"name" §"a" (.str §"a") [], scalar §"version" §"2" (.int 2) []], block §"requirements" [] reqs ]

def opened3 : Recipe :=
  match Recipe.ofString Toy.env (recipeText [] file3) with
  | .ok o => o
  | .error _ => ⟨[], {}, .v0, [], [], false⟩

theorem document3 : Document Toy.env file3 := documentB_sound (by decide +kernel)
theorem opened3_ok : (Recipe.ofString Toy.env (recipeText [] file3)).toOption.isSome = true := by decide +kernel
theorem opened3_eq : Recipe.ofString Toy.env (recipeText [] file3) = .ok opened3 := by
  unfold opened3
  have := opened3_ok
  cases h : Recipe.ofString Toy.env (recipeText [] file3) with
  | error e => rw [h] at this; cases this
  | ok o => rfl
theorem names3 : opened3.packageNamesToPath Toy.env = .ok [(.str §"a", §"/")] := by decide +kernel
theorem same_schema : opened3.schema = GraphFilesExample.opened.schema := by decide +kernel
theorem same_vars : opened3.vars = GraphFilesExample.opened.vars := by decide +kernel

theorem at_top3 : RequirementsOf file3 §"/" reqs :=
  .top (c := []) (.here (pre := [block §"package" [] [scalar §"name" §"a" (.str §"a") [], scalar §"version" §"2" (.int 2) []]])
    (post := []) (by unfold Picks; rw [if_neg (by decide)]; exact ⟨rfl, by simp [Fresh, node]⟩))

def third : RecipeFile where
  path := §"/r/a2/meta.yaml"
  text := recipeText [] file3
  vars := []
  ds := file3
  recipe := opened3
  packages := [(.str §"a", §"/")]
  reqs := fun _ => reqs
  mapping := fun _ => mapping
  fill := id

theorem third_sound : third.Sound Toy.env := by
  refine sound_of writable document3 (fun _ => rfl) opened3_eq names3 ?_ ?_
  · intro e he
    simp only [List.mem_singleton] at he
    subst he
    refine ⟨at_top3, read_top, ?_⟩
    rw [same_schema, same_vars]
    exact filled_value
  · intro e _ l hl
    rw [same_schema, same_vars]
    apply filled_text
    have e : dependencyLines reqs = [⟨.build, §"build", 0, §"cc", §"# [linux]"⟩, ⟨.run, §"run", 0, §"p", []⟩] := rfl
    have hl : l ∈ dependencyLines reqs := hl
    rw [e] at hl
    simp only [List.mem_cons, List.not_mem_nil, or_false] at hl
    rcases hl with rfl | rfl <;> decide

theorem third_recipe : third.recipe = opened3 := mk_recipe ..
theorem differ3 : GraphFilesExample.opened.render ≠ opened3.render := by decide +kernel

theorem two_files (f g : RecipeFile) (h : f.recipe.render ≠ g.recipe.render) :
    ((recipeFiles [.recipe f, .other §"/r/x/meta.yaml" none, .recipe g]).map fun f => id f.recipe.render).Nodup := two_nodup f g h

theorem two_paths (f g : RecipeFile) (h : f.path ≠ §"/r/x/meta.yaml" ∧ f.path ≠ g.path ∧ g.path ≠ §"/r/x/meta.yaml") :
    ([.recipe f, .other §"/r/x/meta.yaml" none, .recipe g].map (·.path : DirFile → Str)).Nodup := by
  simp [DirFile.path, h, Ne.symm h.2.2]

/-- The directory meets the hypotheses: the second `a` is reported as a duplicate, the file that cannot be read as a failure. -/
example : ∃ g, Graph.fromDisk Toy.env nameOf id
      ([.recipe second, .other §"/r/x/meta.yaml" none, .recipe third].map fun f : DirFile => (f.path, f.content)) = .ok g ∧
    (.str §"a", §"cc") ∈ g.build ∧ .str §"a" ∈ g.duplicates ∧ g.failedToParse = [§"/r/x/meta.yaml"] ∧ g.totalRecipes = 3 := by
  have hall : allNames (recipeFiles [.recipe second, .other §"/r/x/meta.yaml" none, .recipe third]) = [.str §"a", .str §"a"] := rfl
  obtain ⟨g, hg, hb, _, _, ht, _, hf, _, _, hdup, _⟩ := C109_directory_partial Toy.env nameOf id
    [.recipe second, .other §"/r/x/meta.yaml" none, .recipe third]
    (by
      intro f hf
      simp only [List.mem_cons, List.not_mem_nil, or_false] at hf
      rcases hf with rfl | rfl | rfl
      · exact second_sound
      · intro t ht; cases ht
      · exact third_sound)
    (two_paths second third (by decide)) (two_files second third (by rw [second_recipe, third_recipe]; exact differ3)) (by rw [hall]; decide) (by rw [hall]; decide)
  refine ⟨g, hg, (hb _ _).2 ⟨second, §"/", ⟨[], [third], [], [], rfl, rfl, by simp [allNames], by simp⟩,
    ⟨.build, §"build", 0, §"cc", §"# [linux]"⟩, List.mem_cons_self, Or.inl rfl, by decide +kernel, by decide +kernel⟩, (hdup _).2 ?_, hf, ht⟩
  rw [hall]
  decide

end GraphDirExample

end Crm
