import Verif.Spec.GraphFiles
import Verif.Props.Graph
import Verif.Props.Layout

/-! # The dependency graph of a directory of files (C109) -/

namespace Crm
open Spec Spec.Doc

theorem Spec.RecipeFile.Sound.root {E : Env} {f : RecipeFile} (h : f.Sound E) : f.recipe.root = Doc.root f.ds ∧ OkL E f.ds := by
  rcases h.laid with ⟨h1, h2, h3, h4⟩ | ⟨h1, fs, h2, h3⟩
  · have hr := h.opened
    rw [h3] at hr
    exact ⟨(C31_text_is_kept_partial E f.vars f.ds f.recipe h1 h2 hr h4).2.1, h2.1⟩
  · have hr := h.opened
    rw [h3] at hr
    exact ⟨(free_file_opened h1 h2 hr).1, h1⟩

/-- The packages of a file. -/
def pkgsOf (M : Str → Option Str) (sha : Str) (f : RecipeFile) : List Pkg :=
  f.packages.map fun e => ⟨sha, e.1,
    (dependencyLines (f.reqs e.2)).filterMap (reportedLine M (decide (f.recipe.schema = .v1)) f.fill e.2 e.1) ++
      if e.2 = §"/" then [] else (dependencyLines (f.reqs §"/")).filterMap (reportedLine M (decide (f.recipe.schema = .v1)) f.fill §"/" e.1)⟩

theorem packages_files (E : Env) (M : Str → Option Str) (sha256 : Str → Str) (files : List RecipeFile) (h : ∀ f ∈ files, f.Sound E) :
    packages E M (files.map fun f => (sha256 f.recipe.render, f.recipe)) = files.flatMap fun f => pkgsOf M (sha256 f.recipe.render) f := by
  unfold packages
  rw [List.flatMap_map]
  induction files with
  | nil => rfl
  | cons f fs ih =>
    have hf := h f (by simp)
    simp only [List.flatMap_cons]
    rw [ih fun x hx => h x (by simp [hx]), dependencies_in_tree E M f.ds f.recipe f.packages f.reqs f.mapping f.fill hf.root.1 hf.root.2
      hf.names hf.listed hf.filled]
    simp only [pkgsOf, List.map_map]
    rfl

theorem readFiles_files (E : Env) (sha256 : Str → Str) (files : List RecipeFile) (h : ∀ f ∈ files, f.Sound E) :
    readFiles E sha256 (files.map fun f => (f.path, some f.text)) = files.map (fun f => (sha256 f.recipe.render, f.recipe)) ∧
      unreadFiles E (files.map fun f => (f.path, some f.text)) = [] := by
  induction files with
  | nil => exact ⟨rfl, rfl⟩
  | cons f fs ih =>
    obtain ⟨i1, i2⟩ := ih fun x hx => h x (by simp [hx])
    have hf : recipeOf E (some f.text) = some f.recipe := by
      simp [recipeOf, (h f (by simp)).opened, Except.toOption]
    constructor
    · rw [List.map_cons, List.map_cons, ← i1]
      simp [readFiles, hf, Recipe.calcSha256]
    · rw [List.map_cons]
      simp only [unreadFiles, List.filterMap_cons, hf] at i2 ⊢
      simpa using i2

theorem reported_edge {M : Str → Option Str} {b : Bool} {fill : Str → Str} {place : Str} {p : PyVal} {sec : DepSection → Prop} {d : Str}
    (ls : List DepLine) : (∃ dep ∈ ls.filterMap (reportedLine M b fill place p), sec dep.type ∧ dep.data.name = d) ↔
      ∃ l ∈ ls, sec l.type ∧ strip (fill l.text) ≠ [] ∧ (depDataFromStr M (strip (fill l.text))).name = d := by
  constructor
  · rintro ⟨dep, hd, h1, h2⟩
    obtain ⟨l, hl, he⟩ := List.mem_filterMap.1 hd
    unfold reportedLine at he
    split at he
    · cases he
    · rename_i hn
      injection he with he
      subst he
      exact ⟨l, hl, h1, hn, h2⟩
  · rintro ⟨l, hl, h1, hn, h2⟩
    cases hr : reportedLine M b fill place p l with
    | none => unfold reportedLine at hr; rw [if_neg hn] at hr; cases hr
    | some dep =>
      refine ⟨dep, List.mem_filterMap.2 ⟨l, hl, hr⟩, ?_⟩
      unfold reportedLine at hr
      rw [if_neg hn] at hr
      injection hr with hr
      subst hr
      exact ⟨h1, h2⟩

theorem edge_iff {M : Str → Option Str} {sha256 : Str → Str} {files : List RecipeFile} {sec : DepSection → Prop} {p : PyVal} {d : Str} :
    (∃ q ∈ files.flatMap fun f => pkgsOf M (sha256 f.recipe.render) f, q.name = p ∧ dependsOn sec q d) ↔ LineFor M files sec p d := by
  constructor
  · rintro ⟨q, hq, rfl, dep, hd, h1, h2⟩
    obtain ⟨f, hf, hq⟩ := List.mem_flatMap.1 hq
    obtain ⟨⟨n, place⟩, he, rfl⟩ := List.mem_map.1 hq
    refine ⟨f, hf, place, he, ?_⟩
    simp only at hd
    unfold RecipeFile.linesOf
    rcases List.mem_append.1 hd with hd | hd
    · obtain ⟨l, hl, h⟩ := (reported_edge _).1 ⟨dep, hd, h1, h2⟩
      exact ⟨l, List.mem_append.2 (Or.inl hl), h⟩
    · split at hd
      · cases hd
      · rename_i hn
        obtain ⟨l, hl, h⟩ := (reported_edge _).1 ⟨dep, hd, h1, h2⟩
        exact ⟨l, List.mem_append.2 (Or.inr (by rw [if_neg hn]; exact hl)), h⟩
  · rintro ⟨f, hf, place, he, l, hl, h⟩
    refine ⟨_, List.mem_flatMap.2 ⟨f, hf, List.mem_map.2 ⟨_, he, rfl⟩⟩, rfl, ?_⟩
    unfold RecipeFile.linesOf at hl
    rcases List.mem_append.1 hl with hl | hl
    · obtain ⟨dep, hd, h⟩ := (reported_edge (M := M) (b := decide (f.recipe.schema = .v1)) (fill := f.fill) (place := place) (p := p) _).2 ⟨l, hl, h⟩
      exact ⟨dep, List.mem_append.2 (Or.inl hd), h⟩
    · split at hl
      · cases hl
      · rename_i hn
        obtain ⟨dep, hd, h⟩ := (reported_edge (M := M) (b := decide (f.recipe.schema = .v1)) (fill := f.fill) (place := §"/") (p := p) _).2 ⟨l, hl, h⟩
        exact ⟨dep, List.mem_append.2 (Or.inr (by rw [if_neg hn]; exact hd)), h⟩

/-- C109: the graph of a directory of recipe files.  Every file is read and counted, every package is in the graph, and there is an edge
from `p` to `d` in the build graph exactly if some file has a line for `d` in a `build` or `host` section for the package `p`, in the
test graph exactly if it has one in a `run` or test section. -/
theorem C109_edges_are_the_lines_partial (E : Env) (M : Str → Option Str) (sha256 : Str → Str) (files : List RecipeFile)
    (h : ∀ f ∈ files, f.Sound E) (hp : (files.map (·.path)).Nodup) (hd : (files.map fun f => sha256 f.recipe.render).Nodup)
    (hn : (allNames files).Nodup) (hnone : .none ∉ allNames files)
    (heq : ∀ a ∈ allNames files, ∀ b ∈ allNames files, pyEq a b = true → a = b) :
    ∃ g, Graph.fromDisk E M sha256 (files.map fun f => (f.path, some f.text)) = .ok g ∧
      (∀ p d, (p, d) ∈ g.build ↔ LineFor M files inBuild p d) ∧ (∀ p d, (p, d) ∈ g.test ↔ LineFor M files inTest p d) ∧
      (∀ s, g.containsPackage s = true ↔ .str s ∈ allNames files) ∧
      g.totalRecipes = files.length ∧ g.totalPackages = (allNames files).length ∧ g.duplicates = [] ∧ g.failedToParse = [] ∧
      g.failedDeps = [] := by
  obtain ⟨r1, r2⟩ := readFiles_files E sha256 files h
  have hpk := packages_files E M sha256 files h
  have hnames : (packages E M (files.map fun f => (sha256 f.recipe.render, f.recipe))).map (·.name) = allNames files := by
    rw [hpk, List.map_flatMap]
    unfold allNames
    congr 1
    funext f
    simp only [pkgsOf, List.map_map]
    rfl
  have hplain : plainNames (packages E M (files.map fun f => (sha256 f.recipe.render, f.recipe))) := by
    have hm : ∀ q ∈ packages E M (files.map fun f => (sha256 f.recipe.render, f.recipe)), q.name ∈ allNames files := by
      intro q hq
      rw [← hnames]
      exact List.mem_map_of_mem hq
    exact ⟨fun q hq he => hnone (he ▸ hm q hq), fun a ha b hb => heq _ (hm a ha) _ (hm b hb)⟩
  have hkeys : ((files.map fun f => (sha256 f.recipe.render, f.recipe)).map (·.1)).Nodup := by
    rw [List.map_map]; exact hd
  obtain ⟨hdisk, _⟩ := C40_from_disk_distinct E M sha256 (files.map fun f => (f.path, some f.text)) (by rw [List.map_map]; exact hp)
    (by rw [r1]; exact hkeys) (by rw [r1]; exact hplain)
  rw [r1, r2] at hdisk
  have hfirst := firsts_of_nodup _ (by rw [hnames]; exact hn)
  obtain ⟨g, hg, e1, e2⟩ := C39_edges_partial E M _ [] hkeys hplain
  obtain ⟨g2, hg2, s1, s2, s3, _, s5, s6, s7, s8⟩ := C40_stats_partial E M _ [] hkeys hplain
  obtain ⟨g3, hg3, _, t2⟩ := C40_contains E M _ [] hkeys hplain
  rw [hg] at hg2 hg3
  injection hg2 with hg2
  injection hg3 with hg3
  subst hg2; subst hg3
  refine ⟨g, hdisk.trans hg, ?_, ?_, ?_, ?_, ?_, ?_, s5, ?_⟩
  · intro p d
    rw [e1, hfirst, hpk]
    exact edge_iff
  · intro p d
    rw [e2, hfirst, hpk]
    exact edge_iff
  · intro s
    rw [t2, ← hnames, List.mem_map]
  · rw [s8]; simp
  · rw [s1, hfirst, ← hnames, List.length_map]
  · apply List.eq_nil_iff_forall_not_mem.2
    intro v hv
    have h2 := (s3 v).1 hv
    rw [hnames] at h2
    have := List.nodup_iff_count.1 hn v
    omega
  · rw [s6]
    unfold unreadable
    rw [List.filterMap_map]
    apply List.filterMap_eq_nil_iff.2
    intro f hf
    have hs := h f hf
    simp only [Function.comp_apply]
    rw [dependencies_in_tree E M f.ds f.recipe f.packages f.reqs f.mapping f.fill hs.root.1 hs.root.2 hs.names hs.listed hs.filled]

/-! ## Two files -/

namespace GraphFilesExample

def reqs : List Doc :=
  [ block §"build" [] [item §"cc" (.str §"cc") §"# [linux]"], block §"run" [] [item §"p" (.str §"p") []] ]

def file : List Doc :=
  [ block §"package" [] [scalar §"name" §"a" (.str §"a") []], block §"requirements" [] reqs ]

def opened : Recipe :=
  match Recipe.ofString Toy.env (recipeText [] file) with
  | .ok o => o
  | .error _ => ⟨[], {}, .v0, [], [], false⟩

def mapping : List (Str × PyVal) := [(§"build", .list [.str §"cc"]), (§"run", .list [.str §"p"])]

theorem writable : Writable Toy.env [] := ⟨by decide +kernel, by decide +kernel, by decide +kernel, by decide +kernel, by decide +kernel⟩
theorem document : Document Toy.env file := documentB_sound (by decide +kernel)
theorem opened_ok : (Recipe.ofString Toy.env (recipeText [] file)).toOption.isSome = true := by decide +kernel
theorem opened_eq : Recipe.ofString Toy.env (recipeText [] file) = .ok opened := by
  unfold opened
  have := opened_ok
  cases h : Recipe.ofString Toy.env (recipeText [] file) with
  | error e => rw [h] at this; cases this
  | ok o => rfl
theorem names : opened.packageNamesToPath Toy.env = .ok [(.str §"a", §"/")] := by decide +kernel

theorem at_top : RequirementsOf file §"/" reqs :=
  .top (c := []) (.here (pre := [block §"package" [] [scalar §"name" §"a" (.str §"a") []]])
    (post := []) (by unfold Picks; rw [if_neg (by decide)]; exact ⟨rfl, by simp [Fresh, node]⟩))

theorem read_top : YamlReads Toy.env reqs mapping :=
  ⟨fun _ => .itself (by decide +kernel),
    .texts _ _ _ (by decide) (by decide) (by intro d hd; simp only [List.mem_singleton] at hd; exact Or.inr ⟨_, _, _, hd⟩)
      (.texts _ _ _ (by decide) (by decide) (by intro d hd; simp only [List.mem_singleton] at hd; exact Or.inr ⟨_, _, _, hd⟩) .nil),
    by decide⟩

theorem filled_text (t : Str) (h : t ∈ [§"cc", §"p"]) :
    Fills Toy.env opened.schema opened.vars t (.str t) := by
  simp only [List.mem_cons, List.not_mem_nil, or_false] at h
  rcases h with rfl | rfl <;> exact fills_plain (by decide) ⟨by decide, by decide, by rintro c ⟨⟩; decide⟩ (by decide +kernel)

theorem filled_value : ∃ w, Filled Toy.env opened.schema opened.vars Toy.env.recLimit (.dict mapping) w := by
  refine ⟨_, .dict (n := 49) (fun kv => kv.2) ?_⟩
  have ht : ∀ t, t ∈ [§"cc", §"p"] → ∀ n, Filled Toy.env opened.schema opened.vars (n + 1) (.str t) (.str t) := by
    intro t h n
    exact .text (filled_text t h) trivial
  have hl : ∀ t, t ∈ [§"cc", §"p"] → Filled Toy.env opened.schema opened.vars 49 (.list [.str t]) (.list [.str t]) := by
    intro t h
    refine .list (n := 48) (xs := [.str t]) (fun v => v) ?_
    intro x hx
    simp only [List.mem_singleton] at hx
    subst hx
    exact ht t h 47
  intro kv hkv
  simp only [mapping, List.mem_cons, List.not_mem_nil, or_false] at hkv
  rcases hkv with rfl | rfl
  · exact hl _ (by decide)
  · exact hl _ (by decide)

def first : RecipeFile where
  path := §"/r/p/meta.yaml"
  text := recipeText FileDepsExample.vars FileDepsExample.file
  vars := FileDepsExample.vars
  ds := FileDepsExample.file
  recipe := FileDepsExample.opened
  packages := FileDepsExample.tbl
  reqs := FileDepsExample.reqs
  mapping := FileDepsExample.mapping
  fill := FileDepsExample.fill

def second : RecipeFile where
  path := §"/r/a/meta.yaml"
  text := recipeText [] file
  vars := []
  ds := file
  recipe := opened
  packages := [(.str §"a", §"/")]
  reqs := fun _ => reqs
  mapping := fun _ => mapping
  fill := id

theorem sound_of {E : Env} {path : Str} {vars : List (Str × PyVal)} {ds : List Doc} {recipe : Recipe} {packages : List (PyVal × Str)}
    {reqs : Str → List Doc} {mapping : Str → List (Str × PyVal)} {fill : Str → Str} (hw : Writable E vars) (hd : Document E ds)
    (hv : recipe.schema = .v1 → vars = []) (ho : Recipe.ofString E (recipeText vars ds) = .ok recipe)
    (hn : recipe.packageNamesToPath E = .ok packages)
    (hl : ∀ e ∈ packages, RequirementsOf ds e.2 (reqs e.2) ∧ YamlReads E (reqs e.2) (mapping e.2) ∧
      ∃ w, Filled E recipe.schema recipe.vars E.recLimit (.dict (mapping e.2)) w)
    (hf : ∀ e ∈ packages, ∀ l ∈ dependencyLines (reqs e.2), Fills E recipe.schema recipe.vars l.text (.str (fill l.text))) :
    (RecipeFile.mk path (recipeText vars ds) vars ds recipe packages reqs mapping fill).Sound E :=
  ⟨Or.inl ⟨hw, hd, rfl, hv⟩, ho, hn, hl, hf⟩

theorem first_sound : first.Sound Toy.env := by
  refine sound_of FileDepsExample.writable FileDepsExample.document
    (fun h => absurd (FileDepsExample.old_format.symm.trans h) (by decide)) FileDepsExample.opened_eq FileDepsExample.names ?_
    fun e _ l hl => FileDepsExample.filled_text _ (FileDepsExample.lines_texts _ l hl)
  intro e he
  simp only [FileDepsExample.tbl, List.mem_cons, List.not_mem_nil, or_false] at he
  rcases he with rfl | rfl
  · exact ⟨FileDepsExample.at_top, FileDepsExample.read_top, FileDepsExample.filled_value _⟩
  · exact ⟨FileDepsExample.at_out, FileDepsExample.read_out, FileDepsExample.filled_value _⟩

theorem second_sound : second.Sound Toy.env := by
  refine sound_of writable document (fun _ => rfl) opened_eq names ?_ ?_
  · intro e he
    simp only [List.mem_singleton] at he
    subst he
    exact ⟨at_top, read_top, filled_value⟩
  · intro e _ l hl
    apply filled_text
    have e : dependencyLines reqs = [⟨.build, §"build", 0, §"cc", §"# [linux]"⟩, ⟨.run, §"run", 0, §"p", []⟩] := rfl
    have hl : l ∈ dependencyLines reqs := hl
    rw [e] at hl
    simp only [List.mem_cons, List.not_mem_nil, or_false] at hl
    rcases hl with rfl | rfl <;> decide

theorem mk_recipe (a b c d e f g h i) : (RecipeFile.mk a b c d e f g h i).recipe = e := rfl
theorem first_recipe : first.recipe = FileDepsExample.opened := mk_recipe ..
theorem second_recipe : second.recipe = opened := mk_recipe ..
theorem differ : FileDepsExample.opened.render ≠ opened.render := by decide +kernel

theorem two_nodup (f g : RecipeFile) (h : f.recipe.render ≠ g.recipe.render) : ([f, g].map fun f => id f.recipe.render).Nodup := by
  simp [h]

/-- The name in front of the first space. -/
def nameOf (t : Str) : Option Str := some (t.takeWhile (· != ' '))

/-- The two files meet the hypotheses, with the text itself as its digest: `p` needs `a` to run, which needs `cc` to be built; the
output `q` needs what the whole recipe needs. -/
theorem both : ∃ g, Graph.fromDisk Toy.env nameOf id ([first, second].map fun f => (f.path, some f.text)) = .ok g ∧
    (.str §"p", §"a") ∈ g.test ∧ (.str §"q", §"a") ∈ g.test ∧ (.str §"a", §"cc") ∈ g.build ∧ (.str §"a", §"p") ∉ g.build ∧ g.totalPackages = 3 := by
  have hall : allNames [first, second] = [.str §"p", .str §"q", .str §"a"] := rfl
  obtain ⟨g, hg, hb, ht, _, _, hp, _⟩ := C109_edges_are_the_lines_partial Toy.env nameOf id [first, second]
    (by intro f hf; simp only [List.mem_cons, List.not_mem_nil, or_false] at hf; rcases hf with rfl | rfl; exact first_sound; exact second_sound)
    (by decide) (two_nodup first second (by rw [first_recipe, second_recipe]; exact differ)) (by rw [hall]; decide) (by rw [hall]; decide) (by rw [hall]; decide)
  refine ⟨g, hg, (ht _ _).2 ⟨first, by simp, §"/", ?_, ⟨.run, §"run", 0, §"a >={{ ver }}", §"# [osx] why"⟩, ?_, ?_⟩,
    (ht _ _).2 ⟨first, by simp, §"/outputs/0", ?_, ⟨.run, §"run", 0, §"a >={{ ver }}", §"# [osx] why"⟩, ?_, ?_⟩,
    (hb _ _).2 ⟨second, by simp, §"/", ?_, ⟨.build, §"build", 0, §"cc", §"# [linux]"⟩, ?_, ?_⟩, fun h => ?_, hp⟩
  · exact List.mem_cons_self
  · exact .tail _ (.head _)
  · exact ⟨Or.inl rfl, by decide +kernel, by decide +kernel⟩
  · exact .tail _ (.head _)
  · exact .tail _ (.tail _ (.tail _ (.head _)))
  · exact ⟨Or.inl rfl, by decide +kernel, by decide +kernel⟩
  · exact List.mem_cons_self
  · exact List.mem_cons_self
  · exact ⟨Or.inl rfl, by decide +kernel, by decide +kernel⟩
  · obtain ⟨f, hf, place, he, l, hl, hs, _, hd⟩ := (hb _ _).1 h
    simp only [List.mem_cons, List.not_mem_nil, or_false] at hf
    rcases hf with rfl | rfl
    · have he : (PyVal.str §"a", place) ∈ FileDepsExample.tbl := he
      simp [FileDepsExample.tbl] at he
    · have he : (PyVal.str §"a", place) ∈ [(PyVal.str §"a", §"/")] := he
      simp only [List.mem_singleton, Prod.mk.injEq, true_and] at he
      subst he
      have hl : l ∈ [DepLine.mk .build §"build" 0 §"cc" §"# [linux]", ⟨.run, §"run", 0, §"p", []⟩] := hl
      simp only [List.mem_cons, List.not_mem_nil, or_false] at hl
      rcases hl with rfl | rfl
      · exact absurd hd (by decide +kernel)
      · rcases hs with hs | hs <;> cases hs

end GraphFilesExample

end Crm
