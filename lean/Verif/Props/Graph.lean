import Verif.Model.Graph
import Verif.Props.Deps
import Verif.Lemmas.Dict

/-!
# Recipe graphs (C39, C40, C67)
-/

namespace Crm
open Spec

namespace Spec

/-- A package found in a recipe: the digest of the recipe, the name of the package, its dependencies. -/
structure Pkg where
  sha : Str
  name : PyVal
  deps : List Dep

/-- The packages of the recipes whose dependencies can be read, in order. -/
def packages (E : Env) (M : Str → Option Str) (cache : List (Str × Recipe)) : List Pkg :=
  cache.flatMap fun sr => match sr.2.getAllDependencies E M with
    | .ok m => m.map fun pd => ⟨sr.1, pd.1, pd.2⟩
    | .error _ => []

/-- The packages without those whose name an earlier one has. -/
def firsts : List Pkg → List Pkg
  | [] => []
  | p :: ps => p :: (firsts ps).filter fun q => decide (q.name ≠ p.name)

/-- Every package name is a text. -/
def textNames (ps : List Pkg) : Prop := ∀ p ∈ ps, ∃ s, p.name = .str s

/-- No package is named `None`, and names that Python holds to be equal are the same (so not `1` and `1.0`). -/
def plainNames (ps : List Pkg) : Prop :=
  (∀ p ∈ ps, p.name ≠ .none) ∧ ∀ p ∈ ps, ∀ q ∈ ps, pyEq p.name q.name = true → p.name = q.name

/-- The package depends on `d` in a section that satisfies `f`. -/
def dependsOn (f : DepSection → Prop) (p : Pkg) (d : Str) : Prop := ∃ dep ∈ p.deps, f dep.type ∧ dep.data.name = d

/-- The sections of the build graph. -/
def inBuild (s : DepSection) : Prop := s = .build ∨ s = .host
/-- The sections of the test graph. -/
def inTest (s : DepSection) : Prop := s = .run ∨ s = .tests

end Spec

/-! ## Helpers -/

theorem Spec.textNames.plain {ps : List Pkg} (h : textNames ps) : plainNames ps := by
  refine ⟨fun p hp => ?_, fun p hp q hq he => ?_⟩
  · obtain ⟨s, hs⟩ := h p hp
    simp [hs]
  · obtain ⟨s, hs⟩ := h q hq
    rw [hs] at he ⊢
    exact pyEq_str.1 he

theorem Spec.plainNames.sub {ps qs : List Pkg} (h : plainNames ps) (hs : ∀ q ∈ qs, q ∈ ps) : plainNames qs :=
  ⟨fun p hp => h.1 p (hs p hp), fun p hp q hq => h.2 p (hs p hp) q (hs q hq)⟩

theorem firsts_sub (ps : List Pkg) : ∀ p ∈ firsts ps, p ∈ ps := by
  induction ps with
  | nil => intro p h; exact h
  | cons a as ih =>
    intro p h
    simp only [firsts, List.mem_cons, List.mem_filter] at h
    rcases h with rfl | ⟨h, _⟩
    · exact List.mem_cons_self
    · exact List.mem_cons_of_mem _ (ih p h)

theorem firsts_name (ps : List Pkg) : ∀ p ∈ ps, ∃ q ∈ firsts ps, q.name = p.name := by
  induction ps with
  | nil => intro p h; cases h
  | cons a as ih =>
    intro p h
    by_cases hn : a.name = p.name
    · exact ⟨a, by simp [firsts], hn⟩
    · rcases List.mem_cons.1 h with rfl | h
      · exact absurd rfl hn
      · obtain ⟨q, hq, hqn⟩ := ih p h
        refine ⟨q, ?_, hqn⟩
        simp only [firsts, List.mem_cons, List.mem_filter, decide_eq_true_eq]
        exact Or.inr ⟨hq, fun h => hn (by rw [← h, hqn])⟩

theorem firsts_concat (ps : List Pkg) (p : Pkg) :
    firsts (ps ++ [p]) = if (∃ q ∈ ps, q.name = p.name) then firsts ps else firsts ps ++ [p] := by
  induction ps with
  | nil => simp [firsts]
  | cons a as ih =>
    rw [List.cons_append, firsts, ih]
    by_cases h : ∃ q ∈ as, q.name = p.name
    · rw [if_pos h, if_pos (by obtain ⟨q, hq, hn⟩ := h; exact ⟨q, List.mem_cons_of_mem _ hq, hn⟩), firsts]
    · rw [if_neg h]
      by_cases ha : a.name = p.name
      · rw [if_pos ⟨a, by simp, ha⟩, firsts, List.filter_append]
        simp [ha]
      · rw [if_neg (by
          rintro ⟨q, hq, hn⟩
          rcases List.mem_cons.1 hq with rfl | hq
          · exact ha hn
          · exact h ⟨q, hq, hn⟩), firsts, List.filter_append]
        simp [Ne.symm ha]

/-- Edges of the packages in a list, in sections that satisfy `f`. -/
def EdgesOf (f : DepSection → Prop) (ps : List Pkg) (g : Edges) : Prop :=
  g.Nodup ∧ ∀ p d, (p, d) ∈ g ↔ ∃ q ∈ ps, q.name = p ∧ dependsOn f q d

theorem addEdge_val {v : PyVal} (hv : v ≠ .none) (d : Str) (g : Edges)
    (hs : ∀ e ∈ g, pyEq e.1 v = true → e.1 = v) :
    addEdge v d g = .ok (if (v, d) ∈ g then g else g ++ [(v, d)]) := by
  unfold addEdge
  rw [if_neg hv]
  by_cases h : (v, d) ∈ g
  · rw [if_pos h, if_pos]
    exact List.any_eq_true.2 ⟨_, h, by simp [pyEq_refl]⟩
  · rw [if_neg h, if_neg]
    intro hc
    obtain ⟨⟨a, b⟩, he, hp⟩ := List.any_eq_true.1 hc
    simp only [Bool.and_eq_true, decide_eq_true_eq] at hp
    have ha := hs _ he hp.1
    simp only at ha
    rw [ha, hp.2] at he
    exact h he

/-- What adding the dependencies `ds` of a package does to a list of edges. -/
def edgesAfter (f : DepSection → Prop) [DecidablePred f] (p : PyVal) (ds : List Dep) (g : Edges) : Edges :=
  ds.foldl (fun g d => if f d.type then (if (p, d.data.name) ∈ g then g else g ++ [(p, d.data.name)]) else g) g

instance : DecidablePred inBuild := fun s => by unfold inBuild; infer_instance
instance : DecidablePred inTest := fun s => by unfold inTest; infer_instance

theorem edgesAfter_spec (f : DepSection → Prop) [DecidablePred f] (p : PyVal) (ds : List Dep) (g : Edges)
    (hg : g.Nodup) :
    (edgesAfter f p ds g).Nodup ∧
    ∀ q d, (q, d) ∈ edgesAfter f p ds g ↔ (q, d) ∈ g ∨ (q = p ∧ ∃ dep ∈ ds, f dep.type ∧ dep.data.name = d) := by
  induction ds generalizing g with
  | nil => exact ⟨hg, by simp [edgesAfter]⟩
  | cons x xs ih =>
    have hstep : edgesAfter f p (x :: xs) g = edgesAfter f p xs
        (if f x.type then (if (p, x.data.name) ∈ g then g else g ++ [(p, x.data.name)]) else g) := rfl
    rw [hstep]
    by_cases hf : f x.type
    · by_cases hm : (p, x.data.name) ∈ g
      · rw [if_pos hf, if_pos hm]
        obtain ⟨h1, h2⟩ := ih g hg
        refine ⟨h1, fun q d => ?_⟩
        rw [h2]
        simp only [List.mem_cons, exists_eq_or_imp]
        constructor
        · rintro (h | ⟨h, h'⟩)
          · exact Or.inl h
          · exact Or.inr ⟨h, Or.inr h'⟩
        · rintro (h | ⟨h, ⟨_, h'⟩ | h'⟩)
          · exact Or.inl h
          · rw [h, ← h']; exact Or.inl hm
          · exact Or.inr ⟨h, h'⟩
      · rw [if_pos hf, if_neg hm]
        have hnd : (g ++ [(p, x.data.name)]).Nodup := by
          rw [List.nodup_append]
          refine ⟨hg, by simp, fun a ha b hb => ?_⟩
          rw [List.mem_singleton] at hb
          rintro rfl
          exact hm (hb ▸ ha)
        obtain ⟨h1, h2⟩ := ih _ hnd
        refine ⟨h1, fun q d => ?_⟩
        rw [h2]
        simp only [List.mem_append, List.mem_singleton, Prod.mk.injEq]
        simp only [List.mem_cons, exists_eq_or_imp]
        constructor
        · rintro ((h | ⟨h, h'⟩) | ⟨h, h'⟩)
          · exact Or.inl h
          · exact Or.inr ⟨h, Or.inl ⟨hf, h'.symm⟩⟩
          · exact Or.inr ⟨h, Or.inr h'⟩
        · rintro (h | ⟨h, ⟨_, h'⟩ | h'⟩)
          · exact Or.inl (Or.inl h)
          · exact Or.inl (Or.inr ⟨h, h'.symm⟩)
          · exact Or.inr ⟨h, h'⟩
    · rw [if_neg hf]
      obtain ⟨h1, h2⟩ := ih g hg
      refine ⟨h1, fun q d => ?_⟩
      rw [h2]
      simp only [List.mem_cons, exists_eq_or_imp]
      constructor
      · rintro (h | ⟨h, h'⟩)
        · exact Or.inl h
        · exact Or.inr ⟨h, Or.inr h'⟩
      · rintro (h | ⟨h, ⟨h', _⟩ | h'⟩)
        · exact Or.inl h
        · exact absurd h' hf
        · exact Or.inr ⟨h, h'⟩

theorem addDeps_val {v : PyVal} (hv : v ≠ .none) (ds : List Dep) (g : Graph)
    (hb : ∀ e ∈ g.build, pyEq e.1 v = true → e.1 = v) (ht : ∀ e ∈ g.test, pyEq e.1 v = true → e.1 = v) :
    g.addDeps v ds =
      .ok { g with build := edgesAfter inBuild v ds g.build, test := edgesAfter inTest v ds g.test } := by
  induction ds generalizing g with
  | nil => rfl
  | cons d ds ih =>
    unfold Graph.addDeps
    simp only [bind, Except.bind]
    have h1 : g.addDep v d = .ok { g with
        build := edgesAfter inBuild v [d] g.build, test := edgesAfter inTest v [d] g.test } := by
      unfold Graph.addDep
      cases ht' : d.type <;>
        simp [edgesAfter, inBuild, inTest, ht', addEdge_val hv _ _ hb, addEdge_val hv _ _ ht, bind, Except.bind]
    have hk : ∀ (f : DepSection → Prop) [DecidablePred f] (e : Edges), (∀ x ∈ e, pyEq x.1 v = true → x.1 = v) →
        ∀ x ∈ edgesAfter f v [d] e, pyEq x.1 v = true → x.1 = v := by
      intro f _ e he x hx
      simp only [edgesAfter, List.foldl_cons, List.foldl_nil] at hx
      split at hx
      · split at hx
        · exact he x hx
        · rcases List.mem_append.1 hx with hx | hx
          · exact he x hx
          · rw [List.mem_singleton] at hx
            intro _
            rw [hx]
      · exact he x hx
    rw [h1]
    simp only
    rw [ih _ (hk _ _ hb) (hk _ _ ht)]
    simp [edgesAfter]

/-- The graph holds what the packages `ps` call for. -/
structure GraphOf (ps : List Pkg) (g : Graph) : Prop where
  names : g.nameToSha = (firsts ps).map fun p => (p.name, p.sha)
  total : g.totalPackages = (firsts ps).length
  dupNodup : g.duplicates.Nodup
  dup : ∀ v, v ∈ g.duplicates ↔ 2 ≤ (ps.map (·.name)).count v
  build : EdgesOf inBuild (firsts ps) g.build
  test : EdgesOf inTest (firsts ps) g.test

theorem setAdd_val {v : PyVal} (l : List PyVal) (h : l.Nodup) (hs : ∀ a ∈ l, pyEq a v = true → a = v) :
    (setAdd v l).Nodup ∧ ∀ x, x ∈ setAdd v l ↔ x ∈ l ∨ x = v := by
  unfold setAdd
  by_cases hm : v ∈ l
  · rw [if_pos (List.any_eq_true.2 ⟨_, hm, by simp [pyEq_refl]⟩)]
    refine ⟨h, fun v => ⟨Or.inl, ?_⟩⟩
    rintro (hv | hv)
    · exact hv
    · exact hv ▸ hm
  · rw [if_neg (by
      intro hc
      obtain ⟨a, ha, hp⟩ := List.any_eq_true.1 hc
      rw [hs a ha hp] at ha
      exact hm ha)]
    refine ⟨?_, by simp⟩
    rw [List.nodup_append]
    refine ⟨h, by simp, fun a ha b hb => ?_⟩
    rw [List.mem_singleton] at hb
    rintro rfl
    exact hm (hb ▸ ha)

theorem addPackage_spec (ps : List Pkg) (g : Graph) (hg : GraphOf ps g) (sha : Str) (s : PyVal)
    (ds : List Dep) (hv : s ≠ .none) (hs : ∀ q ∈ ps, pyEq q.name s = true → q.name = s) :
    ∃ g', g.addPackage sha s ds = .ok g' ∧ GraphOf (ps ++ [⟨sha, s, ds⟩]) g' ∧
      g'.cacheSize = g.cacheSize ∧ g'.failedToParse = g.failedToParse ∧ g'.failedDeps = g.failedDeps ∧
      g'.totalParsed = g.totalParsed ∧ g'.totalRecipes = g.totalRecipes := by
  have hiff : (g.nameToSha.any fun e => pyEq e.1 s) = true ↔ ∃ q ∈ ps, q.name = s := by
    rw [hg.names, List.any_eq_true]
    constructor
    · rintro ⟨e, he, hp⟩
      obtain ⟨q, hq, rfl⟩ := List.mem_map.1 he
      exact ⟨q, firsts_sub ps q hq, hs q (firsts_sub ps q hq) hp⟩
    · rintro ⟨q, hq, hn⟩
      obtain ⟨q', hq', hn'⟩ := firsts_name ps q hq
      exact ⟨_, List.mem_map.2 ⟨q', hq', rfl⟩, by
        simp only [hn'.trans hn, pyEq_refl]⟩
  have hcount : ∀ v, ((ps ++ [(⟨sha, s, ds⟩ : Pkg)]).map (·.name)).count v =
      (ps.map (·.name)).count v + if v = s then 1 else 0 := by
    intro v
    rw [List.map_append, List.count_append]
    congr 1
    simp only [List.map_cons, List.map_nil, List.count_cons, List.count_nil]
    by_cases hv : v = s
    · simp [hv]
    · simp [hv, Ne.symm hv]
  have hsrc : ∀ (f : DepSection → Prop) (e : Edges), EdgesOf f (firsts ps) e →
      ∀ x ∈ e, pyEq x.1 s = true → x.1 = s := by
    intro f e he x hx
    obtain ⟨q, hq, hn, _⟩ := (he.2 x.1 x.2).1 hx
    rw [← hn]
    exact hs q (firsts_sub ps q hq)
  unfold Graph.addPackage
  by_cases h : ∃ q ∈ ps, q.name = s
  · rw [if_pos (hiff.2 h)]
    refine ⟨_, rfl, ?_, rfl, rfl, rfl, rfl, rfl⟩
    have hf := firsts_concat ps ⟨sha, s, ds⟩
    rw [if_pos h] at hf
    obtain ⟨h1, h2⟩ := setAdd_val (v := s) g.duplicates hg.dupNodup (fun a ha => by
      have h2 := (hg.dup a).1 ha
      obtain ⟨q, hq, hn⟩ := List.mem_map.1 (List.count_pos_iff.1 (show 0 < (ps.map (·.name)).count a by omega))
      rw [← hn]
      exact hs q hq)
    refine ⟨by rw [hf]; exact hg.names, by rw [hf]; exact hg.total, h1, fun v => ?_, by rw [hf]; exact hg.build,
      by rw [hf]; exact hg.test⟩
    rw [h2, hg.dup, hcount]
    have h1c : v = s → 1 ≤ (ps.map (·.name)).count v := by
      rintro rfl
      obtain ⟨q, hq, hn⟩ := h
      exact List.count_pos_iff.2 (List.mem_map.2 ⟨q, hq, hn⟩)
    by_cases hv : v = s
    · have := h1c hv
      rw [if_pos hv]
      constructor
      · intro _; omega
      · intro _; exact Or.inr hv
    · rw [if_neg hv]
      simp [hv]
  · rw [if_neg (fun hc => h (hiff.1 hc)), addDeps_val hv ds { g with
        nameToSha := g.nameToSha ++ [(s, sha)], totalPackages := g.totalPackages + 1 } (hsrc _ _ hg.build) (hsrc _ _ hg.test)]
    refine ⟨_, rfl, ?_, rfl, rfl, rfl, rfl, rfl⟩
    have hf := firsts_concat ps ⟨sha, s, ds⟩
    rw [if_neg h] at hf
    have hedge : ∀ (f : DepSection → Prop) [DecidablePred f] (e : Edges), EdgesOf f (firsts ps) e →
        EdgesOf f (firsts (ps ++ [⟨sha, s, ds⟩])) (edgesAfter f s ds e) := by
      intro f _ e he
      obtain ⟨h1, h2⟩ := edgesAfter_spec f s ds e he.1
      refine ⟨h1, fun p d => ?_⟩
      rw [h2, he.2, hf]
      simp only [List.mem_append, List.mem_singleton]
      constructor
      · rintro (⟨q, hq, hr⟩ | ⟨rfl, hr⟩)
        · exact ⟨q, Or.inl hq, hr⟩
        · exact ⟨_, Or.inr rfl, rfl, hr⟩
      · rintro ⟨q, hq | rfl, hn, hr⟩
        · exact Or.inl ⟨q, hq, hn, hr⟩
        · exact Or.inr ⟨hn.symm, hr⟩
    refine ⟨by rw [hf]; simp [hg.names], by rw [hf]; simp [hg.total], hg.dupNodup, fun v => ?_,
      hedge _ _ hg.build, hedge _ _ hg.test⟩
    rw [hcount]
    refine (hg.dup v).trans ?_
    by_cases hv : v = s
    · have h0 : (ps.map (·.name)).count v = 0 := by
        rw [List.count_eq_zero]
        intro hm
        obtain ⟨q, hq, hn⟩ := List.mem_map.1 hm
        exact h ⟨q, hq, hn.trans hv⟩
      rw [if_pos hv, h0]
      simp
    · rw [if_neg hv, Nat.add_zero]

theorem addPackages_spec (sha : Str) (m : DepMap) (ps : List Pkg) (g : Graph) (hg : GraphOf ps g)
    (ht : plainNames (ps ++ m.map fun pd => ⟨sha, pd.1, pd.2⟩)) :
    ∃ g', g.addPackages sha m = .ok g' ∧ GraphOf (ps ++ m.map fun pd => ⟨sha, pd.1, pd.2⟩) g' ∧
      g'.cacheSize = g.cacheSize ∧ g'.failedToParse = g.failedToParse ∧ g'.failedDeps = g.failedDeps ∧
      g'.totalParsed = g.totalParsed ∧ g'.totalRecipes = g.totalRecipes := by
  induction m generalizing ps g with
  | nil => exact ⟨g, rfl, by simpa using hg, rfl, rfl, rfl, rfl, rfl⟩
  | cons e m ih =>
    obtain ⟨p, ds⟩ := e
    obtain ⟨g1, h1, hg1, a1, a2, a3, a4, a5⟩ := addPackage_spec ps g hg sha p ds
      (ht.1 ⟨sha, p, ds⟩ (by simp))
      (fun q hq => ht.2 q (List.mem_append_left _ hq) ⟨sha, p, ds⟩ (by simp))
    obtain ⟨g2, h2, hg2, b1, b2, b3, b4, b5⟩ := ih _ g1 hg1 (by simpa using ht)
    refine ⟨g2, ?_, ?_, b1.trans a1, b2.trans a2, b3.trans a3, b4.trans a4, b5.trans a5⟩
    · unfold Graph.addPackages
      simp only [bind, Except.bind, h1, h2]
    · simpa using hg2

/-- The recipes whose dependencies cannot be read, with the package names they still give. -/
def Spec.unreadable (E : Env) (M : Str → Option Str) (cache : List (Str × Recipe)) : List (Str × List PyVal) :=
  cache.filterMap fun sr => match sr.2.getAllDependencies E M with
    | .ok _ => none
    | .error _ => some (sr.1, match sr.2.packageNamesToPath E with
      | .ok t => t.map (·.1)
      | .error _ => [.str §"Unknown"])

theorem insertD_fresh {β : Type} (k : Str) (v : β) (l : List (Str × β)) (h : k ∉ l.map (·.1)) :
    insertD k v l = l ++ [(k, v)] := by
  induction l with
  | nil => rfl
  | cons a as ih =>
    obtain ⟨x, y⟩ := a
    simp only [List.map_cons, List.mem_cons, not_or] at h
    unfold insertD
    rw [if_neg (Ne.symm h.1), ih h.2]; rfl

theorem mem_insertD {β : Type} {k : Str} {v : β} {l : List (Str × β)} {e : Str × β} (h : e ∈ insertD k v l) :
    e = (k, v) ∨ e ∈ l := by
  induction l with
  | nil => simpa [insertD] using h
  | cons a as ih =>
    obtain ⟨x, y⟩ := a
    unfold insertD at h
    split at h
    · rename_i hx
      rcases List.mem_cons.1 h with h | h
      · exact Or.inl (by rw [h, hx])
      · exact Or.inr (List.mem_cons_of_mem _ h)
    · rcases List.mem_cons.1 h with h | h
      · exact Or.inr (by rw [h]; simp)
      · rcases ih h with h | h
        · exact Or.inl h
        · exact Or.inr (List.mem_cons_of_mem _ h)

theorem addRecipes_spec (E : Env) (M : Str → Option Str) (cache : List (Str × Recipe)) (ps : List Pkg) (g : Graph)
    (hg : GraphOf ps g) (ht : plainNames (ps ++ packages E M cache)) (hk : (cache.map (·.1)).Nodup)
    (hd : ∀ e ∈ g.failedDeps, e.1 ∉ cache.map (·.1)) :
    ∃ g', Graph.addRecipes E M cache g = .ok g' ∧ GraphOf (ps ++ packages E M cache) g' ∧
      g'.cacheSize = g.cacheSize ∧ g'.failedToParse = g.failedToParse ∧
      g'.failedDeps = g.failedDeps ++ unreadable E M cache ∧
      g'.totalParsed = g.totalParsed ∧ g'.totalRecipes = g.totalRecipes := by
  induction cache generalizing ps g with
  | nil => exact ⟨g, rfl, by simpa [packages] using hg, rfl, rfl, by simp [unreadable], rfl, rfl⟩
  | cons sr cache ih =>
    obtain ⟨sha, r⟩ := sr
    simp only [List.map_cons, List.nodup_cons] at hk
    unfold Graph.addRecipes
    simp only [bind, Except.bind]
    cases hr : r.getAllDependencies E M with
    | error e =>
      have hp : packages E M ((sha, r) :: cache) = packages E M cache := by simp [packages, hr]
      rw [hp] at ht ⊢
      obtain ⟨names, hnames⟩ : ∃ n, n = ((r.packageNamesToPath E).toOption.map (·.map (·.1))).getD [.str §"Unknown"] :=
        ⟨_, rfl⟩
      have hu : unreadable E M ((sha, r) :: cache) = (sha, names) :: unreadable E M cache := by
        rw [hnames]
        unfold unreadable
        rw [List.filterMap_cons]
        simp only [hr]
        cases r.packageNamesToPath E <;> rfl
      have hins : insertD sha names g.failedDeps = g.failedDeps ++ [(sha, names)] := by
        apply insertD_fresh
        intro hm
        obtain ⟨e, he, heq⟩ := List.mem_map.1 hm
        exact hd e he (by simp [heq])
      simp only [Except.toOption, Graph.addRecipe]
      obtain ⟨g', h1, h2, h3, h4, h5, h6, h7⟩ := ih ps { g with failedDeps := insertD sha names g.failedDeps }
        ⟨hg.names, hg.total, hg.dupNodup, hg.dup, hg.build, hg.test⟩ ht hk.2 (by
          simp only [hins]
          intro e he
          rcases List.mem_append.1 he with he | he
          · intro hc; exact hd e he (by simp [hc])
          · rw [List.mem_singleton] at he; rw [he]; exact hk.1)
      rw [hnames] at h1
      refine ⟨g', h1, h2, h3, h4, ?_, h6, h7⟩
      rw [h5, hu]; simp [hins]
    | ok m =>
      have hp : packages E M ((sha, r) :: cache) = (m.map fun pd => (⟨sha, pd.1, pd.2⟩ : Pkg)) ++ packages E M cache := by
        simp [packages, hr]
      have hu : unreadable E M ((sha, r) :: cache) = unreadable E M cache := by
        unfold unreadable
        rw [List.filterMap_cons]
        simp only [hr]
      rw [hp] at ht ⊢
      simp only [Except.toOption, Graph.addRecipe]
      obtain ⟨g1, h1, hg1, a1, a2, a3, a4, a5⟩ := addPackages_spec sha m ps g hg (ht.sub (fun q hq => by
        rw [← List.append_assoc]
        exact List.mem_append_left _ hq))
      obtain ⟨g', h2, hg2, b1, b2, b3, b4, b5⟩ := ih _ g1 hg1 (by simpa using ht) hk.2
        (by rw [a3]; intro e he hc; exact hd e he (by simp [hc]))
      rw [h1]
      simp only
      refine ⟨g', h2, ?_, b1.trans a1, b2.trans a2, by rw [b3, a3, hu], b4.trans a4, b5.trans a5⟩
      simpa using hg2

theorem ofCache_spec (E : Env) (M : Str → Option Str) (cache : List (Str × Recipe)) (failed : List Str)
    (hk : (cache.map (·.1)).Nodup) (ht : plainNames (packages E M cache)) :
    ∃ g, Graph.ofCache E M cache failed = .ok g ∧ GraphOf (packages E M cache) g ∧
      g.cacheSize = cache.length ∧ g.failedToParse = failed ∧ g.failedDeps = unreadable E M cache ∧
      g.totalParsed = cache.length ∧ g.totalRecipes = cache.length + failed.length := by
  have := addRecipes_spec E M cache [] { cacheSize := cache.length, failedToParse := failed, totalParsed := cache.length, totalRecipes := cache.length + failed.length }
    ⟨rfl, rfl, List.nodup_nil, by simp, ⟨List.nodup_nil, by simp [firsts]⟩, ⟨List.nodup_nil, by simp [firsts]⟩⟩ ht hk (by simp)
  simpa [Graph.ofCache] using this

/-! ## C39 -/

/-- C39: if no package is named `None` and equal names are the same, the graphs are built, and there is an edge from `p` to `d` in the build graph
exactly when the first package called `p` has `d` among its build or host dependencies, and in the test graph exactly
when it has `d` among its run or test dependencies. -/
theorem C39_edges_partial (E : Env) (M : Str → Option Str) (cache : List (Str × Recipe)) (failed : List Str)
    (hk : (cache.map (·.1)).Nodup) (ht : plainNames (packages E M cache)) :
    ∃ g, Graph.ofCache E M cache failed = .ok g ∧
      (∀ p d, (p, d) ∈ g.build ↔ ∃ q ∈ firsts (packages E M cache), q.name = p ∧ dependsOn inBuild q d) ∧
      (∀ p d, (p, d) ∈ g.test ↔ ∃ q ∈ firsts (packages E M cache), q.name = p ∧ dependsOn inTest q d) := by
  obtain ⟨g, h, hg, _⟩ := ofCache_spec E M cache failed hk ht
  exact ⟨g, h, hg.build.2, hg.test.2⟩

/-- C39: the first package of a name is the one with no package of that name before it. -/
theorem C39_firsts_iff (ps : List Pkg) (p : Pkg) :
    p ∈ firsts ps ↔ ∃ as bs, ps = as ++ p :: bs ∧ ∀ q ∈ as, q.name ≠ p.name := by
  induction ps with
  | nil => simp [firsts]
  | cons a ps ih =>
    simp only [firsts, List.mem_cons, List.mem_filter, decide_eq_true_eq, ih]
    constructor
    · rintro (rfl | ⟨⟨as, bs, rfl, h⟩, hn⟩)
      · exact ⟨[], ps, rfl, by simp⟩
      · refine ⟨a :: as, bs, rfl, fun q hq => ?_⟩
        rcases List.mem_cons.1 hq with rfl | hq
        · exact Ne.symm hn
        · exact h q hq
    · rintro ⟨as, bs, h, hn⟩
      cases as with
      | nil => left; simp only [List.nil_append, List.cons.injEq] at h; exact h.1.symm
      | cons x as =>
        simp only [List.cons_append, List.cons.injEq] at h
        exact Or.inr ⟨⟨as, bs, h.2, fun q hq => hn q (List.mem_cons_of_mem _ hq)⟩,
          Ne.symm (by rw [h.1]; exact hn x (by simp))⟩

def exGraphMatch : Str → Option Str := fun s => some ((splitWs s).headD [])
def exGraphA : Recipe := Toy.recipe ("package:\n  name: a\nrequirements:\n  host:\n    - python\n  run:\n    - python\n" ++
  "    - b >=1\n")
def exGraphB : Recipe := Toy.recipe "package:\n  name: b\nrequirements:\n  build:\n    - cmake\n"
def exGraphA2 : Recipe := Toy.recipe "package:\n  name: a\nrequirements:\n  host:\n    - rust\n"


def exGraph : Option Graph :=
  (Graph.ofCache Toy.env exGraphMatch [(§"1", exGraphA), (§"2", exGraphB), (§"3", exGraphA2)] [§"bad"]).toOption

example : exGraph.map (·.build) = some [(.str §"a", §"python"), (.str §"b", §"cmake")] := by decide +kernel
example : exGraph.map (·.test) = some [(.str §"a", §"python"), (.str §"a", §"b")] := by decide +kernel
example : exGraph.map (fun g => (g.duplicates, g.totalPackages, g.totalRecipes)) = some ([.str §"a"], 2, 4) := by
  decide +kernel
example : (packages Toy.env exGraphMatch [(§"1", exGraphA), (§"2", exGraphB), (§"3", exGraphA2)]).map (·.name) =
    [.str §"a", .str §"b", .str §"a"] := by decide +kernel

/-- A package may have a number for a name. -/
def exGraphNumber : Recipe := Toy.recipe "package:\n  name: 2048\nrequirements:\n  host:\n    - python\n"
example : (packages Toy.env exGraphMatch [(§"1", exGraphNumber), (§"2", exGraphB)]).map (·.name) =
    [.int 2048, .str §"b"] := by decide +kernel
example : plainNames [⟨§"1", .int 2048, []⟩, ⟨§"2", .str §"b", []⟩] := by
  refine ⟨by simp, ?_⟩
  simp [pyEq]
example : ((Graph.ofCache Toy.env exGraphMatch [(§"1", exGraphNumber), (§"2", exGraphB)] []).toOption.map (·.build)) =
    some [(.int 2048, §"python"), (.str §"b", §"cmake")] := by decide +kernel

/-- A recipe with a variable for its name, whose text reads as `None`. -/
def exGraphNone : Recipe := Toy.recipe
  "{% set name = \"null\" %}\npackage:\n  name: {{ name }}\nrequirements:\n  host:\n    - python\n"

/-- C39 fails if the name of a package is read as `None`: no graph is built, also not for the other recipes. -/
theorem C39_none_name_violation :
    (packages Toy.env exGraphMatch [(§"1", exGraphNone), (§"2", exGraphB)]).map (·.name) = [.none, .str §"b"] ∧
    (Graph.ofCache Toy.env exGraphMatch [(§"1", exGraphNone), (§"2", exGraphB)] []).toOption.isNone = true ∧
    (Graph.ofCache Toy.env exGraphMatch [(§"2", exGraphB)] []).toOption.isSome = true := by decide +kernel

/-! ## C40 -/

/-- C40: if no package is named `None` and equal names are the same, the number of packages is the number of different names, the recipe recorded
for a name is the first one with it, the names recorded as duplicates are those of more than one package, and the other
numbers are those of the recipes given. -/
theorem C40_stats_partial (E : Env) (M : Str → Option Str) (cache : List (Str × Recipe)) (failed : List Str)
    (hk : (cache.map (·.1)).Nodup) (ht : plainNames (packages E M cache)) :
    ∃ g, Graph.ofCache E M cache failed = .ok g ∧
      g.totalPackages = (firsts (packages E M cache)).length ∧
      g.nameToSha = (firsts (packages E M cache)).map (fun p => (p.name, p.sha)) ∧
      (∀ v, v ∈ g.duplicates ↔ 2 ≤ ((packages E M cache).map (·.name)).count v) ∧ g.duplicates.Nodup ∧
      g.failedToParse = failed ∧ g.failedDeps = unreadable E M cache ∧
      g.totalParsed = cache.length ∧ g.totalRecipes = cache.length + failed.length := by
  obtain ⟨g, h, hg, _, h2, h3, h4, h5⟩ := ofCache_spec E M cache failed hk ht
  exact ⟨g, h, hg.total, hg.names, hg.dup, hg.dupNodup, h2, h3, h4, h5⟩

/-- C40: the graph is truthy exactly when some recipe could be read, and contains a name exactly when a package has it. -/
theorem C40_contains (E : Env) (M : Str → Option Str) (cache : List (Str × Recipe)) (failed : List Str)
    (hk : (cache.map (·.1)).Nodup) (ht : plainNames (packages E M cache)) :
    ∃ g, Graph.ofCache E M cache failed = .ok g ∧ (g.truthy = true ↔ cache ≠ []) ∧
      ∀ s, g.containsPackage s = true ↔ ∃ p ∈ packages E M cache, p.name = .str s := by
  obtain ⟨g, h, hg, h1, _⟩ := ofCache_spec E M cache failed hk ht
  refine ⟨g, h, ?_, fun s => ?_⟩
  · rw [Graph.truthy, h1]
    cases cache <;> simp
  · rw [Graph.containsPackage, hg.names, List.any_eq_true]
    constructor
    · rintro ⟨e, he, hp⟩
      obtain ⟨q, hq, rfl⟩ := List.mem_map.1 he
      exact ⟨q, firsts_sub _ q hq, pyEq_str.1 hp⟩
    · rintro ⟨q, hq, hn⟩
      obtain ⟨q', hq', hn'⟩ := firsts_name _ q hq
      exact ⟨_, List.mem_map.2 ⟨q', hq', rfl⟩, pyEq_str.2 (hn'.trans hn)⟩

/-- The recipe a file holds, if it can be read. -/
def Spec.recipeOf (E : Env) (content : Option Str) : Option Recipe := content.bind fun t => (Recipe.ofString E t).toOption

/-- The files that cannot be read. -/
def Spec.unreadFiles (E : Env) (files : List (Str × Option Str)) : List Str :=
  files.filterMap fun f => if (recipeOf E f.2).isSome then none else some f.1

/-- The recipes that can be read, with their digests. -/
def Spec.readFiles (E : Env) (sha256 : Str → Str) (files : List (Str × Option Str)) : List (Str × Recipe) :=
  files.filterMap fun f => (recipeOf E f.2).map fun r => (r.calcSha256 sha256, r)

theorem collect_gen (E : Env) (sha256 : Str → Str) (files : List (Str × Option Str)) (cache : List (Str × Recipe))
    (failed : List Str) (hc : (cache.map (·.1)).Nodup) (hf : failed.Nodup) :
    let res := collectResults (files.map fun f => readAndParse E sha256 f.1 f.2) cache failed
    (res.1.map (·.1)).Nodup ∧ res.2.Nodup ∧
    (∀ k, k ∈ res.1.map (·.1) ↔ k ∈ cache.map (·.1) ∨ k ∈ (readFiles E sha256 files).map (·.1)) ∧
    (∀ e ∈ res.1, e ∈ cache ∨ e ∈ readFiles E sha256 files) ∧
    (∀ p, p ∈ res.2 ↔ p ∈ failed ∨ p ∈ unreadFiles E files) := by
  induction files generalizing cache failed with
  | nil => simp [collectResults, readFiles, unreadFiles, hc, hf]
  | cons f files ih =>
    obtain ⟨path, content⟩ := f
    have hr : (readAndParse E sha256 path content = (path, none) ∧ recipeOf E content = none) ∨
        ∃ r, readAndParse E sha256 path content = (r.calcSha256 sha256, some r) ∧ recipeOf E content = some r := by
      unfold readAndParse recipeOf
      cases content with
      | none => left; exact ⟨rfl, rfl⟩
      | some t =>
        simp only [Option.bind_some]
        cases Recipe.ofString E t with
        | error e => left; exact ⟨rfl, rfl⟩
        | ok r => right; exact ⟨r, rfl, rfl⟩
    simp only [List.map_cons]
    rcases hr with ⟨h1, h2⟩ | ⟨r, h1, h2⟩
    · rw [h1]
      have hnd : (if failed.contains path then failed else failed ++ [path]).Nodup := by
        by_cases hm : path ∈ failed
        · simpa [hm] using hf
        · rw [if_neg (by simpa using hm), List.nodup_append]
          refine ⟨hf, by simp, fun a ha b hb => ?_⟩
          rw [List.mem_singleton] at hb
          rintro rfl
          exact hm (hb ▸ ha)
      have hmem : ∀ p, p ∈ (if failed.contains path then failed else failed ++ [path]) ↔ p ∈ failed ∨ p = path := by
        intro p
        by_cases hm : path ∈ failed
        · rw [if_pos (by simpa using hm)]
          refine ⟨Or.inl, ?_⟩
          rintro (h | rfl)
          · exact h
          · exact hm
        · rw [if_neg (by simpa using hm)]; simp
      obtain ⟨a1, a2, a3, a4, a5⟩ := ih cache _ hc hnd
      have hrf : readFiles E sha256 ((path, content) :: files) = readFiles E sha256 files := by
        simp [readFiles, h2]
      have huf : unreadFiles E ((path, content) :: files) = path :: unreadFiles E files := by
        simp [unreadFiles, h2]
      rw [hrf, huf]
      unfold collectResults
      refine ⟨a1, a2, a3, a4, fun p => ?_⟩
      rw [a5, hmem, List.mem_cons, or_assoc]
    · rw [h1]
      obtain ⟨a1, a2, a3, a4, a5⟩ := ih (insertD (r.calcSha256 sha256) r cache) failed (nodup_insertD _ _ _ hc) hf
      have hrf : readFiles E sha256 ((path, content) :: files) = (r.calcSha256 sha256, r) :: readFiles E sha256 files := by
        simp [readFiles, h2]
      have huf : unreadFiles E ((path, content) :: files) = unreadFiles E files := by
        simp [unreadFiles, h2]
      rw [hrf, huf]
      unfold collectResults
      refine ⟨a1, a2, fun k => ?_, fun e he => ?_, a5⟩
      · rw [a3, keys_insertD]
        simp only [List.map_cons, List.mem_cons]
        by_cases hm : r.calcSha256 sha256 ∈ cache.map (·.1)
        · rw [if_pos hm]
          constructor
          · rintro (h | h)
            · exact Or.inl h
            · exact Or.inr (Or.inr h)
          · rintro (h | rfl | h)
            · exact Or.inl h
            · exact Or.inl hm
            · exact Or.inr h
        · rw [if_neg hm, List.mem_append, List.mem_singleton, or_assoc]
      · rcases a4 e he with h | h
        · rcases mem_insertD h with h | h
          · exact Or.inr (by rw [h]; simp)
          · exact Or.inl h
        · exact Or.inr (List.mem_cons_of_mem _ h)

/-- C40: reading recipes from files: the paths recorded as failures are those of the files that cannot be read, the
recipes are counted by their digests, and the two numbers add up to the total. -/
theorem C40_from_disk_partial (E : Env) (M : Str → Option Str) (sha256 : Str → Str) (files : List (Str × Option Str))
    (ht : plainNames (packages E M (readFiles E sha256 files))) :
    ∃ g, Graph.fromDisk E M sha256 files = .ok g ∧
      g.failedToParse.Nodup ∧ (∀ p, p ∈ g.failedToParse ↔ p ∈ unreadFiles E files) ∧
      (∃ ks : List Str, ks.Nodup ∧ (∀ k, k ∈ ks ↔ k ∈ (readFiles E sha256 files).map (·.1)) ∧ g.totalParsed = ks.length) ∧
      g.totalRecipes = g.totalParsed + g.failedToParse.length := by
  obtain ⟨h1, h2, h3, h4, h5⟩ := collect_gen E sha256 files [] [] (by simp) (by simp)
  have ht' : plainNames (packages E M
      (collectResults (files.map fun f => readAndParse E sha256 f.1 f.2) [] []).1) := by
    refine ht.sub fun p hp => ?_
    obtain ⟨sr, hsr, hp⟩ := List.mem_flatMap.1 hp
    rcases h4 sr hsr with h | h
    · cases h
    · exact List.mem_flatMap.2 ⟨sr, h, hp⟩
  obtain ⟨g, hg, _, _, a2, _, a4, a5⟩ := ofCache_spec E M _
    (collectResults (files.map fun f => readAndParse E sha256 f.1 f.2) [] []).2 h1 ht'
  refine ⟨g, hg, by rw [a2]; exact h2, fun p => by rw [a2, h5]; simp, ⟨_, h1, fun k => by rw [h3]; simp, ?_⟩, ?_⟩
  · rw [a4, List.length_map]
  · rw [a5, a4, a2]

theorem collect_distinct (E : Env) (sha256 : Str → Str) (files : List (Str × Option Str)) (cache : List (Str × Recipe))
    (failed : List Str) (hc : ((cache ++ readFiles E sha256 files).map (·.1)).Nodup)
    (hf : (failed ++ unreadFiles E files).Nodup) :
    collectResults (files.map fun f => readAndParse E sha256 f.1 f.2) cache failed =
      (cache ++ readFiles E sha256 files, failed ++ unreadFiles E files) := by
  induction files generalizing cache failed with
  | nil => simp [collectResults, readFiles, unreadFiles]
  | cons f files ih =>
    obtain ⟨path, content⟩ := f
    have hr : (readAndParse E sha256 path content = (path, none) ∧ recipeOf E content = none) ∨
        ∃ r, readAndParse E sha256 path content = (r.calcSha256 sha256, some r) ∧ recipeOf E content = some r := by
      unfold readAndParse recipeOf
      cases content with
      | none => left; exact ⟨rfl, rfl⟩
      | some t =>
        simp only [Option.bind_some]
        cases Recipe.ofString E t with
        | error _ => left; exact ⟨rfl, rfl⟩
        | ok r => right; exact ⟨r, rfl, rfl⟩
    simp only [List.map_cons]
    rcases hr with ⟨h1, h2⟩ | ⟨r, h1, h2⟩
    · have hrf : readFiles E sha256 ((path, content) :: files) = readFiles E sha256 files := by simp [readFiles, h2]
      have huf : unreadFiles E ((path, content) :: files) = path :: unreadFiles E files := by simp [unreadFiles, h2]
      rw [hrf] at hc ⊢
      rw [huf] at hf ⊢
      rw [h1]
      unfold collectResults
      have hm : path ∉ failed := by
        intro hm
        exact (List.nodup_append.1 hf).2.2 path hm path (by simp) rfl
      rw [if_neg (by simpa using hm), ih _ _ hc (by simpa using hf)]
      simp
    · have hrf : readFiles E sha256 ((path, content) :: files) = (r.calcSha256 sha256, r) :: readFiles E sha256 files := by
        simp [readFiles, h2]
      have huf : unreadFiles E ((path, content) :: files) = unreadFiles E files := by simp [unreadFiles, h2]
      rw [hrf] at hc ⊢
      rw [huf] at hf ⊢
      rw [h1]
      unfold collectResults
      have hm : r.calcSha256 sha256 ∉ cache.map (·.1) := by
        intro hm
        rw [List.map_append] at hc
        exact (List.nodup_append.1 hc).2.2 _ hm _ (by simp) rfl
      rw [insertD_fresh _ _ _ hm, ih _ _ (by simpa using hc) hf]
      simp

theorem read_unread_length (E : Env) (sha256 : Str → Str) (files : List (Str × Option Str)) :
    (readFiles E sha256 files).length + (unreadFiles E files).length = files.length := by
  induction files with
  | nil => rfl
  | cons f fs ih =>
    cases h : recipeOf E f.2 with
    | none =>
      simp only [readFiles, unreadFiles, List.filterMap_cons, h, List.length_cons, Option.map_none, Option.isSome_none] at ih ⊢
      simp; omega
    | some r =>
      simp only [readFiles, unreadFiles, List.filterMap_cons, h, List.length_cons, Option.map_some, Option.isSome_some] at ih ⊢
      simp; omega

/-- C40: if the files have different paths and no two readable recipes have the same digest, every file is counted: the
graph is that of the readable recipes in the order of the files, and the failures are the other files. -/
theorem C40_from_disk_distinct (E : Env) (M : Str → Option Str) (sha256 : Str → Str) (files : List (Str × Option Str))
    (hp : (files.map (·.1)).Nodup) (hd : ((readFiles E sha256 files).map (·.1)).Nodup)
    (ht : plainNames (packages E M (readFiles E sha256 files))) :
    Graph.fromDisk E M sha256 files = Graph.ofCache E M (readFiles E sha256 files) (unreadFiles E files) ∧
    ∃ g, Graph.fromDisk E M sha256 files = .ok g ∧ g.totalRecipes = files.length ∧
      g.failedToParse = unreadFiles E files := by
  have hu : (unreadFiles E files).Nodup := by
    have hsub : (unreadFiles E files).Sublist (files.map (·.1)) := by
      clear hp hd ht
      induction files with
      | nil => simp [unreadFiles]
      | cons f fs ih =>
        cases h : (recipeOf E f.2).isSome with
        | true => simp only [unreadFiles, List.filterMap_cons, h, if_true, List.map_cons]; exact List.Sublist.cons _ ih
        | false =>
          simp only [unreadFiles, List.filterMap_cons, h, List.map_cons]
          exact List.Sublist.cons_cons _ ih
    exact hsub.nodup hp
  have heq : Graph.fromDisk E M sha256 files = Graph.ofCache E M (readFiles E sha256 files) (unreadFiles E files) := by
    unfold Graph.fromDisk
    rw [collect_distinct E sha256 files [] [] (by simpa using hd) (by simpa using hu)]
    simp
  refine ⟨heq, ?_⟩
  obtain ⟨g, hg, _, _, a2, _, _, a5⟩ := ofCache_spec E M _ (unreadFiles E files) hd ht
  refine ⟨g, heq.trans hg, ?_, a2⟩
  rw [a5, read_unread_length]

def exFileA : Str := §"package:\n  name: a\nrequirements:\n  host:\n    - python\n"
def exFileB : Str := §"package:\n  name: b\n"

example : ((Graph.fromDisk Toy.env exGraphMatch id [(§"x", some exFileA), (§"y", none), (§"z", some exFileB)]).toOption.map
    fun g => (g.totalRecipes, g.totalPackages, g.failedToParse)) = some (3, 2, [§"y"]) := by decide +kernel

/-- C40 fails for two files with the same recipe: they are counted once, and the package is not recorded as a
duplicate. -/
theorem C40_same_recipe_violation :
    ((Graph.fromDisk Toy.env exGraphMatch id [(§"x", some exFileA), (§"y", some exFileA)]).toOption.map
      fun g => (g.totalRecipes, g.totalPackages, g.duplicates)) = some (1, 1, []) := by decide +kernel

/-! ## C67: the order of the recipes -/

theorem firsts_of_nodup (ps : List Pkg) (h : (ps.map (·.name)).Nodup) : firsts ps = ps := by
  induction ps with
  | nil => rfl
  | cons p ps ih =>
    simp only [List.map_cons, List.nodup_cons] at h
    rw [firsts, ih h.2, List.filter_eq_self.2]
    intro q hq
    simp only [ne_eq, decide_eq_true_eq]
    exact fun hn => h.1 (List.mem_map.2 ⟨q, hq, hn⟩)

theorem packages_perm (E : Env) (M : Str → Option Str) {a b : List (Str × Recipe)} (h : a.Perm b) :
    (packages E M a).Perm (packages E M b) := h.flatMap_right _

/-- C67: if no two packages have the same name, the graphs and the numbers do not depend on the order in which the
recipes are given. -/
theorem C67_order_partial (E : Env) (M : Str → Option Str) (a b : List (Str × Recipe)) (fa fb : List Str)
    (hab : a.Perm b) (hf : fa.Perm fb) (hk : (a.map (·.1)).Nodup) (ht : plainNames (packages E M a))
    (hn : ((packages E M a).map (·.name)).Nodup) :
    ∃ ga gb, Graph.ofCache E M a fa = .ok ga ∧ Graph.ofCache E M b fb = .ok gb ∧
      (∀ e, e ∈ ga.build ↔ e ∈ gb.build) ∧ (∀ e, e ∈ ga.test ↔ e ∈ gb.test) ∧
      ga.duplicates = [] ∧ gb.duplicates = [] ∧ ga.totalPackages = gb.totalPackages ∧
      ga.totalParsed = gb.totalParsed ∧ ga.totalRecipes = gb.totalRecipes := by
  have hp := packages_perm E M hab
  have hnb : ((packages E M b).map (·.name)).Nodup := (hp.map _).nodup_iff.1 hn
  obtain ⟨ga, h1, h2, _, _, _, h4, h5⟩ := ofCache_spec E M a fa hk ht
  obtain ⟨gb, k1, k2, _, _, _, k4, k5⟩ := ofCache_spec E M b fb ((hab.map _).nodup_iff.1 hk)
    (ht.sub fun p h => hp.mem_iff.2 h)
  refine ⟨ga, gb, h1, k1, ?_, ?_, ?_, ?_, ?_, ?_, ?_⟩
  · rintro ⟨p, d⟩
    rw [h2.build.2, k2.build.2, firsts_of_nodup _ hn, firsts_of_nodup _ hnb]
    simp only [hp.mem_iff]
  · rintro ⟨p, d⟩
    rw [h2.test.2, k2.test.2, firsts_of_nodup _ hn, firsts_of_nodup _ hnb]
    simp only [hp.mem_iff]
  · apply List.eq_nil_iff_forall_not_mem.2
    intro v hv
    have := (h2.dup v).1 hv
    have h1 := List.nodup_iff_count.1 hn v
    omega
  · apply List.eq_nil_iff_forall_not_mem.2
    intro v hv
    have := (k2.dup v).1 hv
    have h1 := List.nodup_iff_count.1 hnb v
    omega
  · rw [h2.total, k2.total, firsts_of_nodup _ hn, firsts_of_nodup _ hnb, hp.length_eq]
  · rw [h4, k4, hab.length_eq]
  · rw [h5, k5, hab.length_eq, hf.length_eq]

example : ((packages Toy.env exGraphMatch [(§"1", exGraphA), (§"2", exGraphB)]).map (·.name)) =
    [.str §"a", .str §"b"] := by decide +kernel

/-- C67 fails when two recipes have a package of the same name: which dependencies are in the graph depends on which
comes first. -/
theorem C67_order_violation :
    (Graph.ofCache Toy.env exGraphMatch [(§"1", exGraphA), (§"3", exGraphA2)] []).toOption.map (·.build) =
      some [(.str §"a", §"python")] ∧
    (Graph.ofCache Toy.env exGraphMatch [(§"3", exGraphA2), (§"1", exGraphA)] []).toOption.map (·.build) =
      some [(.str §"a", §"rust")] := by decide +kernel

end Crm
