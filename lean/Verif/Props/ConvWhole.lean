import Verif.Spec.ConvWhole
import Verif.Lemmas.ConvWhole
import Verif.Props.ConvSelectors
import Verif.Props.ConvJinja
import Verif.Props.ConvEnd

/-!
# Converting a recipe, from the beginning to the end (C90)
-/

namespace Crm
open Spec Act

theorem act_assoc {α β γ : Type} (a : Act α) (f : α → Act β) (g : β → Act γ) :
    (a >>= f) >>= g = a >>= fun x => f x >>= g := by
  funext c
  simp only [Bind.bind, Act.bind]
  rcases a c with ⟨e | x, c1⟩ <;> rfl

theorem act_assoc_all {E : Env} {W : ConvWorld} (paths : List Str) (K : Act Unit) :
    ((do
      correctMisspellings E paths
      upgradeSources E paths
      upgradeBuild E paths
      upgradeRequirements E paths
      upgradeAbout E W paths
      upgradeTests E paths
      upgradeOutputs E paths : Act Unit) >>= fun _ => K) = (do
      correctMisspellings E paths
      upgradeSources E paths
      upgradeBuild E paths
      upgradeRequirements E paths
      upgradeAbout E W paths
      upgradeTests E paths
      upgradeOutputs E paths
      K : Act Unit) := by
  simp only [act_assoc]

theorem substitutionEdits_root {E : Env} {r r' : Recipe} {es : List NodeEdit} (hr : r'.root = r.root)
    (h : SubstitutionEdits E r es) : SubstitutionEdits E r' es := by
  refine ⟨by rw [hr]; exact h.places, h.apart, ?_, ?_⟩
  · intro path; rw [h.all path, hr, Recipe.listValuePaths, Recipe.listValuePaths, hr]
  · intro e he
    obtain ⟨s, h1, h2⟩ := h.texts e he
    refine ⟨s, ?_, h2⟩
    rw [← h1, Recipe.getValue, Recipe.getValue, hr]
    rfl

theorem finish_in_recipe {E : Env} {c : Conv} {n : Node} {ks ks' : List Node} (h : Section c [] [] n ks)
    (ho : Ordered topSections ks ks') {context : Option PyVal} (hv : ValueOf E §"context" ks' context) :
    ∃ c', finishV1 E c = (.ok (), c') ∧ c'.self = c.self ∧ c'.v1.root = { n with children := ks' } ∧ c'.v1.schema = .v1 ∧
      c'.v1.vars = contextEntries context ∧ c'.msgs = c.msgs := by
  have hr : c.v1.root = { n with children := ks } := by have := h.node; simpa [nodeAt] using this
  obtain ⟨hsmall, _, hinc⟩ := C32_tables_small topLevelOrder (by simp)
  have hsorted : ks' = sortByKey (sortKey topLevelOrder) ks := ordered_by_table hsmall hinc (by decide) ho
  let r1 : Recipe := { c.v1 with root := { n with children := ks' }, schema := .v1, vars := [] }
  have hs : Section { c with v1 := r1 } [] [] n ks' := by
    refine ⟨by simp, rfl, rfl, ?_⟩
    rcases h.host with ⟨h1, h2⟩ | ⟨h1, h2, h3, h4⟩
    · exact Or.inl ⟨h1.imp id fun h4 => fun hk => h4 (List.Perm.eq_nil (hk ▸ ho.perm.symm)), h2⟩
    · exact Or.inr ⟨h1, h2, h3, fun hk => h4 (List.Perm.eq_nil (hk ▸ ho.perm.symm))⟩
  have hx : KeyName §"context" := by decide
  obtain ⟨c1, g1, _, _⟩ := InSection.valueOf (E := E) hx hv (.dict []) _ hs
  have g2 : r1.getValue E §"/context" (some (.dict [])) = .ok (context.getD (.dict [])) := by
    simp only [valueAt, ask] at g1
    have g1 := congrArg Prod.fst g1
    exact g1
  refine ⟨{ c with v1 := { r1 with vars := contextEntries context } }, ?_, rfl, rfl, rfl, rfl, rfl⟩
  have hs : ({ c.v1 with vars := [] } : Recipe).sortSubtreeKeys §"/" topLevelOrder =
      .ok { c.v1 with vars := [], root := { n with children := ks' } } := by
    unfold Recipe.sortSubtreeKeys
    rw [hsorted]
    simp only [hr]
    rfl
  unfold finishV1
  simp only [Bind.bind, Act.bind, edit, sortKeys, hs]
  unfold Recipe.initVarsV1
  rw [show ({ c.v1 with root := { n with children := ks' }, schema := .v1, vars := [] } : Recipe) = r1 from rfl, g2]
  rcases context with _ | v
  · rfl
  · cases v <;> rfl

/-- C90 (in part): what a conversion makes of a recipe. -/
theorem C90_conversion_partial {E : Env} {W : ConvWorld} (hW : ∀ l, (W.order l).Perm l) {text : Str} {c : Conv}
    (h : newConv E text = .ok c) {root : Node} {vars : List (Str × PyVal)} {says : List (Category × Str)}
    (hr : Conversion E (findLicense W.close W.db) c.v1 root vars says) :
    ∃ c', renderToV1 E W c = (.ok (c'.v1.render, c'.msgs), c') ∧ c'.self = c.self ∧ c'.v1.root = root ∧
      c'.v1.schema = .v1 ∧ c'.v1.vars = vars ∧ c'.msgs = says.foldl (fun (t : MsgTable) m => t.add m.1 m.2) [] := by
  have hm0 : c.msgs = [] := by
    unfold newConv at h
    cases hr : Recipe.ofString E text with
    | error e => rw [hr] at h; cases h
    | ok r =>
      rw [hr] at h
      simp only [Bind.bind, Except.bind] at h
      cases hv : Recipe.ofString E r.render with
      | error e => rw [hv] at h; cases h
      | ok v => rw [hv] at h; injection h with h; rw [← h]
  obtain ⟨es1, es2, hr⟩ := hr
  cases hr with
  | @mk n order bad ctx old count ks ks1 ks2 ks3 ks4 ks5 says1 says3 context hone hn hks ho hs ha hi hk1 hvars hctx hput hes hk2 hne hcount
      hsec hout hold hp hord hval =>
    obtain ⟨c1, e1, o1, r1, _, _, v1, m1⟩ := C82_selectors_partial h hone ho hs ha hi
    have s1 : Section c1 [] [] n ks := ⟨by simp, rfl, by rw [r1, hk1]; rfl, Or.inl ⟨Or.inr hks, hn, by decide⟩⟩
    obtain ⟨c2, e2, o2, r2, _, _, v2, m2⟩ := C83_jinja_partial hW s1 hks hn (by rw [v1]; exact hvars) (by rw [v1]; exact hctx) hput
      (substitutionEdits_root (r := { c.v1 with root := { n with children := ks1 } }) (hr := rfl) hes)
    have s2 : Section c2 [] [] n ks2 := ⟨by simp, rfl, by rw [r2, hk2]; rfl, Or.inl ⟨Or.inr hne, hn, by decide⟩⟩
    obtain ⟨c2', e2', b2', s2'⟩ := packagePaths_in_section hcount c2 s2
    obtain ⟨c3, e3, b3, s3⟩ := sections_in_recipe (W := W) hsec (outputs_in_recipe hout) rfl c2' s2'
    have hrep := C89_report c3 old hp
    have s3r : c3.v1.root = { n with children := ks4 } := by have := s3.node; simpa [nodeAt] using this
    obtain ⟨c4, e4, o4, r4, sc4, v4, m4⟩ := finish_in_recipe (c := { c3 with
      msgs := (old.filter fun e => lineGone c3.v1.root e.1).foldl
        (fun t e => t.add .warning (§"Could not relocate comment: " ++ e.2)) c3.msgs }) (E := E) ⟨s3.path, s3.place, s3.node, s3.host⟩ hord hval
    refine ⟨c4, ?_, o4.trans (b3.original.trans (b2'.original.trans (o2.trans o1))), r4, sc4, v4, ?_⟩
    · have hsteps : convertSteps E W c = (.ok (), c4) := by
        unfold convertSteps
        have hall : (do
            correctMisspellings E (§"/" :: (List.range count).map fun i => §"/outputs/" ++ natStr i)
            upgradeSources E (§"/" :: (List.range count).map fun i => §"/outputs/" ++ natStr i)
            upgradeBuild E (§"/" :: (List.range count).map fun i => §"/outputs/" ++ natStr i)
            upgradeRequirements E (§"/" :: (List.range count).map fun i => §"/outputs/" ++ natStr i)
            upgradeAbout E W (§"/" :: (List.range count).map fun i => §"/outputs/" ++ natStr i)
            upgradeTests E (§"/" :: (List.range count).map fun i => §"/outputs/" ++ natStr i)
            upgradeOutputs E (§"/" :: (List.range count).map fun i => §"/outputs/" ++ natStr i)
            reportComments c.v1.getCommentsTable
            finishV1 E : Act Unit) c2' = (.ok (), c4) := by
          rw [tableOf_comments hold]
          have hh : (reportComments (old.map fun e => (absPath e.1, e.2)) >>= fun _ => finishV1 E) c3 = (.ok (), c4) := by
            simp only [Bind.bind, Act.bind, hrep, e4]
          have hx := congrFun (act_assoc_all (E := E) (W := W) (§"/" :: (List.range count).map fun i => §"/outputs/" ++ natStr i)
            (reportComments (old.map fun e => (absPath e.1, e.2)) >>= fun _ => finishV1 E)) c2'
          rw [← hx]
          simp only [Bind.bind, Act.bind] at e3 hh ⊢
          rw [e3]
          exact hh
        simp only [Bind.bind, Act.bind, ask, e1, e2] at hall ⊢
        simp only [ask] at e2'
        rw [e2']
        exact hall
      unfold renderToV1
      simp only [Bind.bind, Act.bind, hsteps]
    · rw [m4, b3.messages, b2'.messages, m2, m1, hm0, s3r]
      simp only [List.foldl_append, List.foldl_map, List.append_nil]
      rfl

/-! ## An example: a recipe with an output, a variable, a substitution, a selector and a comment that is lost -/

namespace WholeExample

def wText : Str :=
  §"{% set v = 2 %}\npackage:\n  name: x  # lost\n  version: {{ v }}\noutputs:\n  - name: a\n    build:\n      skip: true  # [win]\n    requirements:\n      run_constrained:\n        - b\n"

def noteN (c : Str) (n : Node) : Node := { n with comment := c }
def topW (ks : List Node) : Node := ⟨.str §"/", [], ks, false, .no, false⟩
def elemW (ks : List Node) : Node := ⟨.sentinel, [], ks, true, .no, false⟩
def pkgKids (version : Str) : List Node :=
  [noteN §"# lost" (kN §"name" [noteN §"# lost" (vN (.str §"x"))]), kN §"version" [vN (.str version)]]
def nameW : Node := kN §"name" [vN (.str §"a")]
def oldSkip : Node := noteN §"# [win]" (kN §"skip" [noteN §"# [win]" (vN (.bool true))])
def newSkip : Node := kN §"skip" [vN (.str §"win")]
def reqW (name : Str) : Node := kN §"requirements" [kN name [lN (.str §"b")]]
def outW (ks : List Node) : Node := kN §"outputs" [elemW ks]
def ctxW : Node := kN §"context" [kN §"v" [vN (.int 2)]]
def schemaW : Node := kN §"schema_version" [vN (.int 1)]

def wRoot : Node :=
  topW [kN §"package" (pkgKids §"{{ v }}"), outW [nameW, kN §"build" [oldSkip], reqW §"run_constrained"]]
def wk : List Node :=
  [kN §"package" (pkgKids §"{{ v }}"), outW [nameW, kN §"build" [newSkip], reqW §"run_constrained"]]
def wk1 : List Node := wk ++ [ctxW] ++ [schemaW]
def wAt (out : List Node) : List Node := [kN §"package" (pkgKids §"${{ v }}"), outW out, ctxW, schemaW]
def o2 : List Node := [nameW, kN §"build" [newSkip], reqW §"run_constrained"]
def o3 : List Node := [nameW, kN §"build" [newSkip], reqW §"run_constraints"]
def o4 : List Node := [kN §"package" [nameW], kN §"build" [newSkip], reqW §"run_constraints"]
def recipeW : Node := kN §"recipe" [kN §"name" [vN (.str §"x")], kN §"version" [vN (.str §"${{ v }}")]]
def wk4 : List Node := [outW o4, ctxW, schemaW, recipeW]
def wk5 : List Node := [schemaW, ctxW, recipeW, outW o4]

def selW : List NodeEdit := [⟨[§"outputs", §"0", §"build", §"skip"], [1, 0, 1, 0], oldSkip, newSkip⟩]
def subW : List NodeEdit :=
  [⟨[§"package", §"version"], [0, 1], kN §"version" [vN (.str §"{{ v }}")], kN §"version" [vN (.str §"${{ v }}")]⟩]

/-- In the example, an output changes. -/
theorem output_of {R : List Str → Step} {a b : List Node} (ha : a ≠ []) (hb : b ≠ []) (htop : R [] (wAt a) (wAt a) [])
    (hout : R [§"outputs", §"0"] a b []) : Packages R 1 (wAt a) (wAt b) [] := by
  refine .mk (s1 := []) (s2 := []) htop (.some (by decide) ?_)
  refine .mk (a := [kN §"package" (pkgKids §"${{ v }}")]) (m := outW a) (cs := [elemW b]) rfl ⟨rfl, by decide⟩ rfl ?_
  exact .step (s1 := []) (s2 := []) (.mk (a := []) (m := elemW a) (b := []) rfl rfl rfl rfl ⟨⟨rfl, rfl, rfl, ha⟩, hb, hout⟩) .done

theorem no_build {x : Str} {ks : List Node} (h : Absent §"build" ks) : ¬ HasBelow §"build" x ks := by
  rintro ⟨a, m, b, rfl, hf, _⟩
  exact h m (by simp) hf.named

theorem build_top {ks : List Node} (h : Absent §"build" ks) : BuildMoved Toy.env [] ks ks [] :=
  ⟨ks, ks, .absent (no_build h), .absent (no_build h), .absent h⟩

theorem w_sections : SectionsUpgraded Toy.env (findLicense exWorld.close exWorld.db) 1 (wAt o2) (wAt o3) [] := by
  refine .mk (k1 := wAt o2) (k2 := wAt o2) (k3 := wAt o2) (k4 := wAt o3) (k5 := wAt o3) (s1 := []) (s2 := []) (s3 := []) (s4 := [])
    (s5 := []) (s6 := []) (output_of (by decide) (by decide) ⟨⟨_, .absent (by decide), .absent (by decide)⟩, rfl⟩ ⟨⟨o2, ?_, .absent (by decide)⟩, rfl⟩)
    (output_of (by decide) (by decide) (.absent (by decide)) (.absent (by decide)))
    (output_of (by decide) (by decide) (build_top (by decide)) ?_)
    (output_of (by decide) (by decide) (.absent (by decide)) ?_)
    (output_of (by decide) (by decide) (.absent (by decide)) (.absent (by decide)))
    (output_of (by decide) (by decide) ⟨.absent (by decide), rfl⟩ ⟨.absent (by decide), rfl⟩)
  · exact .present (.mk (a := [nameW]) (m := kN §"build" [newSkip]) (cs := [newSkip]) rfl ⟨rfl, by decide⟩ rfl
      ⟨.cons (.absent (by decide)) (.cons (.absent (by decide)) (.cons (.absent (by decide)) (.nil _))), rfl⟩)
  · refine ⟨o2, o2, .absent (not_below (a := [nameW]) (m := kN §"build" [newSkip]) ⟨rfl, by decide⟩ (by decide)),
      .absent (not_below (a := [nameW]) (m := kN §"build" [newSkip]) ⟨rfl, by decide⟩ (by decide)), ?_⟩
    refine .present (.mk (a := [nameW]) (m := kN §"build" [newSkip]) (cs := [newSkip]) rfl ⟨rfl, by decide⟩ rfl
      ⟨[newSkip], [newSkip], [newSkip], [newSkip], [newSkip], [newSkip], [newSkip], [newSkip], [newSkip], [],
        .cons (.absent (by decide)) (.cons (.absent (by decide)) (.nil _)),
        .absent (by decide), .absent (by decide), .absent (by decide), .absent (by decide), .absent (by decide),
        .absent (by decide), .absent (by decide), .absent (by decide), by decide, ⟨?_, ?_, ?_⟩, ?_⟩)
    · decide
    · decide
    · intro k; rw [show (dropFields obsoleteInBuild [newSkip]).1 = [newSkip] by decide]
    · decide
  · refine .present (.mk (a := [nameW, kN §"build" [newSkip]]) (m := reqW §"run_constrained") (cs := [kN §"run_constraints" [lN (.str §"b")]])
      rfl ⟨rfl, by decide⟩ rfl ⟨.moved (ks1 := []) (v := .list [.str §"b"]) ?_ ?_ trivial trivial, rfl⟩)
    · exact .mk (pre := []) (k := kN §"run_constrained" [lN (.str §"b")]) (post := []) rfl ⟨rfl, by decide⟩ (by decide)
        (by decide +kernel) (by decide)
    · exact .append (ns := [kN §"run_constraints" [lN (.str §"b")]]) (by decide) (by decide +kernel)

theorem w_ordered {names : List Str} {ks ks' : List Node} (tbl : List (Str × Nat)) (hsmall : ∀ e ∈ tbl, (e.2 : Int) < maxSize)
    (hinc : tbl.Pairwise fun a b => a.2 < b.2) (hn : tbl.map (·.1) = names) (h : sortByKey (sortKey tbl) ks = ks') :
    Ordered names ks ks' := by
  have := C32_stable_sort (sortKey tbl) ks
  rw [h] at this
  subst hn
  exact this.of_same_order fun a b => sortKey_order hsmall hinc a b

theorem w_outputs : OutputsUpgraded Toy.env 1 (wAt o3) wk4 := by
  refine .with (ks1 := [outW o3, ctxW, schemaW, recipeW]) (by decide) (.moved (ks1 := [outW o3, ctxW, schemaW])
    (v := .dict [(§"name", .str §"x"), (§"version", .str §"${{ v }}")]) ?_ ?_ (by decide) (by decide)) (.some (by decide) ?_)
  · exact .mk (pre := []) (k := kN §"package" (pkgKids §"${{ v }}")) (post := [outW o3, ctxW, schemaW]) rfl ⟨rfl, by decide⟩ (by decide)
      (by decide +kernel) (by decide)
  · exact .append (ns := [recipeW]) (by decide) (by decide +kernel)
  · refine .mk (a := []) (m := outW o3) (cs := [elemW o4]) rfl ⟨rfl, by decide⟩ rfl ?_
    refine .step (s1 := []) (s2 := []) (.mk (a := []) (m := elemW o3) (b := []) rfl rfl rfl rfl ⟨⟨rfl, rfl, rfl, by decide⟩, by decide, ?_⟩) .done
    refine ⟨.packaged (k1 := o3 ++ [kN §"package" []]) (k2 := [kN §"build" [newSkip], reqW §"run_constraints", kN §"package" [nameW]])
      (k3 := [kN §"build" [newSkip], reqW §"run_constraints", kN §"package" [nameW]]) (by decide) ?_ ?_ (.absent (by decide)) ?_, rfl⟩
    · exact .added (by decide) (.append (ns := [kN §"package" []]) (by decide) (by decide +kernel)) (by decide)
    · refine .moved (ks1 := [kN §"build" [newSkip], reqW §"run_constraints", kN §"package" []]) (v := .str §"a") ?_ ?_
      · exact .mk (pre := []) (k := nameW) (post := [kN §"build" [newSkip], reqW §"run_constraints", kN §"package" []]) rfl
          ⟨rfl, by decide⟩ (by decide) (by decide +kernel) (by decide)
      · exact .mk (a := [kN §"build" [newSkip], reqW §"run_constraints"]) (m := kN §"package" []) (b := []) (cs := [nameW]) rfl
          ⟨rfl, by decide⟩ rfl ⟨.append (ns := [nameW]) (by decide) (by decide +kernel), rfl⟩
    · exact w_ordered topLevelOrder (C32_tables_small topLevelOrder (by simp)).1 (C32_tables_small topLevelOrder (by simp)).2.2 (by decide)
        (by decide)

/-- The steps of the conversion of the example. -/
theorem w_conversion {c : Conv} (hroot : c.v1.root = wRoot) (hv : c.v1.vars = [(§"v", .int 2)]) :
    Conversion Toy.env (findLicense exWorld.close exWorld.db) c.v1 (topW wk5) [(§"v", .int 2)]
      [(.warning, §"Could not relocate comment: # lost")] := by
  refine ⟨selW, subW, ?_⟩
  refine .mk (n := topW []) (order := [§"[win]"]) (bad := []) (ctx := [(§"v", .int 2)])
    (old := [([§"package", §"name"], §"# lost")]) (count := 1) (ks := wk) (ks1 := wk1)
    (ks2 := wAt o2) (ks3 := wAt o3) (ks4 := wk4) (ks5 := wk5) (says1 := []) (says3 := []) (context := some (.dict [(§"v", .int 2)]))
    ?_ (by decide) (by decide) ?_ ?_ ?_ (by decide) ?_ (by rw [hv]; decide) (by rw [hv]; exact .int .nil)
    (.with (by decide) (.append (ns := [ctxW]) (by decide) (by decide +kernel)) (.append (ns := [schemaW]) (by decide) (by decide +kernel)))
    ?_ (by decide) (by decide) (.list (xs := [.dict [(§"name", .str §"a"),
      (§"build", .dict [(§"skip", .str §"win")]), (§"requirements", .dict [(§"run_constrained", .list [.str §"b"])])]]) ?_) w_sections w_outputs ?_ (by decide) ?_ ?_
  · rw [hroot]; intro np hnp; revert np; decide +kernel
  · rw [hroot]
    refine ⟨?_, by decide, by decide +kernel⟩
    intro x
    rw [show selectorsOf wRoot = [§"[win]", §"[win]"] by decide +kernel]
    simp
  · rw [hroot, show linesWith wRoot [§"[win]"] = [(§"[win]", oldSkip, §"/outputs/0/build/skip"),
      (§"[win]", noteN §"# [win]" (vN (.bool true)), §"/outputs/0/build/skip")] by decide +kernel]
    exact .inner (by decide) (.changed (body := §"win") (by decide) (by decide) (.switch (b := true) (expr := §"win") (rest := []) (x := vN (.str §"win"))
      rfl (by decide) ((C88_selector_text _ _).1 (by decide +kernel)) (by decide) (by decide) (by decide +kernel) (by decide) .alone
      (by decide) (by decide)) .nil)
  · rw [hroot]; decide +kernel
  · rw [hroot]; decide
  · refine substitutionEdits_root (r := ⟨[], topW wk1, .v0, [], [], false⟩) rfl ?_
    refine substitutionEdits_of (by decide +kernel) (by decide) (by decide +kernel) ?_
    intro e he
    simp only [subW, List.mem_cons, List.not_mem_nil, or_false] at he
    subst he
    exact ⟨§"{{ v }}", by decide +kernel, .value (ns := [vN (.str §"${{ v }}")]) (by decide) (by decide) (by decide +kernel) rfl⟩
  · exact .present (a := [kN §"package" (pkgKids §"${{ v }}")]) (m := outW o2) (b := [ctxW, schemaW]) rfl ⟨rfl, by decide⟩ (by decide +kernel)
  · rw [hroot, show noted wRoot = [(§"/package/name", §"# lost"), (§"/package/name", §"# lost")] by decide +kernel]
    refine ⟨⟨?_, by decide, by decide⟩, by decide⟩
    intro x
    have h1 : (absPath [§"package", §"name"]) = §"/package/name" := by decide
    simp only [List.map_cons, List.map_nil, List.mem_cons, List.not_mem_nil, or_false, h1, or_self]
  · exact w_ordered topLevelOrder (C32_tables_small topLevelOrder (by simp)).1 (C32_tables_small topLevelOrder (by simp)).2.2 (by decide)
      (by decide)
  · exact .present (a := [schemaW]) (m := ctxW) (b := [recipeW, outW o4]) rfl ⟨rfl, by decide⟩ (by decide +kernel)

example : ∃ c c', newConv Toy.env wText = .ok c ∧ renderToV1 Toy.env exWorld c = (.ok (c'.v1.render, c'.msgs), c') ∧
    c'.v1.root = topW wk5 ∧ c'.v1.vars = [(§"v", .int 2)] ∧
    c'.msgs = MsgTable.add [] .warning §"Could not relocate comment: # lost" := by
  have hroot : (newConv Toy.env wText).map (fun c => (c.v1.root, c.v1.vars)) = .ok (wRoot, [(§"v", .int 2)]) := by decide +kernel
  cases hc : newConv Toy.env wText with
  | error e => rw [hc] at hroot; cases hroot
  | ok c =>
    rw [hc] at hroot
    injection hroot with hroot
    injection hroot with hroot hv
    obtain ⟨c', e1, _, e2, _, e3, e4⟩ := C90_conversion_partial (W := exWorld) (fun l => .refl l) hc (w_conversion hroot hv)
    exact ⟨c, c', rfl, e1, e2, e3, e4⟩

end WholeExample

end Crm
