import Verif.Lemmas.ConvPackage
import Verif.Props.ConvSection

/-!
# Converting a recipe: all sections of a package (C81, C84, C85, C86)
-/

namespace Crm
open Spec Act

section
variable {E : Env} {W : ConvWorld} {comps : List Str} {pos : Pos} {n : Node} {ks ks' : List Node} {base : Str}
  {says : List (Category × Str)}

theorem InSection.withHost {a : Act α} {x : α} (h : Host comps n ks → InSection comps pos n ks a x ks' says) :
    InSection comps pos n ks a x ks' says := fun c hc => h hc.host c hc

/-- C81: the misspelt keys `skipt`, `skips`, `Skip` and `extras` of a package get the names that were meant; nothing else in
the recipe changes. -/
theorem C81_spelling_partial {c : Conv} (hb : base = absPath comps ∨ base = absPath comps ++ §"/") (h : Section c comps pos n ks)
    (hu : SpellingCorrected E ks ks') :
    ∃ c', correctMisspellings E [base] c = (.ok (), c') ∧ Became c c' pos ks' [] := by
  obtain ⟨c', h1, h2, _⟩ := spelling_in_package hb h.path h.host hu c h
  exact ⟨c', h1, h2⟩

/-- C81: the sources of a package, one or several, are converted; nothing else in the recipe changes and nothing else is
reported. -/
theorem C81_sources_partial {c : Conv} (hb : base = absPath comps ∨ base = absPath comps ++ §"/") (h : Section c comps pos n ks)
    (hu : SourcesUpgraded E ks ks' says) :
    ∃ c', upgradeSources E [base] c = (.ok (), c') ∧ Became c c' pos ks' says := by
  obtain ⟨c', h1, h2, _⟩ := sources_in_section hb h.path h.host hu c h
  exact ⟨c', h1, h2⟩

/-- C81: the `build` section of a package: `run_exports` and `ignore_run_exports` go to `requirements`, the rest is converted
in place; nothing else in the recipe changes and nothing else is reported. -/
theorem C81_build_partial {c : Conv} (hb : base = absPath comps ∨ base = absPath comps ++ §"/") (h : Section c comps pos n ks)
    (hu : BuildMoved E comps ks ks' says) :
    ∃ c', upgradeBuild E [base] c = (.ok (), c') ∧ Became c c' pos ks' says := by
  obtain ⟨c', h1, h2, _⟩ := buildMoved_in_package hb h.path h.host hu c h
  exact ⟨c', h1, h2⟩

/-- C81: converting the `requirements` section: `run_constrained` gets its new name; nothing else in the recipe changes. -/
theorem C81_requirements_partial {c : Conv} (hb : base = absPath comps ∨ base = absPath comps ++ §"/") (h : Section c comps pos n ks)
    (hu : InKey §"requirements" (quiet (Renamed E (fun _ => True) §"run_constrained" §"run_constraints")) ks ks' []) :
    ∃ c', upgradeRequirements E [base] c = (.ok (), c') ∧ Became c c' pos ks' [] := by
  obtain ⟨c', h1, h2, _⟩ := requirements_in_package hb h.path h.host hu c h
  exact ⟨c', h1, h2⟩

/-- C81, C86: converting the `about` section: `home`, `dev_url` and `doc_url` get their new names, the licence is corrected or
reported, a summary of several texts becomes one, and the fields without a successor are taken out and reported.  Nothing
else in the recipe changes and nothing else is reported.  `AboutUpgraded` lists these steps. -/
theorem C81_about_partial {c : Conv} (hb : base = absPath comps ∨ base = absPath comps ++ §"/") (h : Section c comps pos n ks)
    (hu : InKey §"about" (AboutUpgraded E (findLicense W.close W.db) (fun _ => True) (comps ++ [§"about"])) ks ks' says) :
    ∃ c', upgradeAbout E W [base] c = (.ok (), c') ∧ Became c c' pos ks' says := by
  obtain ⟨c', h1, h2, _⟩ := about_in_package hb h.path h.host hu c h
  exact ⟨c', h1, h2⟩

/-- C84: the `test` section of a package becomes the list `tests`; nothing else in the recipe changes and nothing is
reported.  `TestsUpgraded` says how the list is made. -/
theorem C84_tests_partial {c : Conv} (hb : base = absPath comps ∨ base = absPath comps ++ §"/") (h : Section c comps pos n ks)
    (hu : TestsUpgraded E ks ks') :
    ∃ c', upgradeTests E [base] c = (.ok (), c') ∧ Became c c' pos ks' [] := by
  obtain ⟨c', h1, h2, _⟩ := tests_in_package hb h.path h.host hu c h
  exact ⟨c', h1, h2⟩

/-- C85: `script_env` moves into `script`: every entry becomes a variable, a secret or an error message, and the old script
becomes its `content`.  Nothing else in the recipe changes and nothing else is reported. -/
theorem C85_script_env_partial {c : Conv} (h : Section c comps pos n ks) (hu : ScriptEnvMoved E (Host comps n) comps ks ks' says) :
    ∃ c', upgradeScript E (absPath comps) c = (.ok (), c') ∧ Became c c' pos ks' says := by
  obtain ⟨c', h1, h2, _⟩ := script_in_section h.path hu c h
  exact ⟨c', h1, h2⟩

/-- C86: what happens to the licence in `about`: a missing one and one that nothing resembles are reported and left alone, one
that is already written as in the licence list is left alone without a word, any other is replaced by the one it stands
for, which is reported.  Nothing else in the recipe changes and nothing else is reported. -/
theorem C86_licence_partial {c : Conv} (h : Section c comps pos n ks) (hkey : n.key = true) (hv : n.value ≠ .sentinel)
    (hend : endsInNumber comps = false) (hu : LicenceFixed E (findLicense W.close W.db) comps ks ks' says) :
    ∃ c', fixLicense E W (absPath comps) c = (.ok (), c') ∧ Became c c' pos ks' says := by
  obtain ⟨c', h1, h2, _⟩ := licence_in_section h.path (fun _ => Or.inl ⟨Or.inl hkey, hv, hend⟩) hu c h
  exact ⟨c', h1, h2⟩

/-- C86: a licence that is read as something else than a text ends the conversion with an exception; nothing is changed or
reported first. -/
theorem C86_not_a_text {E : Env} {W : ConvWorld} {comps : List Str} {c : Conv} {v : PyVal} (hc : ∀ x ∈ comps, Component x)
    (hv : c.v1.getValue E (absPath (comps ++ [§"license"])) (some .none) = .ok v) (hs : ∀ s, v ≠ .str s) (hn : v ≠ .none) :
    fixLicense E W (absPath comps) c = (.error (if isScalar v then .attributeError else .typeError), c) := by
  have hk : KeyName §"license" := by decide
  unfold fixLicense
  rw [path_key hc hk.1 (Or.inl rfl) (Or.inl rfl)]
  simp only [Bind.bind, Act.bind, Crm.valueAt, Act.ask, hv, if_neg hn]
  match v with
  | .str s => exact absurd rfl (hs s)
  | .none => exact absurd rfl hn
  | .list _ => rfl
  | .dict _ => rfl
  | .sentinel => rfl
  | .bool _ => rfl
  | .int _ => rfl
  | .flt _ => rfl

/-- C84: no test is lost or doubled when the list is made: the entries of the list, taken together, are the entries of the
test, in another order. -/
theorem C84_all_tests_kept (d : List (Str × PyVal)) (hd : (d.map (·.1)).Nodup) :
    ((testList d).flatMap entries).Perm d := by
  have key : ∀ (k : Str) (d : List (Str × PyVal)), (d.map (·.1)).Nodup →
      (((match lookupD k d with | some v => [PyVal.dict [(k, v)]] | none => []).flatMap
        entries) ++ d.filter fun e => decide (e.1 ≠ k)).Perm d := by
    intro k d hd
    induction d with
    | nil => exact .refl _
    | cons e es ih =>
      obtain ⟨l, w⟩ := e
      rw [List.map_cons, List.nodup_cons] at hd
      by_cases h : l = k
      · subst h
        have hes : (es.filter fun e => decide (e.1 ≠ l)) = es := by
          rw [List.filter_eq_self]
          intro x hx
          simp only [decide_eq_true_eq]
          exact fun he => hd.1 (List.mem_map.2 ⟨x, hx, he⟩)
        rw [List.filter_cons_of_neg (by simp), hes]
        simp [lookupD, entries]
      · rw [List.filter_cons_of_pos (by simpa using h)]
        simp only [lookupD, h, if_false]
        exact List.perm_middle.trans ((ih hd.2).cons _)
  have hd' : ((d.filter fun e => decide (e.1 ≠ §"python")).map (·.1)).Nodup :=
    List.Nodup.sublist (List.Sublist.map _ List.filter_sublist) hd
  have h1 := key §"python" d hd
  have h2 := key §"downstream" _ hd'
  rw [lookupD_filter_ne (by decide), List.filter_filter] at h2
  have he : (d.filter fun e => decide (e.1 ≠ §"downstream") && decide (e.1 ≠ §"python")) =
      d.filter fun e => decide (e.1 ≠ §"python" ∧ e.1 ≠ §"downstream") := by
    congr 1
    funext e
    rw [Bool.decide_and, Bool.and_comm]
  rw [he] at h2
  unfold testList
  rw [List.flatMap_append, List.flatMap_append, List.append_assoc]
  refine List.Perm.trans (List.Perm.append_left _ ?_) h1
  refine List.Perm.trans (List.Perm.append_left _ ?_) h2
  cases d.filter fun e => decide (e.1 ≠ §"python" ∧ e.1 ≠ §"downstream") with
  | nil => exact .refl _
  | cons e es => simp [entries]

/-- C81: all sections of a package, converted one after the other.  `PackageUpgraded` lists the steps; nothing else in the
recipe changes, and the messages are those of the steps, in their order. -/
theorem C81_package_partial {c : Conv} (hb : base = absPath comps ∨ base = absPath comps ++ §"/") (h : Section c comps pos n ks)
    (hu : PackageUpgraded E (findLicense W.close W.db) comps ks ks' says) :
    ∃ c', (do
        correctMisspellings E [base]
        upgradeSources E [base]
        upgradeBuild E [base]
        upgradeRequirements E [base]
        upgradeAbout E W [base]
        upgradeTests E [base] : Act Unit) c = (.ok (), c') ∧ Became c c' pos ks' says := by
  obtain ⟨k1, k2, k3, k4, k5, s2, s3, s5, h1, h2, h3, h4, h5, h6, rfl⟩ := hu.steps
  have hp := h.path
  have : InSection comps pos n ks (do
        correctMisspellings E [base]
        upgradeSources E [base]
        upgradeBuild E [base]
        upgradeRequirements E [base]
        upgradeAbout E W [base]
        upgradeTests E [base] : Act Unit) () ks' ([] ++ (s2 ++ (s3 ++ ([] ++ (s5 ++ []))))) := by
    refine InSection.bind (.withHost fun hh => spelling_in_package hb hp hh h1) ?_
    refine InSection.bind (.withHost fun hh => sources_in_section hb hp hh h2) ?_
    refine InSection.bind (.withHost fun hh => buildMoved_in_package hb hp hh h3) ?_
    refine InSection.bind (.withHost fun hh => requirements_in_package hb hp hh h4) ?_
    refine InSection.bind (.withHost fun hh => about_in_package hb hp hh h5) ?_
    exact .withHost fun hh => tests_in_package hb hp hh h6
  obtain ⟨c', e1, e2, _⟩ := this c h
  refine ⟨c', e1, ?_⟩
  simpa using e2

end

/-! ## An example -/

/-- A recipe with most sections. -/
def exPkgText : Str :=
  §"package:\n  name: foo\n\nbuild:\n  skipt: true\n  run_exports: foo\n\nrequirements:\n  host:\n    - python\n\nabout:\n  home: h\n  license: MIT\n  tags: t\n\ntest:\n  commands:\n    - pip check\n    - run\n"

/-- The object that converts it. -/
def exPkg : Conv :=
  ⟨Toy.recipe (String.ofList exPkgText), Toy.recipe (String.ofList (Toy.recipe (String.ofList exPkgText)).render), []⟩

/-- A key with its children. -/
def kN (name : Str) (kids : List Node) : Node := ⟨.str name, [], kids, false, .no, true⟩
/-- A value. -/
def vN (v : PyVal) : Node := ⟨v, [], [], false, .no, false⟩
/-- An element of a list. -/
def lN (v : PyVal) : Node := ⟨v, [], [], true, .no, false⟩

private def pk : Node := kN §"package" [kN §"name" [vN (.str §"foo")]]
private def bd (ks : List Node) : Node := kN §"build" ks
private def rq (ks : List Node) : Node := kN §"requirements" (kN §"host" [lN (.str §"python")] :: ks)
private def ab (ks : List Node) : Node := kN §"about" ks
private def ts (ks : List Node) : Node := kN §"test" ks

private def skipt : Node := kN §"skipt" [vN (.bool true)]
private def skip : Node := kN §"skip" [vN (.bool true)]
private def rexp : Node := kN §"run_exports" [vN (.str §"foo")]
private def home : Node := kN §"home" [vN (.str §"h")]
private def homepage : Node := kN §"homepage" [vN (.str §"h")]
private def lic : Node := kN §"license" [vN (.str §"MIT")]
private def tags : Node := kN §"tags" [vN (.str §"t")]

/-- The keys of the example before the conversion. -/
def exPkgKeys : List Node :=
  [pk, bd [skipt, rexp], rq [], ab [home, lic, tags],
   ts [kN §"commands" [lN (.str §"pip check"), lN (.str §"run")]]]

/-- The list of tests of the example after the conversion. -/
def exPkgTests : Node :=
  kN §"tests" [⟨.sentinel, [], [kN §"python" [kN §"pip_check" [vN (.bool true)]]], true, .no, false⟩,
    ⟨.sentinel, [], [kN §"script" [lN (.str §"run")]], true, .no, false⟩]

/-- The keys of the example after the conversion. -/
def exPkgKeys' : List Node :=
  [pk, bd [skip], rq [rexp], ab [lic, homepage], exPkgTests]

theorem exPkg_section : Section exPkg [] [] exPkg.v1.root exPkgKeys := by
  constructor <;> decide +kernel

theorem first_unique {x : Str} : ∀ {a a' b b' : List Node} {m m' : Node}, a ++ m :: b = a' ++ m' :: b' → First x a m → First x a' m' →
    m = m'
  | [], [], _, _, _, _, h, _, _ => by injection h
  | [], y :: ys, _, _, _, _, h, hf, hf' => by injection h with h _; exact absurd (h ▸ hf.named) (hf'.first y (by simp))
  | y :: ys, [], _, _, _, _, h, hf, hf' => by injection h with h _; exact absurd (h.symm ▸ hf'.named) (hf.first y (by simp))
  | y :: ys, z :: zs, _, _, _, _, h, hf, hf' => by
    injection h with _ h
    exact first_unique h ⟨hf.named, fun w hw => hf.first w (by simp [hw])⟩ ⟨hf'.named, fun w hw => hf'.first w (by simp [hw])⟩

theorem not_below {g x : Str} {a b : List Node} {m : Node} (hf : First g a m) (h : Absent x m.children) :
    ¬ HasBelow g x (a ++ m :: b) := by
  rintro ⟨a', m', b', hs, hf', hab⟩
  exact hab (first_unique hs hf hf' ▸ h)

/-- The keys of the example after the misspelt key got its name. -/
def exPkgKeys1 : List Node :=
  [pk, bd [rexp, skip], rq [], ab [home, lic, tags], ts [kN §"commands" [lN (.str §"pip check"), lN (.str §"run")]]]

/-- The keys of the example after the conversion of `build`. -/
def exPkgKeys3 : List Node :=
  [pk, bd [skip], rq [rexp], ab [home, lic, tags], ts [kN §"commands" [lN (.str §"pip check"), lN (.str §"run")]]]

/-- The keys of the example after the conversion of `about`. -/
def exPkgKeys5 : List Node :=
  [pk, bd [skip], rq [rexp], ab [lic, homepage], ts [kN §"commands" [lN (.str §"pip check"), lN (.str §"run")]]]

theorem exPkg_spelling : SpellingCorrected Toy.env exPkgKeys exPkgKeys1 := by
  refine ⟨_, .present (.mk (a := [pk]) (m := bd [skipt, rexp]) (b := _) (cs := [rexp, skip]) rfl ⟨rfl, by decide⟩ rfl ⟨?_, rfl⟩), .absent (by decide)⟩
  refine .cons (.moved (ks1 := [rexp]) (v := .bool true) ?_ ?_ trivial trivial) (.cons (.absent (by decide)) (.cons (.absent (by decide)) (.nil _)))
  · exact .mk (pre := []) (k := skipt) (post := [rexp]) rfl ⟨rfl, by decide⟩ (by decide) (by decide +kernel) (by decide)
  · exact .append (ns := [skip]) (by decide) (by decide +kernel)

theorem exPkg_build : BuildMoved Toy.env [] exPkgKeys1 exPkgKeys3 [] := by
  refine ⟨[pk, bd [skip], rq [rexp], ab [home, lic, tags], ts [kN §"commands" [lN (.str §"pip check"), lN (.str §"run")]]],
    [pk, bd [skip], rq [rexp], ab [home, lic, tags], ts [kN §"commands" [lN (.str §"pip check"), lN (.str §"run")]]], ?_, ?_, ?_⟩
  · refine .moved (v := .str §"foo") ⟨[pk], bd [rexp, skip], _, rfl, ⟨rfl, by decide⟩, by decide⟩ (.there (by decide))
      (.mk (a := [pk]) (m := bd [rexp, skip]) (cs := [skip]) rfl ⟨rfl, by decide⟩ rfl ⟨?_, rfl⟩)
      (.mk (a := [pk, bd [skip]]) (m := rq []) (cs := (rq [rexp]).children) rfl ⟨rfl, by decide⟩ rfl ⟨?_, rfl⟩)
    · exact .mk (pre := []) (k := rexp) (post := [skip]) rfl ⟨rfl, by decide⟩ (by decide) (by decide +kernel) (by decide)
    · exact .append (ns := [rexp]) (by decide) (by decide +kernel)
  · exact .absent (not_below (a := [pk]) (m := bd [skip]) ⟨rfl, by decide⟩ (by decide))
  · refine .present (.mk (a := [pk]) (m := bd [skip]) (cs := [skip]) rfl ⟨rfl, by decide⟩ rfl
      ⟨[skip], [skip], [skip], [skip], [skip], [skip], [skip], [skip], [skip], [],
        .cons (.absent (by decide)) (.cons (.absent (by decide)) (.nil _)),
        .absent (by decide), .absent (by decide), .absent (by decide), .absent (by decide), .absent (by decide),
        .absent (by decide), .absent (by decide), .absent (by decide), by decide, ⟨?_, ?_, ?_⟩, ?_⟩)
    · decide
    · decide
    · intro k; rw [show (dropFields obsoleteInBuild [skip]).1 = [skip] by decide]
    · decide

theorem exPkg_requirements : InKey §"requirements" (quiet (Renamed Toy.env (fun _ => True) §"run_constrained"
    §"run_constraints")) exPkgKeys3 exPkgKeys3 [] := by
  exact .present (.mk (a := [pk, bd [skip]]) (m := rq [rexp]) rfl ⟨rfl, by decide⟩ rfl ⟨.absent (by decide), rfl⟩)

theorem exPkg_about : InKey §"about" (AboutUpgraded Toy.env (findLicense exWorld.close exWorld.db) (fun _ => True)
    ([] ++ [§"about"])) exPkgKeys3 exPkgKeys5 [(.warning, §"Field at `/about/tags` is no longer supported.")] := by
  refine .present (.mk (a := [pk, bd [skip], rq [rexp]]) (m := ab [home, lic, tags]) (cs := [lic, homepage]) rfl ⟨rfl, by decide⟩ rfl
    ⟨[lic, tags, homepage], [lic, tags, homepage], [lic, tags, homepage], [], ?_, ?_, .none (by decide), by decide, by decide, by decide⟩)
  · refine .cons (.moved (ks1 := [lic, tags]) (v := .str §"h") ?_ ?_ trivial trivial)
      (.cons (.absent (by decide)) (.cons (.absent (by decide)) (.nil _)))
    · exact .mk (pre := []) (k := home) (post := [lic, tags]) rfl ⟨rfl, by decide⟩ (by decide) (by decide +kernel) (by decide)
    · exact .append (ns := [homepage]) (by decide) (by decide +kernel)
  · exact .correct (a := []) (m := lic) (b := [tags, homepage]) (old := §"MIT") rfl ⟨rfl, by decide⟩ (by decide +kernel) (by decide +kernel)

theorem exPkg_tests : TestsUpgraded Toy.env exPkgKeys5 exPkgKeys' := by
  have hv : ValueBelow Toy.env §"requirements" §"host"
      [pk, bd [skip], rq [rexp], ab [lic, homepage], ts [kN §"commands" [lN (.str §"pip check"), lN (.str §"run")]]]
      (some (.list [.str §"python"])) :=
    .present (a := [pk, bd [skip]]) (m := rq [rexp]) rfl ⟨rfl, by decide⟩ rfl
      (.present (a := []) (m := kN §"host" [lN (.str §"python")]) rfl ⟨rfl, by decide⟩ (by decide +kernel))
  refine .moved (a := [pk, bd [skip], rq [rexp], ab [lic, homepage]]) (b := [])
    (m := ts [kN §"commands" [lN (.str §"pip check"), lN (.str §"run")]])
    (cs := [kN §"python" [kN §"pip_check" [vN (.bool true)]], kN §"script" [lN (.str §"run")]])
    (d := [(§"python", .dict [(§"pip_check", .bool true)]), (§"script", .list [.str §"run"])])
    (ks2 := [pk, bd [skip], rq [rexp], ab [lic, homepage],
      ts [kN §"python" [kN §"pip_check" [vN (.bool true)]], kN §"script" [lN (.str §"run")]], exPkgTests])
    rfl ⟨rfl, by decide⟩ rfl (.host hv) ?_ (by decide +kernel) (by decide) ?_ (by decide)
    (.gone (a := [pk, bd [skip], rq [rexp], ab [lic, homepage]]) (b := [exPkgTests]) ⟨rfl, by decide⟩ (by decide)) (by simp [exPkgKeys'])
  · refine ⟨[kN §"commands" [lN (.str §"pip check"), lN (.str §"run")]],
      [kN §"commands" [lN (.str §"pip check"), lN (.str §"run")]],
      [kN §"commands" [lN (.str §"run")], kN §"python" [kN §"pip_check" [vN (.bool true)]]],
      [kN §"python" [kN §"pip_check" [vN (.bool true)]], kN §"script" [lN (.str §"run")]],
      [kN §"python" [kN §"pip_check" [vN (.bool true)]], kN §"script" [lN (.str §"run")]],
      [kN §"python" [kN §"pip_check" [vN (.bool true)]], kN §"script" [lN (.str §"run")]],
      .neither (by decide) (by decide), .absent (by decide), ?_, ?_, .absent (by decide), .absent (by decide), ?_⟩
    · refine .yes (ks1 := [kN §"commands" [lN (.str §"run")]]) (found := true)
        (ks2 := [kN §"commands" [lN (.str §"run")], kN §"python" []]) (by decide) ?_
        (.added (by decide) (.append (ns := [kN §"python" []]) (by decide) (by decide +kernel)) trivial)
        (.mk (a := [kN §"commands" [lN (.str §"run")]]) (m := kN §"python" []) rfl ⟨rfl, by decide⟩ rfl
          ⟨.append (ns := [kN §"pip_check" [vN (.bool true)]]) (by decide) (by decide +kernel), rfl⟩)
      exact .one (xs := []) (x := .str §"pip check") (ys := [.str §"run"])
        (.present (a := []) (m := kN §"commands" [lN (.str §"pip check"), lN (.str §"run")]) rfl ⟨rfl, by decide⟩
          (by decide +kernel)) (by intro _ h; cases h) (Or.inl rfl) (by decide)
        (.mk (a := []) (m := kN §"commands" [lN (.str §"pip check"), lN (.str §"run")]) (cs := [lN (.str §"run")]) rfl
          ⟨rfl, by decide⟩ rfl ⟨.mk (a := []) (m := lN (.str §"pip check")) rfl rfl rfl, rfl⟩)
    · refine .moved (v := .list [.str §"run"]) (ks1 := [kN §"python" [kN §"pip_check" [vN (.bool true)]]])
        (.mk (pre := []) (k := kN §"commands" [lN (.str §"run")]) rfl ⟨rfl, by decide⟩ (by decide) (by decide +kernel) (by decide))
        (.append (ns := [kN §"script" [lN (.str §"run")]]) (by decide) (by decide +kernel)) trivial trivial
    · exact .present (.mk (a := []) (m := kN §"python" [kN §"pip_check" [vN (.bool true)]]) rfl ⟨rfl, by decide⟩ rfl
        ⟨⟨.refl _, by decide, fun _ => rfl⟩, rfl⟩)
  · exact .append (ns := [exPkgTests]) (by decide) (by decide +kernel)

theorem exPkg_upgraded : PackageUpgraded Toy.env (findLicense exWorld.close exWorld.db) [] exPkgKeys exPkgKeys'
    [(.warning, §"Field at `/about/tags` is no longer supported.")] :=
  ⟨exPkgKeys1, exPkgKeys1, exPkgKeys3, exPkgKeys3, exPkgKeys5, [], [], _, exPkg_spelling, .absent (by decide), exPkg_build,
    exPkg_requirements, exPkg_about, exPkg_tests, rfl⟩

example : ∃ c', (do
      correctMisspellings Toy.env [§"/"]
      upgradeSources Toy.env [§"/"]
      upgradeBuild Toy.env [§"/"]
      upgradeRequirements Toy.env [§"/"]
      upgradeAbout Toy.env exWorld [§"/"]
      upgradeTests Toy.env [§"/"] : Act Unit) exPkg = (.ok (), c') ∧
    Became exPkg c' [] exPkgKeys' [(.warning, §"Field at `/about/tags` is no longer supported.")] :=
  C81_package_partial (Or.inr rfl) exPkg_section exPkg_upgraded

/-! ### The steps of the example, one by one -/

/-- The example at a stage of its conversion. -/
def exPkgAt (ks : List Node) : Conv := { exPkg with v1 := { exPkg.v1 with root := { exPkg.v1.root with children := ks } } }

example : ∃ c', correctMisspellings Toy.env [§"/"] exPkg = (.ok (), c') ∧ Became exPkg c' [] exPkgKeys1 [] :=
  C81_spelling_partial (Or.inr rfl) exPkg_section exPkg_spelling

theorem exPkg_section1 : Section (exPkgAt exPkgKeys1) [] [] exPkg.v1.root exPkgKeys1 := by constructor <;> decide +kernel
theorem exPkg_section3 : Section (exPkgAt exPkgKeys3) [] [] exPkg.v1.root exPkgKeys3 := by constructor <;> decide +kernel
theorem exPkg_section5 : Section (exPkgAt exPkgKeys5) [] [] exPkg.v1.root exPkgKeys5 := by constructor <;> decide +kernel

example : ∃ c', upgradeBuild Toy.env [§"/"] (exPkgAt exPkgKeys1) = (.ok (), c') ∧
    Became (exPkgAt exPkgKeys1) c' [] exPkgKeys3 [] :=
  C81_build_partial (Or.inr rfl) exPkg_section1 exPkg_build

example : ∃ c', upgradeAbout Toy.env exWorld [§"/"] (exPkgAt exPkgKeys3) = (.ok (), c') ∧
    Became (exPkgAt exPkgKeys3) c' [] exPkgKeys5 [(.warning, §"Field at `/about/tags` is no longer supported.")] :=
  C81_about_partial (Or.inr rfl) exPkg_section3 exPkg_about

example : ∃ c', upgradeTests Toy.env [§"/"] (exPkgAt exPkgKeys5) = (.ok (), c') ∧
    Became (exPkgAt exPkgKeys5) c' [] exPkgKeys' [] :=
  C84_tests_partial (Or.inr rfl) exPkg_section5 exPkg_tests

example : ((testList [(§"files", .str §"f"), (§"downstream", .str §"d"), (§"python", .none)]).flatMap entries).Perm
    [(§"files", .str §"f"), (§"downstream", .str §"d"), (§"python", .none)] := C84_all_tests_kept _ (by decide)

/-! ### Requirements, sources, `script_env` and licences -/

/-- A recipe with two sources. -/
def exSrcText : Str :=
  §"package:\n  name: foo\nsource:\n  - fn: a\n    url: u\n  - svn_url: s\n    git_rev: r\nrequirements:\n  run_constrained:\n    - x\n    - y\n"

/-- The object that converts it. -/
def exSrc : Conv :=
  ⟨Toy.recipe (String.ofList exSrcText), Toy.recipe (String.ofList (Toy.recipe (String.ofList exSrcText)).render), []⟩

private def pname : Node := kN §"package" [kN §"name" [vN (.str §"foo")]]
private def fld (k v : Str) : Node := kN k [vN (.str v)]
private def elem (ks : List Node) : Node := ⟨.sentinel, [], ks, true, .no, false⟩
private def src (a b : List Node) : Node := kN §"source" [elem a, elem b]
private def rcon (k : Str) : Node := kN §"requirements" [kN k [lN (.str §"x"), lN (.str §"y")]]

/-- The keys of the recipe with two sources. -/
def exSrcKeys : List Node :=
  [pname, src [fld §"fn" §"a", fld §"url" §"u"] [fld §"svn_url" §"s", fld §"git_rev" §"r"], rcon §"run_constrained"]

/-- The keys after the conversion of the sources. -/
def exSrcKeys' : List Node :=
  [pname, src [fld §"url" §"u", fld §"file_name" §"a"] [fld §"rev" §"r", fld §"svn_url" §"s"], rcon §"run_constrained"]

theorem exSrc_section : Section exSrc [] [] exSrc.v1.root exSrcKeys := by constructor <;> decide +kernel

theorem exSrc_upgraded : SourcesUpgraded Toy.env exSrcKeys exSrcKeys'
    [(.warning, §"SVN packages are no longer supported in the V1 format")] := by
  refine .several (a := [pname]) (b := [rcon §"run_constrained"])
    (m := src [fld §"fn" §"a", fld §"url" §"u"] [fld §"svn_url" §"s", fld §"git_rev" §"r"])
    (xs := [.dict [(§"fn", .str §"a"), (§"url", .str §"u")], .dict [(§"svn_url", .str §"s"), (§"git_rev", .str §"r")]])
    (cs := [elem [fld §"url" §"u", fld §"file_name" §"a"], elem [fld §"rev" §"r", fld §"svn_url" §"s"]])
    rfl ⟨rfl, by decide⟩ rfl (by decide +kernel) ?_
  refine .step (s1 := []) (s2 := [(.warning, §"SVN packages are no longer supported in the V1 format")])
    (ks1 := [elem [fld §"url" §"u", fld §"file_name" §"a"], elem [fld §"svn_url" §"s", fld §"git_rev" §"r"]]) ?_
    (.step (s2 := []) (s1 := [(.warning, §"SVN packages are no longer supported in the V1 format")]) ?_ .done)
  · refine .mk (a := []) (m := elem [fld §"fn" §"a", fld §"url" §"u"]) rfl rfl rfl rfl ⟨⟨rfl, rfl, rfl, by decide⟩, by decide, ?_⟩
    refine ⟨[fld §"url" §"u", fld §"file_name" §"a"], ?_, ⟨.refl _, by decide, fun _ => rfl⟩, rfl, rfl, rfl, by decide⟩
    refine .cons (.moved (ks1 := [fld §"url" §"u"]) (v := .str §"a") ?_ ?_ ⟨rfl, rfl, rfl, by decide⟩ ⟨rfl, rfl, rfl, by decide⟩)
      (.cons (.absent (by decide)) (.cons (.absent (by decide)) (.cons (.absent (by decide)) (.cons (.absent (by decide))
        (.cons (.absent (by decide)) (.nil _))))))
    · exact .mk (pre := []) (k := fld §"fn" §"a") rfl ⟨rfl, by decide⟩ (by decide) (by decide +kernel) (by decide)
    · exact .append (ns := [fld §"file_name" §"a"]) (by decide) (by decide +kernel)
  · refine .mk (a := [elem [fld §"url" §"u", fld §"file_name" §"a"]]) (m := elem [fld §"svn_url" §"s", fld §"git_rev" §"r"])
      rfl rfl rfl rfl ⟨⟨rfl, rfl, rfl, by decide⟩, by decide, ?_⟩
    refine ⟨[fld §"svn_url" §"s", fld §"rev" §"r"], ?_, ⟨by decide, by decide, ?_⟩, rfl, rfl, rfl, by decide⟩
    · refine .cons (.absent (by decide)) (.cons (.absent (by decide)) (.cons (.absent (by decide)) (.cons (.absent (by decide))
        (.cons (.moved (ks1 := [fld §"svn_url" §"s"]) (v := .str §"r") ?_ ?_ ⟨rfl, rfl, rfl, by decide⟩ ⟨rfl, rfl, rfl, by decide⟩)
        (.cons (.absent (by decide)) (.nil _))))))
      · exact .mk (pre := [fld §"svn_url" §"s"]) (k := fld §"git_rev" §"r") rfl ⟨rfl, by decide⟩ (by decide) (by decide +kernel) (by decide)
      · exact .append (ns := [fld §"rev" §"r"]) (by decide) (by decide +kernel)
    · intro k
      have h1 : placeIn [§"url", §"sha256", §"md5", §"path", §"use_gitignore", §"git", §"branch", §"tag", §"rev", §"depth", §"lfs",
        §"target_directory", §"file_name", §"patches"] (fld §"rev" §"r") = 8 := by decide
      have h2 : placeIn [§"url", §"sha256", §"md5", §"path", §"use_gitignore", §"git", §"branch", §"tag", §"rev", §"depth", §"lfs",
        §"target_directory", §"file_name", §"patches"] (fld §"svn_url" §"s") = 14 := by decide
      simp only [List.filter, h1, h2]
      by_cases hk : (8 : Int) = k
      · subst hk; rfl
      · simp only [decide_eq_false hk]

example : ∃ c', upgradeSources Toy.env [§"/"] exSrc = (.ok (), c') ∧
    Became exSrc c' [] exSrcKeys' [(.warning, §"SVN packages are no longer supported in the V1 format")] :=
  C81_sources_partial (Or.inr rfl) exSrc_section exSrc_upgraded

example : ∃ c', upgradeRequirements Toy.env [§"/"] exSrc = (.ok (), c') ∧ Became exSrc c' []
    [pname, src [fld §"fn" §"a", fld §"url" §"u"] [fld §"svn_url" §"s", fld §"git_rev" §"r"], rcon §"run_constraints"] [] := by
  refine C81_requirements_partial (ks := exSrcKeys) (Or.inr rfl) exSrc_section (.present (.mk
    (a := [pname, src [fld §"fn" §"a", fld §"url" §"u"] [fld §"svn_url" §"s", fld §"git_rev" §"r"]])
    (m := rcon §"run_constrained") (cs := (rcon §"run_constraints").children) rfl ⟨rfl, by decide⟩ rfl ⟨?_, rfl⟩))
  refine .moved (ks1 := []) (v := .list [.str §"x", .str §"y"]) ?_ ?_ trivial trivial
  · exact .mk (pre := []) (k := kN §"run_constrained" [lN (.str §"x"), lN (.str §"y")]) rfl ⟨rfl, by decide⟩ (by decide)
      (by decide +kernel) (by decide)
  · exact .append (ns := [kN §"run_constraints" [lN (.str §"x"), lN (.str §"y")]]) (by decide) (by decide +kernel)

/-- A recipe with `script_env` and a licence that is written wrongly. -/
def exEnvText : Str :=
  §"build:\n  script: run\n  script_env:\n    - A\n    - B = c\n    - C=d=e\nabout:\n  license: Unlimited\n"

/-- The object that converts it. -/
def exEnv : Conv :=
  ⟨Toy.recipe (String.ofList exEnvText), Toy.recipe (String.ofList (Toy.recipe (String.ofList exEnvText)).render), []⟩

private def envs : Node := kN §"script_env" [lN (.str §"A"), lN (.str §"B = c"), lN (.str §"C=d=e")]
private def scr : Node :=
  kN §"script" [kN §"env" [fld §"B" §"c"], kN §"secrets" [lN (.str §"A")], fld §"content" §"run"]

example : ∃ c', upgradeScript Toy.env §"/build" exEnv = (.ok (), c') ∧
    Became exEnv c' [0] [scr] [(.error, §"Could not parse `C=d=e` found in /build/script_env")] := by
  refine C85_script_env_partial (comps := [§"build"]) (pos := [0]) (n := kN §"build" []) (ks := [fld §"script" §"run", envs])
    (by constructor <;> decide +kernel) ?_
  refine .moved (a := [scr]) (m := envs) (b := []) (xs := [.str §"A", .str §"B = c", .str §"C=d=e"])
    (es := [.secret (.str §"A"), .assign §"B" §"c", .message §"Could not parse `C=d=e` found in /build/script_env"])
    (script := some (.str §"run")) ?_ (by decide) ?_ ?_ ?_ (by decide) ⟨rfl, by decide⟩ (by decide) (by decide)
  · exact .present (a := [fld §"script" §"run"]) (m := envs) rfl ⟨rfl, by decide⟩ (by decide +kernel)
  · exact .cons (.secret (s := §"A") (by decide)) (.cons (.assign (a := §"B ") (b := §" c") (by decide) (by decide))
      (.cons (.unreadable (a := §"C") (b := §"d") (c := §"e")) .nil))
  · exact .present (a := []) (m := fld §"script" §"run") rfl ⟨rfl, by decide⟩ (by decide +kernel)
  · exact .into (a := []) (m := fld §"script" §"run") (b := [envs]) rfl ⟨rfl, by decide⟩ (by decide) (by decide +kernel)

example : ∃ c', fixLicense Toy.env exWorld §"/about" exEnv = (.ok (), c') ∧
    Became exEnv c' [1] [fld §"license" §"NOASSERTION"]
      [(.warning, §"Changed /about/license from `Unlimited` to `NOASSERTION`")] := by
  refine C86_licence_partial (comps := [§"about"]) (pos := [1]) (n := kN §"about" []) (ks := [fld §"license" §"Unlimited"])
    (by constructor <;> decide +kernel) rfl (by decide) (by decide) ?_
  exact .corrected (a := []) (m := fld §"license" §"Unlimited") (b := []) (old := §"Unlimited") (new := §"NOASSERTION") rfl ⟨rfl, by decide⟩ (by decide)
    (by decide +kernel) (by decide +kernel) (by decide) (by decide +kernel)

/-! ## What does not hold -/

/-- C81, the full statement fails: if `about` has both `home` and `homepage`, then the address under `homepage` is lost, and
nothing is reported. -/
theorem C81_homepage_lost : converted Toy.env exWorld §"about:\n  home: x\n  license: MIT\n  homepage: y\n" =
    .ok (§"schema_version: 1\n\nabout:\n  license: MIT\n  homepage: x\n", []) := by decide +kernel

/-- C81, the full statement fails: after a source that consists of `fn` only, an empty source appears, and the source after
it is not converted; nothing is reported. -/
theorem C81_source_skipped : converted Toy.env exWorld §"source:\n  - fn: a\n  - fn: b\n    url: c\n" =
    .ok (§"schema_version: 1\n\nsource:\n  - file_name: a\n  -\n  - fn: b\n    url: c\n", []) := by decide +kernel

/-- C85, the full statement fails: an entry of `script_env` that is a number is not reported but ends the conversion. -/
theorem C85_number_crash : converted Toy.env exWorld §"build:\n  script_env:\n    - 5\n    - A\n" = .error .attributeError := by
  decide +kernel

/-- C85, the full statement fails: a list of one number is read as a number, over which the conversion cannot iterate. -/
theorem C85_single_number_crash : converted Toy.env exWorld §"build:\n  script_env:\n    - 5\n" = .error .typeError := by
  decide +kernel

/-- C86, the full statement fails: a licence that is a number, or a list of licences, ends the conversion. -/
theorem C86_not_a_text_violation : converted Toy.env exWorld §"about:\n  license: 3\n" = .error .attributeError ∧
    converted Toy.env exWorld §"about:\n  license:\n    - MIT\n    - ISC\n" = .error .typeError :=
  ⟨by decide +kernel, by decide +kernel⟩

end Crm
