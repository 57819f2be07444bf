import Verif.Spec.ConvWhole
import Verif.Lemmas.ConvSelectors
import Verif.Props.ConvPackage

/-! # Recipes with several outputs -/

namespace Crm
open Spec Act

variable {E : Env} {n : Node} {ks : List Node}

theorem each_two {α : Type} {f : α → Act Unit} (b : α) (bs : List α) (c : Conv) :
    each f (b :: bs) c = (each f [b] >>= fun _ => each f bs) c := each_append f [b] bs c

/-- One output, seen from the list of outputs. -/
theorem InSection.output {comps : List Str} {pos : Pos} {f : Str → Act Unit} {R : List Str → Step}
    (hR : ∀ {pos : Pos} {e : Node} {i : Nat} {cs cs' : List Node} {s : List (Category × Str)},
      Host (comps ++ [natStr i]) e cs → cs' ≠ [] → R (comps ++ [natStr i]) cs cs' s →
      InSection (comps ++ [natStr i]) pos e cs (each f [absPath (comps ++ [natStr i])]) () cs' s)
    (hh : ∀ ks, Host comps n ks) {i : Nat} {ks' : List Node} {says : List (Category × Str)}
    (h : AtElement i (fun e cs cs' s => ElementWithKeys e cs ∧ cs' ≠ [] ∧ R (comps ++ [natStr i]) cs cs' s) ks ks' says) :
    InSection comps pos n ks (each f [absPath (comps ++ [natStr i])]) () ks' says := by
  cases h with
  | mk hk hi _ _ hr =>
    obtain ⟨he, hne, hr⟩ := hr
    exact InSection.at hk (fun c hcs => hcs.element hk hi he) (hR (Or.inr he) hne hr) (hh _)

theorem InSection.eachOutput {pos : Pos} {f : Str → Act Unit} {R : List Str → Step}
    (hR : ∀ {pos : Pos} {e : Node} {i : Nat} {cs cs' : List Node} {s : List (Category × Str)},
      Host [§"outputs", natStr i] e cs → cs' ≠ [] → R [§"outputs", natStr i] cs cs' s →
      InSection [§"outputs", natStr i] pos e cs (each f [absPath [§"outputs", natStr i]]) () cs' s)
    (hh : ∀ ks, Host [§"outputs"] n ks) {i k : Nat} {ks' : List Node} {says : List (Category × Str)}
    (h : EachOutput R i k ks ks' says) :
    InSection [§"outputs"] pos n ks (each f ((List.range' i k).map fun i => absPath [§"outputs", natStr i])) () ks' says := by
  induction h with
  | done => exact InSection.each_nil _
  | step h1 _ ih =>
    rw [List.range'_succ, List.map_cons]
    refine InSection.ofEq (each_two _ _) ?_
    exact InSection.bind (x := ()) (InSection.output (comps := [§"outputs"]) (R := R) hR hh h1) ih

theorem output_path (i : Nat) : §"/outputs/" ++ natStr i = absPath [§"outputs", natStr i] := by
  simp [absPath]

/-- One method, applied to all packages of a recipe. -/
theorem InSection.packages {f : Str → Act Unit} {R : List Str → Step} {count : Nat}
    (hR : ∀ {base : Str} {comps : List Str} {pos : Pos} {e : Node} {cs cs' : List Node} {s : List (Category × Str)},
      (base = absPath comps ∨ base = absPath comps ++ §"/") → (∀ c ∈ comps, Component c) →
      Host comps e cs → R comps cs cs' s → InSection comps pos e cs (each f [base]) () cs' s)
    {ks' : List Node} {says : List (Category × Str)} (h : Packages R count ks ks' says) :
    InSection [] [] n ks (each f (§"/" :: (List.range count).map fun i => §"/outputs/" ++ natStr i)) () ks' says := by
  cases h with
  | mk h1 h2 =>
    refine InSection.ofEq (each_two _ _) ?_
    refine InSection.bind (x := ()) (fun c hc => hR (Or.inr rfl) (by simp) hc.host h1 c hc) ?_
    cases h2 with
    | none h0 => subst h0; exact InSection.each_nil _
    | some h0 hb =>
      cases hb with
      | mk hk hf hkey he =>
        have hx : KeyName §"outputs" := by decide
        have hn := host_named (comps := []) hx hkey hf.named
        simp only [output_path]
        rw [List.range_eq_range']
        intro c hc
        refine InSection.below hx hk hf hkey (InSection.eachOutput ?_ hn he) (hc.host.keep (by simp)) c hc
        intro pos e i cs cs' s hh hne hr
        exact hR (Or.inl rfl) (by
          intro y hy
          simp only [List.mem_cons, List.not_mem_nil, or_false] at hy
          rcases hy with rfl | rfl
          · exact hx.1
          · exact natStr_comp i) hh hr

/-! ## The paths of the packages -/

theorem packagePaths_in_section {count : Nat} (h : OutputCount E ks count) :
    InSection [] [] n ks (ask (·.getPackagePaths E)) (§"/" :: (List.range count).map fun i => §"/outputs/" ++ natStr i) ks [] := by
  have hx : KeyName §"outputs" := by decide
  refine InSection.askOk fun c hc => ?_
  unfold Recipe.getPackagePaths
  cases h with
  | none ha =>
    have := hc.valueAbsent E hx ha (.list [])
    rw [show absPath ([] ++ [§"outputs"]) = §"/outputs" from rfl] at this
    rw [this]
    rfl
  | list hv =>
    cases hv with
    | present h1 h2 h3 =>
      have := (hc.value E hx h1 h2 (some (.list []))).trans h3
      rw [show absPath ([] ++ [§"outputs"]) = §"/outputs" from rfl] at this
      rw [this]
      rfl

/-! ## Outputs -/

variable {comps : List Str} {pos : Pos}

theorem into_kept {base oldExt newExt old g new : Str} (hold : KeyName old) (hg : KeyName g) (hnew : KeyName new)
    (hne : old ≠ g) (hb : base = absPath comps ∨ base = absPath comps ++ §"/") (he : oldExt = '/' :: old)
    (he' : newExt = '/' :: g ++ '/' :: new) (hc : ∀ c ∈ comps, Component c) {ks' : List Node}
    (hr : MovedInto E old g new ks ks') : InSection comps pos n ks (patchMoveBase E base oldExt newExt) () ks' [] := by
  refine InSection.withHost fun hh => ?_
  unfold patchMoveBase
  rw [path_key hc hold.1 hb (Or.inl he), path_two hc hg.1 hnew.1 hb he']
  cases hr with
  | absent ha => exact InSection.bind0 (InSection.noKey hold ha) (InSection.pure ())
  | moved ht hp =>
    obtain ⟨pre, k, post, hk, hf⟩ := ht.split
    refine InSection.bind0 (InSection.key hold hk hf) ?_
    cases hp with
    | mk h1 h2 h3 h4 =>
      subst h1
      exact (InSection.patched (hh.keep (by simp)) fun c hc =>
        hc.moveBelow E hold hg hnew hne ht h2 h3 h4.1 (hh.keep (by simp))).void

theorem ordered_ne_nil {names : List Str} {ks ks' : List Node} (h : Ordered names ks ks') (hne : ks' ≠ []) : ks ≠ [] := by
  rintro rfl
  exact hne h.perm.eq_nil

theorem Spec.Ensured.weaken {ok ok' : List Node → Prop} (h : ∀ ks, ok ks → ok' ks) {g : Str} {ks ks' : List Node}
    (hr : Ensured E ok g ks ks') : Ensured E ok' g ks ks' := by
  cases hr with
  | there ha => exact .there ha
  | added h1 h2 h3 => exact .added h1 h2 (h _ h3)

theorem output_in_section (hc : ∀ c ∈ comps, Component c) (hne : comps ≠ []) {ks' : List Node} (hne' : ks' ≠ [])
    (hr : OutputUpgraded E ks ks') : InSection comps pos n ks (each (upgradeOutput E) [absPath comps]) () ks' [] := by
  refine InSection.withHost fun hh => InSection.each_one ?_
  have h1 : KeyName §"name" := by decide
  have h2 : KeyName §"version" := by decide
  have h3 : KeyName §"package" := by decide
  have hroot : absPath comps ≠ §"/" := by
    cases comps with
    | nil => exact absurd rfl hne
    | cons x xs =>
      have := (hc x (by simp)).1
      cases x with
      | nil => exact absurd rfl this
      | cons y ys => simp [absPath]
  have sort : ∀ {k : List Node}, Ordered topSections k ks' →
      InSection comps pos n k (sortKeys (absPath comps) topLevelOrder) () ks' [] := fun {k} ho =>
    sort_in_section (C32_tables_small topLevelOrder (by simp)).1 (C32_tables_small topLevelOrder (by simp)).2.2 (by decide) hne ho
      (hh.keep hne')
  unfold upgradeOutput
  rw [if_pos hroot, path_key hc h1.1 (Or.inl rfl) (Or.inl rfl), path_key hc h2.1 (Or.inl rfl) (Or.inl rfl)]
  have nm : ∀ {k k' : List Node}, MovedInto E §"name" §"package" §"name" k k' →
      InSection comps pos n k (patchMoveBase E (absPath comps) §"/name" §"/package/name") () k' [] := fun h =>
    into_kept h1 h3 h1 (by decide) (Or.inl rfl) rfl (by decide) hc h
  have vs : ∀ {k k' : List Node}, MovedInto E §"version" §"package" §"version" k k' →
      InSection comps pos n k (patchMoveBase E (absPath comps) §"/version" §"/package/version") () k' [] := fun h =>
    into_kept h2 h3 h2 (by decide) (Or.inl rfl) rfl (by decide) hc h
  cases hr with
  | plain ha hb ho =>
    refine InSection.bind0 (InSection.noKey h1 ha) ?_
    refine InSection.bind0 (InSection.noKey h2 hb) ?_
    refine InSection.bind (s1 := []) (nm (.absent ha)) ?_
    exact InSection.bind (s1 := []) (vs (.absent hb)) (sort ho)
  | packaged hab he hm hv ho =>
    have rest2 := InSection.bind (s1 := []) (f := fun _ => sortKeys (absPath comps) topLevelOrder) (vs hv) (sort ho)
    have rest := InSection.bind (s1 := []) (f := fun _ => patchMoveBase E (absPath comps) §"/version" §"/package/version" >>=
      fun _ => sortKeys (absPath comps) topLevelOrder) (nm hm) rest2
    have ens := ensure_in_section (pos := pos) (E := E) (base := absPath comps) (ext := §"/package") (n := n) h3 (Or.inl rfl) (Or.inl rfl) hc
      (he.weaken fun _ h => hh.keep h)
    by_cases ha : Absent §"name" ks
    · have hb : ¬ Absent §"version" ks := fun hb => hab ⟨ha, hb⟩
      refine InSection.bind0 (InSection.noKey h1 ha) ?_
      refine InSection.bind0 (has_of_not_absent h2 hb) ?_
      exact InSection.bind (s1 := []) ens rest
    · refine InSection.bind0 (has_of_not_absent h1 ha) ?_
      exact InSection.bind (s1 := []) ens rest

theorem outputs_in_recipe {count : Nat} {ks' : List Node} (hr : OutputsUpgraded E count ks ks') :
    InSection [] [] n ks (upgradeOutputs E (§"/" :: (List.range count).map fun i => §"/outputs/" ++ natStr i)) () ks' [] := by
  refine InSection.withHost fun hh => ?_
  have hx : KeyName §"outputs" := by decide
  have hp : §"/outputs" = absPath ([] ++ [§"outputs"]) := by decide
  unfold upgradeOutputs
  rw [hp]
  cases hr with
  | without ha => exact InSection.bind0 (InSection.noKey hx ha) (InSection.pure ())
  | «with» ha hren ho =>
    refine InSection.bind0 (has_of_not_absent hx ha) ?_
    refine InSection.bind (s1 := []) (rename_in_section (comps := []) (old := §"package") (new := §"recipe") (by decide) (by decide) (by decide)
      (Or.inr rfl) (Or.inl rfl) (Or.inl rfl) (hren.weaken fun _ h => hh.keep h) (by simp)) ?_
    refine InSection.ofEq (each_two _ _) ?_
    refine InSection.bind (s1 := []) (x := ()) (InSection.each_one (InSection.pure ())) ?_
    cases ho with
    | none h0 => subst h0; exact InSection.each_nil _
    | some h0 hb =>
      cases hb with
      | mk hk hf hkey he =>
        have hn := host_named (comps := []) hx hkey hf.named
        simp only [output_path]
        rw [List.range_eq_range']
        intro c hc
        refine InSection.below hx hk hf hkey (InSection.eachOutput ?_ hn he) (hc.host.keep (by simp)) c hc
        intro pos e i cs cs' s _ hne hr
        obtain ⟨hr, rfl⟩ := hr
        refine output_in_section ?_ (by simp) hne hr
        intro y hy
        simp only [List.mem_cons, List.not_mem_nil, or_false] at hy
        rcases hy with rfl | rfl
        · exact hx.1
        · exact natStr_comp i

theorem inKey_quiet {name : Str} {R : List Node → List Node → Prop} {ks ks' : List Node} {says : List (Category × Str)}
    (h : InKey name (quiet R) ks ks' says) : says = [] := by
  cases h with
  | absent => rfl
  | present h => cases h with | mk _ _ _ h => exact h.2

theorem sections_in_recipe {W : ConvWorld} {count : Nat} {ks' : List Node} {says : List (Category × Str)}
    (hr : SectionsUpgraded E (findLicense W.close W.db) count ks ks' says) {K : Act Unit} {ks2 : List Node} {s : List (Category × Str)}
    (hK : InSection [] [] n ks' K () ks2 s) {paths : List Str}
    (hp : paths = §"/" :: (List.range count).map fun i => §"/outputs/" ++ natStr i) :
    InSection [] [] n ks (do
      correctMisspellings E paths
      upgradeSources E paths
      upgradeBuild E paths
      upgradeRequirements E paths
      upgradeAbout E W paths
      upgradeTests E paths
      K : Act Unit) () ks2 (says ++ s) := by
  subst hp
  cases hr with
  | @mk k1 k2 k3 k4 k5 s1 s2 s3 s4 s5 s6 h1 h2 h3 h4 h5 h6 =>
    have : s1 ++ s2 ++ s3 ++ s4 ++ s5 ++ s6 ++ s = s1 ++ (s2 ++ (s3 ++ (s4 ++ (s5 ++ (s6 ++ s))))) := by simp
    rw [this]
    refine InSection.bind (x := ()) (InSection.packages (fun hb hc hh hr => ?_) h1) ?_
    · obtain ⟨hr, rfl⟩ := hr; exact spelling_in_package hb hc hh hr
    refine InSection.bind (x := ()) (InSection.packages (fun hb hc hh hr => sources_in_section hb hc hh hr) h2) ?_
    refine InSection.bind (x := ()) (InSection.packages (fun hb hc hh hr => buildMoved_in_package hb hc hh hr) h3) ?_
    refine InSection.bind (x := ()) (InSection.packages (fun hb hc hh hr => ?_) h4) ?_
    · obtain rfl := inKey_quiet hr; exact requirements_in_package hb hc hh hr
    refine InSection.bind (x := ()) (InSection.packages (fun hb hc hh hr => about_in_package hb hc hh hr) h5) ?_
    refine InSection.bind (x := ()) (InSection.packages (fun hb hc hh hr => ?_) h6) hK
    obtain ⟨hr, rfl⟩ := hr; exact tests_in_package hb hc hh hr

end Crm
