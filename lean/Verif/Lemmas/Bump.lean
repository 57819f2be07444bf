import Verif.Lemmas.Section
import Verif.Props.Bump

/-! # The edits of `bump-recipe` -/

namespace Crm
open Spec

theorem exitOnFailedPatch_ok {E : Env} {r r' : Recipe} {p : PyVal} :
    exitOnFailedPatch E r p = .ok r' ↔ r.patch E p = (.ok true, r') := by
  unfold exitOnFailedPatch
  constructor
  · intro h
    split at h
    · rename_i x hx; injection h with h; subst h; exact hx
    · cases h
    · cases h
  · intro h; rw [h]

theorem bind_ok {α β : Type} {x : Except Stop α} {f : α → Except Stop β} {b : β} :
    (x >>= f) = .ok b ↔ ∃ a, x = .ok a ∧ f a = .ok b := by
  cases x <;> simp [bind, Except.bind]

theorem orRaise_ok {α : Type} {x : Except PyErr α} {a : α} : orRaise x = .ok a ↔ x = .ok a := by
  cases x <;> simp [orRaise]

/-- Everything but the section `s` reads the same, and the old format stays the old format. -/
structure KeepsOthers (s : Str) (r r' : Recipe) : Prop where
  schema : r'.schema = r.schema
  sections : ∀ b bs, isDigitS b = false → b ≠ s → lookup r'.root (b :: bs) = lookup r.root (b :: bs)

theorem KeepsOthers.refl (s : Str) (r : Recipe) : KeepsOthers s r r := ⟨rfl, fun _ _ _ _ => rfl⟩

theorem KeepsOthers.trans {s : Str} {r r' r'' : Recipe} (h : KeepsOthers s r r') (h' : KeepsOthers s r' r'') :
    KeepsOthers s r r'' :=
  ⟨h'.schema.trans h.schema, fun b bs h1 h2 => (h'.sections b bs h1 h2).trans (h.sections b bs h1 h2)⟩

theorem setVariable_keeps (s : Str) (r : Recipe) (k : Str) (v : PyVal) : KeepsOthers s r (r.setVariable k v) :=
  ⟨rfl, fun _ _ _ _ => rfl⟩

theorem patch_keeps {E : Env} {r r' : Recipe} {op : Str} {v : PyVal} {s k : Str} {rest : List Str}
    (hc : ∀ c ∈ s :: k :: rest, Component c) (hop : op = §"add" ∨ op = §"replace") (hvs : v ≠ .sentinel)
    (hs : isDigitS s = false)
    (h : exitOnFailedPatch E r (valuePatch op (absPath (s :: k :: rest)) v) = .ok r') :
    KeepsOthers s r r' ∧ r'.vars = r.vars := by
  obtain ⟨⟨root', rfl⟩, hk⟩ := patch_section E r r' op v s k rest hc hop hvs hs (exitOnFailedPatch_ok.1 h)
  exact ⟨⟨rfl, hk⟩, rfl⟩

theorem comps_package : ∀ c ∈ [§"package", §"version"], Component c := by decide
theorem comps_build : ∀ c ∈ [§"build", §"number"], Component c := by decide

theorem updateVersion_keeps {E : Env} {r r' : Recipe} {t : Str} (h : updateVersion E r t = .ok r') :
    KeepsOthers §"package" r r' := by
  unfold updateVersion at h
  obtain ⟨old, _, h⟩ := bind_ok.1 h
  split at h
  · injection h with h; subst h; exact setVariable_keeps _ _ _ _
  · obtain ⟨b, _, h⟩ := bind_ok.1 h
    refine (patch_keeps (rest := []) comps_package ?_ (by simp) (by decide) h).1
    cases b <;> simp

theorem updateBuildNum_keeps {E : Env} {r r' : Recipe} {b : Bool} (h : updateBuildNum E r b = .ok r') :
    KeepsOthers §"build" r r' ∧ r'.vars = r.vars := by
  unfold updateBuildNum at h
  split at h
  · cases h
  · cases h
  · obtain ⟨p, _, h⟩ := bind_ok.1 h
    split at h
    · obtain ⟨v, _, h⟩ := bind_ok.1 h
      split at h
      · cases h
      · exact patch_keeps (rest := []) comps_build (by simp) (by simp) (by decide) h
    · exact patch_keeps (rest := []) comps_build (by simp) (by simp) (by decide) h

/-! ## Sources -/

/-- The paths of sources: `/source` itself, or an element of the list. -/
def sourceComps (comps : List Str) : Prop := comps = [§"source"] ∨ ∃ i : Nat, comps = [§"source", natStr i]

theorem fetchersGo_keys {schema : Schema} {name : Str} {count : Nat} {isList ignore : Bool} {i : Nat} {l : List PyVal}
    {acc tbl : List (Str × Fetcher)} (h : fetchersGo schema name count isList ignore i l acc = .ok tbl)
    (hacc : ∀ kv ∈ acc, ∃ comps, sourceComps comps ∧ kv.1 = absPath comps) :
    ∀ kv ∈ tbl, ∃ comps, sourceComps comps ∧ kv.1 = absPath comps := by
  induction l generalizing i acc with
  | nil => simp only [fetchersGo] at h; injection h with h; subst h; exact hacc
  | cons s l ih =>
    simp only [fetchersGo, bind, Except.bind] at h
    split at h
    · cases h
    · split at h
      · refine ih h ?_
        intro kv hkv
        rcases mem_insertD hkv with rfl | hkv
        · cases isList
          · exact ⟨_, Or.inl rfl, rfl⟩
          · exact ⟨_, Or.inr ⟨i, rfl⟩, by simp [absPath]⟩
        · exact hacc kv hkv
      · split at h
        · exact ih h hacc
        · cases h

theorem fetchersOf_keys {E : Env} {r : Recipe} {b : Bool} {tbl : List (Str × Fetcher)} (h : fetchersOf E r b = .ok tbl) :
    ∀ kv ∈ tbl, ∃ comps, sourceComps comps ∧ kv.1 = absPath comps := by
  unfold fetchersOf at h
  simp only [bind, Except.bind] at h
  split at h
  · cases h
  · split at h
    · cases h
    · split at h
      · exact fetchersGo_keys h (by simp)
      · exact fetchersGo_keys h (by simp)

theorem fetchersGo_nodup {schema : Schema} {name : Str} {count : Nat} {isList ignore : Bool} {i : Nat} {l : List PyVal}
    {acc tbl : List (Str × Fetcher)} (h : fetchersGo schema name count isList ignore i l acc = .ok tbl)
    (hacc : (acc.map (·.1)).Nodup) : (tbl.map (·.1)).Nodup := by
  induction l generalizing i acc with
  | nil => simp only [fetchersGo] at h; injection h with h; subst h; exact hacc
  | cons s l ih =>
    simp only [fetchersGo, bind, Except.bind] at h
    split at h
    · cases h
    · split at h
      · exact ih h (nodup_insertD _ _ _ hacc)
      · split at h
        · exact ih h hacc
        · cases h

theorem fetchersOf_nodup {E : Env} {r : Recipe} {b : Bool} {tbl : List (Str × Fetcher)} (h : fetchersOf E r b = .ok tbl) :
    (tbl.map (·.1)).Nodup := by
  unfold fetchersOf at h
  simp only [bind, Except.bind] at h
  split at h
  · cases h
  · split at h
    · cases h
    · split at h
      · exact fetchersGo_nodup h (by simp)
      · exact fetchersGo_nodup h (by simp)

theorem urlOf_mem : ∀ {tbl : List (Str × Fetcher)} {p name url : Str}, (tbl.map (·.1)).Nodup → (p, .http name url) ∈ tbl →
    urlOf tbl p = url
  | (k, v) :: tbl, p, name, url, hn, hm => by
    simp only [List.map_cons, List.nodup_cons] at hn
    rcases List.mem_cons.1 hm with he | hm
    · injection he with h1 h2
      subst h1; subst h2
      simp [urlOf, lookupD]
    · have hne : k ≠ p := by rintro rfl; exact hn.1 (List.mem_map_of_mem (f := (·.1)) hm)
      have := urlOf_mem hn.2 hm
      unfold urlOf at this ⊢
      rw [lookupD, if_neg hne]
      exact this

/-- The attempts met by the fetcher of a source are those for its URL. -/
theorem requests_mem {E : Env} {r : Recipe} {b : Bool} {tbl : List (Str × Fetcher)} {net : Network} {p name url : Str}
    (h : fetchersOf E r b = .ok tbl) (hm : (p, .http name url) ∈ tbl) : requests net tbl p = net p url := by
  unfold requests
  rw [urlOf_mem (fetchersOf_nodup h) hm]

theorem httpPaths_mem {tbl : List (Str × Fetcher)} {p : Str} : p ∈ httpPaths tbl ↔ ∃ name url, (p, .http name url) ∈ tbl := by
  unfold httpPaths
  rw [List.mem_filterMap]
  constructor
  · rintro ⟨⟨k, f⟩, h1, h2⟩
    cases f with
    | http name url => simp only [Option.some.injEq] at h2; subst h2; exact ⟨name, url, h1⟩
    | git => cases h2
  · rintro ⟨name, url, h⟩
    exact ⟨_, h, rfl⟩

theorem httpPaths_keys {E : Env} {r : Recipe} {b : Bool} {tbl : List (Str × Fetcher)} (h : fetchersOf E r b = .ok tbl) :
    ∀ p ∈ httpPaths tbl, ∃ comps, sourceComps comps ∧ p = absPath comps := by
  intro p hp
  unfold httpPaths at hp
  rw [List.mem_filterMap] at hp
  obtain ⟨kv, hkv, hx⟩ := hp
  obtain ⟨comps, h1, h2⟩ := fetchersOf_keys h kv hkv
  split at hx
  · injection hx with hx; exact ⟨comps, h1, hx ▸ h2⟩
  · cases hx

theorem appendSha {comps : List Str} (h : sourceComps comps) :
    Recipe.appendToPath (absPath comps) §"/sha256" = absPath (comps ++ [§"sha256"]) := by
  have hc : ∀ c ∈ comps, Component c := by
    rcases h with rfl | ⟨i, rfl⟩
    · decide
    · intro c hc
      simp only [List.mem_cons, List.not_mem_nil, or_false] at hc
      rcases hc with rfl | rfl
      · decide
      · exact ⟨natStr_ne_nil i, natStr_no_slash i⟩
  exact C65_join_absolute comps [§"sha256"] hc (by rcases h with rfl | ⟨i, rfl⟩ <;> simp) (by simp)

theorem shaComps {comps : List Str} (h : sourceComps comps) :
    (∀ c ∈ comps ++ [§"sha256"], Component c) ∧ ∃ k rest, comps ++ [§"sha256"] = §"source" :: k :: rest := by
  rcases h with rfl | ⟨i, rfl⟩
  · exact ⟨by decide, _, _, rfl⟩
  · refine ⟨?_, _, _, rfl⟩
    intro c hc
    simp only [List.cons_append, List.nil_append, List.mem_cons, List.not_mem_nil, or_false] at hc
    rcases hc with rfl | rfl | rfl
    · decide
    · exact ⟨natStr_ne_nil i, natStr_no_slash i⟩
    · decide

theorem patchShas_keeps {E : Env} {tbl : List (Str × Str)} {r r' : Recipe}
    (hk : ∀ kv ∈ tbl, ∃ comps, sourceComps comps ∧ kv.1 = absPath (comps ++ [§"sha256"]))
    (h : patchShas E tbl r = .ok r') : KeepsOthers §"source" r r' ∧ r'.vars = r.vars := by
  induction tbl generalizing r with
  | nil => injection h with h; subst h; exact ⟨KeepsOthers.refl _ _, rfl⟩
  | cons kv tbl ih =>
    obtain ⟨path, s⟩ := kv
    unfold patchShas at h
    obtain ⟨b, _, h⟩ := bind_ok.1 h
    obtain ⟨r1, h1, h2⟩ := bind_ok.1 h
    obtain ⟨comps, hcomps, hp⟩ := hk (path, s) (by simp)
    obtain ⟨hc, k, rest, he⟩ := shaComps hcomps
    simp only at hp
    rw [he] at hc hp
    subst hp
    obtain ⟨h3, h4⟩ := patch_keeps hc (by cases b <;> simp) (by simp) (by decide) h1
    obtain ⟨h5, h6⟩ := ih (fun kv hkv => hk kv (by simp [hkv])) h2
    exact ⟨h3.trans h5, h6.trans h4⟩

theorem collectShas_keys {sha : Str → Str} {net : Requests} {paths : List Str} {acc tbl : List (Str × Str)}
    (hp : ∀ p ∈ paths, ∃ comps, sourceComps comps ∧ p = absPath comps)
    (hacc : ∀ kv ∈ acc, ∃ comps, sourceComps comps ∧ kv.1 = absPath (comps ++ [§"sha256"]))
    (h : collectShas sha net paths acc = .ok tbl) :
    ∀ kv ∈ tbl, ∃ comps, sourceComps comps ∧ kv.1 = absPath (comps ++ [§"sha256"]) := by
  induction paths generalizing acc with
  | nil => injection h with h; subst h; exact hacc
  | cons p ps ih =>
    unfold collectShas at h
    obtain ⟨s, _, h⟩ := bind_ok.1 h
    refine ih (fun q hq => hp q (by simp [hq])) ?_ h
    intro kv hkv
    rcases mem_insertD hkv with rfl | hkv
    · obtain ⟨comps, h1, rfl⟩ := hp p (by simp)
      exact ⟨comps, h1, appendSha h1⟩
    · exact hacc kv hkv

theorem updateSha256_keeps {E : Env} {sha : Str → Str} {net : Network} {order : List Str → List Str} {r r' : Recipe}
    (hord : ∀ l, (order l).Perm l) (h : updateSha256 E sha net order r = .ok r') :
    KeepsOthers §"source" r r' ∧ lookupD §"version" r'.vars = lookupD §"version" r.vars := by
  unfold updateSha256 at h
  obtain ⟨tbl, ht, h⟩ := bind_ok.1 h
  rw [orRaise_ok] at ht
  split at h
  · injection h with h; subst h; exact ⟨KeepsOthers.refl _ _, rfl⟩
  · obtain ⟨o, ho, h⟩ := bind_ok.1 h
    split at h
    · rename_i r1
      injection h with h; subst h
      unfold checkHashVar at ho
      split at ho
      · rename_i hv _ _ _ hvars _
        split at ho
        · obtain ⟨s, _, ho⟩ := bind_ok.1 ho
          injection ho with ho; injection ho with ho; subst ho
          refine ⟨setVariable_keeps _ _ _ _, ?_⟩
          have hm : hv ∈ commonHashVars := by
            have : hv ∈ commonHashVars.filter (r.listVariables.contains ·) := by rw [hvars]; simp
            exact (List.mem_filter.1 this).1
          have hne : hv ≠ §"version" := by rintro rfl; exact absurd hm (by decide)
          simp only [Recipe.setVariable, lookupD_insertD]
          rw [if_neg (fun h => hne (by first | exact h | exact h.symm))]
        · cases ho
      · cases ho
    · obtain ⟨shas, hs, h⟩ := bind_ok.1 h
      obtain ⟨h1, h2⟩ := patchShas_keeps (collectShas_keys (fun p hp => httpPaths_keys ht p ((hord _).mem_iff.1 hp)) (by simp) hs) h
      exact ⟨h1, by rw [h2]⟩

end Crm
