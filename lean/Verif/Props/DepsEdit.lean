import Verif.Props.Deps
import Verif.Props.PatchEdit

/-!
# Adding and removing dependencies (C37)
-/

namespace Crm
open Spec

/-! ## Helper lemmas -/

theorem section_ne_nil {s : Str} (h : (strToDepSection s).isSome = true) : s ≠ [] := by
  rintro rfl; revert h; decide

theorem isDigitS_component {i : Str} (h : isDigitS i = true) : Component i := by
  unfold isDigitS at h
  simp only [Bool.and_eq_true, Bool.not_eq_true', List.isEmpty_eq_false_iff, List.all_eq_true] at h
  exact ⟨h.1, fun hm => absurd (h.2 _ hm) (by decide)⟩

theorem Spec.SectionPath.components {comps : List Str} (h : SectionPath comps) : ∀ c ∈ comps, Component c := by
  obtain ⟨s, h1, h2, rfl | ⟨o, h3, rfl⟩⟩ := h
  · intro c hc
    simp only [List.mem_cons, List.not_mem_nil, or_false] at hc
    rcases hc with rfl | rfl
    · decide
    · exact ⟨section_ne_nil h1, h2⟩
  · intro c hc
    simp only [List.mem_cons, List.not_mem_nil, or_false] at hc
    rcases hc with rfl | rfl | rfl | rfl
    · decide
    · exact isDigitS_component h3
    · decide
    · exact ⟨section_ne_nil h1, h2⟩

theorem lower_digit {c : Char} (h : isDigitC c = true) : c.toLower = c := by
  unfold isDigitC at h
  simp only [Bool.and_eq_true, decide_eq_true_eq] at h
  unfold Char.toLower
  split
  · rename_i hu
    have h1 := h.2
    have h2 := hu.1
    simp only [Char.le_def] at h1 
    exact absurd (UInt32.le_trans h2 h1) (by decide)
  · rfl

theorem Spec.SectionPath.not_number {comps : List Str} (h : SectionPath comps) : endsInNumber comps = false := by
  have key : ∀ s : Str, (strToDepSection s).isSome = true → isDigitS s = false := by
    intro s hs
    cases hd : isDigitS s with
    | false => rfl
    | true =>
      exfalso
      obtain ⟨x, hx⟩ := Option.isSome_iff_exists.1 hs
      obtain ⟨schema, he⟩ := (C34_converts_iff s x).1 hx
      have hall : ∀ c ∈ lowerS (strip s), isDigitC c = true := by
        intro c hc
        unfold lowerS at hc
        rw [List.mem_map] at hc
        obtain ⟨d, hd', rfl⟩ := hc
        obtain ⟨a, b, hs', _⟩ := strip_decomp s
        have : isDigitC d = true := by
          unfold isDigitS at hd
          simp only [Bool.and_eq_true, List.all_eq_true] at hd
          exact hd.2 d (by rw [hs']; simp [hd'])
        rw [lower_digit this]; exact this
      rw [he] at hall
      revert hall
      cases x <;> cases schema <;> decide
  obtain ⟨s, h1, h2, rfl | ⟨o, h3, rfl⟩⟩ := h <;> simp [endsInNumber, key s h1]

theorem rsplit_base (init : List Str) (i : Str) (hi : '/' ∉ i) : rsplitSlash (absPath (init ++ [i])) = absPath init := by
  have h1 : absPath (init ++ [i]) = absPath init ++ '/' :: i := by simp [absPath]
  rw [h1]
  unfold rsplitSlash
  have h2 : (absPath init ++ '/' :: i).contains '/' = true := by simp
  rw [if_pos h2]
  have h3 : (absPath init ++ '/' :: i).reverse = i.reverse ++ '/' :: (absPath init).reverse := by simp
  rw [h3, List.dropWhile_append_of_pos]
  · simp [List.dropWhile_cons]
  · intro c hc
    simp only [List.mem_reverse] at hc
    simp only [bne_iff_ne, ne_eq]
    rintro rfl; exact hi hc

theorem isPatch_mk (op path : Str) (v : PyVal) (hop : op = §"add" ∨ op = §"replace") (hpath : path ≠ [])
    (hv : v ≠ .sentinel) :
    IsPatch (.dict [(§"op", .str op), (§"path", .str path), (§"value", v)]) op path := by
  have f1 : field (.dict [(§"op", .str op), (§"path", .str path), (§"value", v)]) §"op" = some (.str op) := by
    simp [field, lookupD]
  have f2 : field (.dict [(§"op", .str op), (§"path", .str path), (§"value", v)]) §"path" = some (.str path) := by
    simp [field, lookupD]
  have f3 : field (.dict [(§"op", .str op), (§"path", .str path), (§"value", v)]) §"value" = some v := by
    simp [field, lookupD]
  have f4 : field (.dict [(§"op", .str op), (§"path", .str path), (§"value", v)]) §"from" = none := by
    simp [field, lookupD]
  refine ⟨⟨⟨_, rfl, ?_⟩, ?_, ⟨path, hpath, f2⟩, ?_, ?_, ?_, ?_⟩, f1, f2⟩
  · intro kv hkv
    simp only [List.mem_cons, List.not_mem_nil, or_false] at hkv
    rcases hkv with rfl | rfl | rfl <;> simp
  · refine ⟨op, ?_, f1⟩
    rcases hop with rfl | rfl <;> simp
  · intro o _ _; rw [f3]; rfl
  · intro o ho hf
    rw [f1] at hf
    simp only [Option.some.injEq, PyVal.str.injEq] at hf
    subst hf
    rcases hop with rfl | rfl <;> simp at ho
  · intro w hw; rw [f4] at hw; cases hw
  · rw [f3]; simp [hv]

/-! ## C37: which paths are accepted -/

theorem absPath_split (comps : List Str) (hne : comps ≠ []) (hc : ∀ c ∈ comps, '/' ∉ c) :
    splitChar '/' (absPath comps) = [] :: comps := by
  have hj : absPath comps = joinStr §"/" ([] :: comps) := by
    rw [absPath_eq_join comps hne, joinStr_cons _ [] _ hne]
  rw [hj, splitChar_join '/' _ (by simp)]
  intro p hp
  rcases List.mem_cons.1 hp with rfl | hp
  · simp
  · exact hc p hp

theorem split_absPath {path : Str} {comps : List Str} (h : splitChar '/' path = [] :: comps) (hne : comps ≠ []) :
    path = absPath comps ∧ ∀ c ∈ comps, '/' ∉ c := by
  constructor
  · have := join_splitChar '/' path
    rw [h] at this
    rw [← this, absPath_eq_join comps hne, joinStr_cons _ [] _ hne]
  · intro c hc
    exact splitChar_no_sep '/' path c (by rw [h]; simp [hc])

/-- C37: `add_dependency` accepts exactly the paths of an index in a known section of the recipe or of an output. -/
theorem C37_valid_path_iff (path : Str) : isValidDependencyPath path = true ↔ DependencyPath path := by
  constructor
  · intro h
    unfold isValidDependencyPath at h
    split at h
    · rename_i a b c d hs
      simp only [Bool.and_eq_true, decide_eq_true_eq] at h
      obtain ⟨⟨⟨rfl, rfl⟩, h3⟩, h4⟩ := h
      obtain ⟨rfl, hc⟩ := split_absPath hs (by simp)
      exact ⟨[§"requirements", c], d, ⟨c, h3, hc c (by simp), Or.inl rfl⟩, h4, rfl⟩
    · rename_i a b c d e f hs
      simp only [Bool.and_eq_true, decide_eq_true_eq] at h
      obtain ⟨⟨⟨⟨⟨rfl, rfl⟩, h3⟩, rfl⟩, h5⟩, h6⟩ := h
      obtain ⟨rfl, hc⟩ := split_absPath hs (by simp)
      exact ⟨[§"outputs", c, §"requirements", e], f, ⟨e, h5, hc e (by simp), Or.inr ⟨c, h3, rfl⟩⟩, h6, rfl⟩
    · cases h
  · rintro ⟨comps, i, hs, hi, rfl⟩
    have hall : ∀ c ∈ comps ++ [i], '/' ∉ c := by
      intro c hc
      rcases List.mem_append.1 hc with hc | hc
      · exact (hs.components c hc).2
      · simp only [List.mem_singleton] at hc; subst hc; exact (isDigitS_component hi).2
    unfold isValidDependencyPath
    rw [absPath_split _ (by simp) hall]
    obtain ⟨s, h1, h2, rfl | ⟨o, h3, rfl⟩⟩ := hs
    · simp [h1, hi]
    · simp [h1, hi, h3]

/-- C37: any other path is refused, whatever the modes, and nothing changes. -/
theorem C37_invalid_path (E : Env) (M : Str → Option Str) (r : Recipe) (dep : Dep) (mode : DepMode) (selMode : SelMode)
    (h : ¬ DependencyPath dep.path) : r.addDependency E M dep mode selMode = (.ok false, r) := by
  unfold Recipe.addDependency
  have : isValidDependencyPath dep.path = false := by
    cases hv : isValidDependencyPath dep.path with
    | false => rfl
    | true => exact absurd ((C37_valid_path_iff _).1 hv) h
  simp [this]

theorem addDependency_eq (E : Env) (M : Str → Option Str) (r : Recipe) (dep : Dep) (mode : DepMode) (selMode : SelMode)
    {comps : List Str} {i : Str} (hs : SectionPath comps) (hi : isDigitS i = true) (hp : dep.path = absPath (comps ++ [i])) :
    r.addDependency E M dep mode selMode = r.addDependencyAt E M dep mode selMode (absPath comps) := by
  unfold Recipe.addDependency
  have hv : isValidDependencyPath dep.path = true := (C37_valid_path_iff _).2 ⟨comps, i, hs, hi, hp⟩
  rw [if_neg (by simp [hv]), hp, rsplit_base comps i (isDigitS_component hi).2]

/-- C37: if the recipe has neither the section nor the `requirements` it belongs to, nothing happens. -/
theorem C37_no_requirements (E : Env) (M : Str → Option Str) (r : Recipe) (dep : Dep) (mode : DepMode) (selMode : SelMode)
    (comps : List Str) (i : Str) (hs : SectionPath comps) (hi : isDigitS i = true)
    (hp : dep.path = absPath (comps ++ [i])) (h1 : r.containsValue (absPath comps) = .ok false)
    (h2 : r.containsValue (absPath comps.dropLast) = .ok false) :
    r.addDependency E M dep mode selMode = (.ok false, r) := by
  rw [addDependency_eq E M r dep mode selMode hs hi hp]
  have h3 : rsplitSlash (absPath comps) = absPath comps.dropLast := by
    obtain ⟨s, _, hx, rfl | ⟨o, _, rfl⟩⟩ := hs
    · exact rsplit_base [§"requirements"] s hx
    · exact rsplit_base [§"outputs", o, §"requirements"] s hx
  simp only [Recipe.addDependencyAt, Recipe.calcIsNewSection, h1, h3, h2, bind, Except.bind, Bool.not_false, if_true]

theorem firstNamed_none_iff (M : Str → Option Str) (name : Str) (xs : List PyVal) (k : Nat) (ht : textItems xs)
    (hn : ∀ x ∈ xs, ¬ named M name x) : firstNamed M name k xs = .ok none := by
  induction xs generalizing k with
  | nil => rfl
  | cons x rest ih =>
    have ih' := ih (k + 1) (fun y hy => ht y (by simp [hy])) fun y hy => hn y (by simp [hy])
    unfold firstNamed
    rcases ht x (by simp) with rfl | ⟨t, rfl⟩
    · simp only [sanitizeDep, bind, Except.bind]; exact ih'
    · simp only [sanitizeDep, bind, Except.bind]
      by_cases h : strip t = []
      · simp only [h, if_true]; exact ih'
      · simp only [if_neg h]
        rw [if_neg fun he => hn (.str t) (by simp) ⟨t, rfl, h, he⟩]
        exact ih'

theorem firstNamed_some (M : Str → Option Str) (name : Str) (pre : List PyVal) (x : PyVal) (post : List PyVal) (k : Nat)
    (ht : textItems pre) (hn : ∀ y ∈ pre, ¬ named M name y) (hx : named M name x) :
    firstNamed M name k (pre ++ x :: post) = .ok (some (k + pre.length)) := by
  induction pre generalizing k with
  | nil =>
    obtain ⟨t, rfl, h1, h2⟩ := hx
    simp only [List.nil_append]
    unfold firstNamed
    simp only [sanitizeDep, bind, Except.bind, if_neg h1, if_pos h2]
    rfl
  | cons y pre ih =>
    have ih' := ih (k + 1) (fun z hz => ht z (by simp [hz])) fun z hz => hn z (by simp [hz])
    have hk : k + (y :: pre).length = k + 1 + pre.length := by simp; omega
    rw [List.cons_append, hk]
    unfold firstNamed
    rcases ht y (by simp) with rfl | ⟨t, rfl⟩
    · simp only [sanitizeDep, bind, Except.bind]; exact ih'
    · simp only [sanitizeDep, bind, Except.bind]
      by_cases h : strip t = []
      · simp only [h, if_true]; exact ih'
      · simp only [if_neg h]
        rw [if_neg fun he => hn (.str t) (by simp) ⟨t, rfl, h, he⟩]
        exact ih'

theorem calcIsNew_old {r : Recipe} {base : Str} (h : r.containsValue base = .ok true) :
    r.calcIsNewSection base = .ok (some false) := by
  simp [Recipe.calcIsNewSection, h, bind, Except.bind]

theorem calcIsNew_new {r : Recipe} {comps : List Str} (hs : SectionPath comps)
    (h : r.containsValue (absPath comps) = .ok false) (h2 : r.containsValue (absPath comps.dropLast) = .ok true) :
    r.calcIsNewSection (absPath comps) = .ok (some true) := by
  have h3 : rsplitSlash (absPath comps) = absPath comps.dropLast := by
    obtain ⟨s, _, hx, rfl | ⟨o, _, rfl⟩⟩ := hs
    · exact rsplit_base [§"requirements"] s hx
    · exact rsplit_base [§"outputs", o, §"requirements"] s hx
  simp [Recipe.calcIsNewSection, h, h2, h3, bind, Except.bind]

theorem findDuplicate_none {M : Str → Option Str} {dep : Dep} {mode : DepMode} {items : List PyVal}
    (h : mode = .useBoth ∨ mode = .exactPosition ∨ textItems items ∧ ∀ x ∈ items, ¬ named M dep.data.name x) :
    Recipe.findDuplicate M dep mode (.list items) = .ok none := by
  unfold Recipe.findDuplicate
  rcases h with rfl | rfl | ⟨h1, h2⟩
  · simp
  · simp
  · by_cases hm : mode = .useBoth ∨ mode = .exactPosition
    · rw [if_pos hm]
    · rw [if_neg hm]; exact firstNamed_none_iff M _ _ 0 h1 h2

theorem applyAddDep_plain (E : Env) (r : Recipe) (dep : Dep) (op path base : Str) (mode : SelMode) (isNew : Bool)
    (hsel : dep.selector = none) (h : op ≠ §"replace" ∨ mode = .replace ∨ r.getSelectorAtPath path = .error .keyError) :
    r.applyAddDep E dep op path base mode isNew =
      r.patch E (.dict [(§"op", .str op), (§"path", .str path),
        (§"value", if isNew then .list [.str dep.data.render] else .str dep.data.render)]) := by
  have hps : r.preservedSelector op path mode = .ok none := by
    unfold Recipe.preservedSelector
    rcases h with h | rfl | h
    · rw [if_neg fun hx => h hx.1]
    · rw [if_neg fun hx => hx.2 rfl]
    · split
      · rw [h]
      · rfl
  unfold Recipe.applyAddDep Recipe.patchAddDep
  rw [hps]
  simp only
  split
  · rename_i e r' h
    rcases hp : r.patch E (.dict [(§"op", .str op), (§"path", .str path),
        (§"value", if isNew then .list [.str dep.data.render] else .str dep.data.render)]) with ⟨o, r''⟩
    rw [hp] at h
    cases o <;> simp only [Prod.mk.injEq, reduceCtorEq, false_and, Except.error.injEq] at h
    rw [h.1, h.2]
  · rename_i r' h
    rcases hp : r.patch E (.dict [(§"op", .str op), (§"path", .str path),
        (§"value", if isNew then .list [.str dep.data.render] else .str dep.data.render)]) with ⟨o, r''⟩
    rw [hp] at h
    cases o <;> simp only [Prod.mk.injEq, reduceCtorEq, false_and, Except.ok.injEq] at h
    rw [h.1, h.2]
  · rename_i r' h
    rw [hsel]
    rcases hp : r.patch E (.dict [(§"op", .str op), (§"path", .str path),
        (§"value", if isNew then .list [.str dep.data.render] else .str dep.data.render)]) with ⟨o, r''⟩
    rw [hp] at h
    cases o <;> simp only [Prod.mk.injEq, reduceCtorEq, false_and, Except.ok.injEq] at h
    rw [h.1, h.2]

theorem contains_locate (r : Recipe) (comps : List Str) (hc : ∀ c ∈ comps, Component c) (hne : comps ≠ []) :
    r.containsValue (absPath comps) = .ok (locate r.root comps).isSome := by
  rw [C04_contains_iff_lookup r comps hc hne, ← locate_lookup]
  cases h : locate r.root comps with
  | none => rfl
  | some p => obtain ⟨m, hm⟩ := locate_valid h; simp [hm]

theorem Spec.SectionPath.ne_nil {comps : List Str} (h : SectionPath comps) : comps ≠ [] := by
  obtain ⟨s, _, _, rfl | ⟨o, _, rfl⟩⟩ := h <;> simp

theorem Spec.SectionPath.split {comps : List Str} (h : SectionPath comps) :
    ∃ init s, comps = init ++ [s] ∧ comps.dropLast = init ∧ init ≠ [] ∧ isDigitS s = false ∧ s ≠ §"-" ∧
      endsInNumber init = false := by
  have hn := h.not_number
  obtain ⟨s, h1, _, rfl | ⟨o, _, rfl⟩⟩ := h
  · exact ⟨[§"requirements"], s, rfl, rfl, by simp, by simpa [endsInNumber] using hn,
      by rintro rfl; revert h1; decide, by decide⟩
  · refine ⟨[§"outputs", o, §"requirements"], s, rfl, rfl, by simp, by simpa [endsInNumber] using hn,
      by rintro rfl; revert h1; decide, ?_⟩
    simp [endsInNumber]; decide

/-! ## C37: what the conflict modes do -/

/-- C37: to an existing section, `USE_BOTH` always, and `REPLACE` and `IGNORE` when no entry is for the same package,
append the text of the dependency: `add_dependency` is the patch that adds at `-`. -/
theorem C37_append (E : Env) (M : Str → Option Str) (r : Recipe) (dep : Dep) (mode : DepMode) (selMode : SelMode)
    (comps : List Str) (i : Str) (hs : SectionPath comps) (hi : isDigitS i = true)
    (hp : dep.path = absPath (comps ++ [i])) (hsel : dep.selector = none) (items : List PyVal)
    (hold : r.containsValue (absPath comps) = .ok true)
    (hcur : r.getValue E (absPath comps) (some (.list [])) true = .ok (.list items)) (hx : mode ≠ .exactPosition)
    (hn : mode = .useBoth ∨ textItems items ∧ ∀ x ∈ items, ¬ named M dep.data.name x) :
    r.addDependency E M dep mode selMode =
      r.patch E (mkPatch §"add" (absPath (comps ++ [§"-"])) [(§"value", .str dep.data.render)]) := by
  rw [addDependency_eq E M r dep mode selMode hs hi hp]
  unfold Recipe.addDependencyAt
  have hd : Recipe.findDuplicate M dep mode (.list items) = .ok none := findDuplicate_none (by
    rcases hn with h | h
    · exact Or.inl h
    · exact Or.inr (Or.inr h))
  simp only [calcIsNew_old hold, hcur, hd, if_neg hx, initPatchPath, Bool.false_eq_true, if_false]
  rw [applyAddDep_plain E r dep §"add" _ _ selMode false hsel (Or.inl (by decide))]
  have : absPath (comps ++ [§"-"]) = absPath comps ++ §"/-" := by simp [absPath]
  rw [this]
  rfl

/-- C37: `IGNORE` refuses a dependency if some entry of the section is for the same package. -/
theorem C37_ignore (E : Env) (M : Str → Option Str) (r : Recipe) (dep : Dep) (selMode : SelMode)
    (comps : List Str) (i : Str) (hs : SectionPath comps) (hi : isDigitS i = true)
    (hp : dep.path = absPath (comps ++ [i])) (items : List PyVal) (hold : r.containsValue (absPath comps) = .ok true)
    (hcur : r.getValue E (absPath comps) (some (.list [])) true = .ok (.list items)) (ht : textItems items)
    (hn : ∃ x ∈ items, named M dep.data.name x) :
    r.addDependency E M dep .ignore selMode = (.ok false, r) := by
  rw [addDependency_eq E M r dep .ignore selMode hs hi hp]
  unfold Recipe.addDependencyAt
  have hd : ∃ k, Recipe.findDuplicate M dep .ignore (.list items) = .ok (some k) := by
    have key : ∀ (l : List PyVal), (∃ x ∈ l, named M dep.data.name x) →
        ∃ pre x post, l = pre ++ x :: post ∧ (∀ y ∈ pre, ¬ named M dep.data.name y) ∧ named M dep.data.name x := by
      intro l
      induction l with
      | nil => rintro ⟨x, hx, _⟩; simp at hx
      | cons y l ih =>
        rintro ⟨x, hx, hnx⟩
        by_cases hy : named M dep.data.name y
        · exact ⟨[], y, l, rfl, by simp, hy⟩
        · rcases List.mem_cons.1 hx with rfl | hx
          · exact absurd hnx hy
          · obtain ⟨pre, z, post, rfl, h1, h2⟩ := ih ⟨x, hx, hnx⟩
            refine ⟨y :: pre, z, post, rfl, ?_, h2⟩
            intro w hw
            rcases List.mem_cons.1 hw with rfl | hw
            · exact hy
            · exact h1 w hw
    obtain ⟨pre, x, post, rfl, h1, h2⟩ := key items hn
    refine ⟨0 + pre.length, ?_⟩
    unfold Recipe.findDuplicate
    rw [if_neg (by simp)]
    exact firstNamed_some M _ pre x post 0 (fun y hy => ht y (by simp [hy])) h1 h2
  obtain ⟨k, hk⟩ := hd
  simp only [calcIsNew_old hold, hcur, hk, if_true]

/-- C37: `REPLACE` replaces the first entry for the same package. -/
theorem C37_replace (E : Env) (M : Str → Option Str) (r : Recipe) (dep : Dep) (selMode : SelMode)
    (comps : List Str) (i : Str) (hs : SectionPath comps) (hi : isDigitS i = true)
    (hp : dep.path = absPath (comps ++ [i])) (hsel : dep.selector = none) (pre : List PyVal) (x : PyVal)
    (post : List PyVal) (hold : r.containsValue (absPath comps) = .ok true)
    (hcur : r.getValue E (absPath comps) (some (.list [])) true = .ok (.list (pre ++ x :: post))) (ht : textItems pre)
    (hn : ∀ y ∈ pre, ¬ named M dep.data.name y) (hx : named M dep.data.name x)
    (hkeep : selMode = .replace ∨ r.getSelectorAtPath (absPath (comps ++ [natStr pre.length])) = .error .keyError) :
    r.addDependency E M dep .replace selMode =
      r.patch E (mkPatch §"replace" (absPath (comps ++ [natStr pre.length])) [(§"value", .str dep.data.render)]) := by
  rw [addDependency_eq E M r dep .replace selMode hs hi hp]
  unfold Recipe.addDependencyAt
  have hd : Recipe.findDuplicate M dep .replace (.list (pre ++ x :: post)) = .ok (some pre.length) := by
    unfold Recipe.findDuplicate
    rw [if_neg (by simp)]
    have := firstNamed_some M dep.data.name pre x post 0 ht hn hx
    rw [Nat.zero_add] at this
    exact this
  have ha : absPath (comps ++ [natStr pre.length]) = absPath comps ++ §"/" ++ natStr pre.length := by simp [absPath]
  rw [ha] at hkeep ⊢
  simp only [calcIsNew_old hold, hcur, hd]
  rw [if_neg (by simp), applyAddDep_plain E r dep §"replace" _ _ selMode false hsel (Or.inr hkeep)]
  rfl

/-- C37: `EXACT_POSITION` replaces whatever is at the path of the dependency. -/
theorem C37_exact (E : Env) (M : Str → Option Str) (r : Recipe) (dep : Dep) (selMode : SelMode)
    (comps : List Str) (i : Str) (hs : SectionPath comps) (hi : isDigitS i = true)
    (hp : dep.path = absPath (comps ++ [i])) (hsel : dep.selector = none) (items : List PyVal)
    (hold : r.containsValue (absPath comps) = .ok true)
    (hcur : r.getValue E (absPath comps) (some (.list [])) true = .ok (.list items))
    (hkeep : selMode = .replace ∨ r.getSelectorAtPath dep.path = .error .keyError) :
    r.addDependency E M dep .exactPosition selMode =
      r.patch E (mkPatch §"replace" dep.path [(§"value", .str dep.data.render)]) := by
  rw [addDependency_eq E M r dep .exactPosition selMode hs hi hp]
  unfold Recipe.addDependencyAt
  have hd : Recipe.findDuplicate M dep .exactPosition (.list items) = .ok none :=
    findDuplicate_none (Or.inr (Or.inl rfl))
  simp only [calcIsNew_old hold, hcur, hd, initPatchPath, if_true]
  rw [applyAddDep_plain E r dep §"replace" _ _ selMode false hsel (Or.inr hkeep)]
  rfl

/-- C37: a missing section is created with the dependency as its only entry, in every mode but `EXACT_POSITION`. -/
theorem C37_new_section_partial (E : Env) (M : Str → Option Str) (r : Recipe) (dep : Dep) (mode : DepMode) (selMode : SelMode)
    (comps : List Str) (i : Str) (hs : SectionPath comps) (hi : isDigitS i = true)
    (hp : dep.path = absPath (comps ++ [i])) (hsel : dep.selector = none) (hx : mode ≠ .exactPosition)
    (hnew : r.containsValue (absPath comps) = .ok false) (hreq : r.containsValue (absPath comps.dropLast) = .ok true) :
    r.addDependency E M dep mode selMode =
      r.patch E (mkPatch §"add" (absPath comps) [(§"value", .list [.str dep.data.render])]) := by
  rw [addDependency_eq E M r dep mode selMode hs hi hp]
  unfold Recipe.addDependencyAt
  have hd : Recipe.findDuplicate M dep mode (.list []) = .ok none :=
    findDuplicate_none (Or.inr (Or.inr ⟨fun _ h => by simp at h, by simp⟩))
  have hcur : r.getValue E (absPath comps) (some (.list [])) true = .ok (.list []) :=
    C04_default_missing E r _ _ _ hnew
  simp only [calcIsNew_new hs hnew hreq, hcur, hd, if_neg hx, initPatchPath, if_true]
  rw [applyAddDep_plain E r dep §"add" _ _ selMode true hsel (Or.inl (by decide))]
  rfl

/-! ## C37: the effect on the recipe -/

/-- C37: the effect of appending: one new entry with the text, behind all entries and comments of the section, and
nothing else. -/
theorem C37_appended (E : Env) (M : Str → Option Str) (r : Recipe) (dep : Dep) (mode : DepMode) (selMode : SelMode)
    (comps : List Str) (i : Str) (hs : SectionPath comps) (hi : isDigitS i = true)
    (hp : dep.path = absPath (comps ++ [i])) (hsel : dep.selector = none) (items : List PyVal)
    (pos : Pos) (m : Node) (new : List Node) (hl : locate r.root comps = some pos) (hm : nodeAt r.root pos = some m)
    (hb : bareValue m = false) (hg : newNodes E (.str dep.data.render) = .ok new)
    (hcur : r.getValue E (absPath comps) (some (.list [])) true = .ok (.list items)) (hx : mode ≠ .exactPosition)
    (hn : mode = .useBoth ∨ textItems items ∧ ∀ x ∈ items, ¬ named M dep.data.name x) :
    ∃ root', r.addDependency E M dep mode selMode = (.ok true, edited r root') ∧
      ChildrenChanged (Appended (new.map fun c => { c with listMember := true })) pos r.root root' := by
  have hold : r.containsValue (absPath comps) = .ok true := by
    rw [contains_locate r comps hs.components hs.ne_nil, hl]; rfl
  rw [C37_append E M r dep mode selMode comps i hs hi hp hsel items hold hcur hx hn]
  have := C11_append E r (mkPatch §"add" (absPath (comps ++ [§"-"])) [(§"value", .str dep.data.render)])
    (.str dep.data.render) comps pos m hs.components
    (isPatch_mk _ _ _ (Or.inl rfl) (by simp [absPath]) (by simp)) (by simp [field, mkPatch, lookupD]) hl hm
    (Or.inl hs.not_number)
  rw [hb, hg] at this
  exact this

/-- C37: the effect of replacing: the first entry for the package makes way for the new text, and nothing else
changes. -/
theorem C37_replaced (E : Env) (M : Str → Option Str) (r : Recipe) (dep : Dep) (selMode : SelMode)
    (comps : List Str) (i : Str) (hs : SectionPath comps) (hi : isDigitS i = true)
    (hp : dep.path = absPath (comps ++ [i])) (hsel : dep.selector = none) (pre : List PyVal) (x : PyVal)
    (post : List PyVal) (pos : Pos) (k : Nat) (c : Node) (new : List Node)
    (hl : locate r.root (comps ++ [natStr pre.length]) = some (pos ++ [k])) (hc : nodeAt r.root (pos ++ [k]) = some c)
    (hcol : c.isCollectionElement = false) (hg : newNodes E (.str dep.data.render) = .ok new)
    (hcur : r.getValue E (absPath comps) (some (.list [])) true = .ok (.list (pre ++ x :: post))) (ht : textItems pre)
    (hn : ∀ y ∈ pre, ¬ named M dep.data.name y) (hx : named M dep.data.name x) (hkeep : selMode = .replace) :
    ∃ root', r.addDependency E M dep .replace selMode = (.ok true, edited r root') ∧
      ChildrenChanged (Swapped k (new.map fun c => { c with listMember := true })) pos r.root root' := by
  have hold : r.containsValue (absPath comps) = .ok true := by
    rw [contains_locate r comps hs.components hs.ne_nil]
    rw [locate_concat] at hl
    cases h : locate r.root comps with
    | none => rw [h] at hl; cases hl
    | some p => rfl
  rw [C37_replace E M r dep selMode comps i hs hi hp hsel pre x post hold hcur ht hn hx (Or.inl hkeep)]
  have := C12_replace_element E r
    (mkPatch §"replace" (absPath (comps ++ [natStr pre.length])) [(§"value", .str dep.data.render)])
    (.str dep.data.render) comps (natStr pre.length) pos k c (by
      intro d hd
      rcases List.mem_append.1 hd with hd | hd
      · exact hs.components d hd
      · simp only [List.mem_singleton] at hd; subst hd; exact ⟨natStr_ne_nil _, natStr_no_slash _⟩)
    (isPatch_mk _ _ _ (Or.inr rfl) (by simp [absPath]) (by simp)) (by simp [field, mkPatch, lookupD])
    (isDigitS_natStr _) hl hc hcol
  rw [hg] at this
  exact this

/-- C37: the effect on a recipe without the section: the section appears, behind everything else in `requirements`, with
the dependency as its only entry. -/
theorem C37_section_created (E : Env) (M : Str → Option Str) (r : Recipe) (dep : Dep) (mode : DepMode) (selMode : SelMode)
    (init : List Str) (s i : Str) (hs : SectionPath (init ++ [s])) (hi : isDigitS i = true)
    (hp : dep.path = absPath (init ++ [s, i])) (hsel : dep.selector = none) (hx : mode ≠ .exactPosition)
    (pos : Pos) (m : Node) (new : List Node) (hnew : locate r.root (init ++ [s]) = none)
    (hl : locate r.root init = some pos) (hm : nodeAt r.root pos = some m) (hb : bareValue m = false)
    (hg : newNodes E (.dict [(s, .list [.str dep.data.render])]) = .ok new) :
    ∃ root', r.addDependency E M dep mode selMode = (.ok true, edited r root') ∧
      ChildrenChanged (Appended new) pos r.root root' := by
  obtain ⟨init', s', h1, h2, h3, h4, h5, h6⟩ := hs.split
  obtain ⟨rfl, h1'⟩ := List.append_inj' h1 rfl
  simp only [List.cons.injEq, and_true] at h1'
  subst h1'
  have hcomp := hs.components
  have hold : r.containsValue (absPath (init ++ [s])) = .ok false := by
    rw [contains_locate r _ hcomp hs.ne_nil, hnew]; rfl
  have hreq : r.containsValue (absPath (init ++ [s]).dropLast) = .ok true := by
    rw [h2, contains_locate r init (fun c hc => hcomp c (by simp [hc])) h3, hl]; rfl
  rw [C37_new_section_partial E M r dep mode selMode (init ++ [s]) i hs hi (by rw [hp]; simp) hsel hx hold hreq]
  have := C10_new_key E r (mkPatch §"add" (absPath (init ++ [s])) [(§"value", .list [.str dep.data.render])])
    (.list [.str dep.data.render]) init s pos m hcomp
    (isPatch_mk _ _ _ (Or.inl rfl) (by simp [absPath]) (by simp)) (by simp [field, mkPatch, lookupD])
    h4 h5 hnew hl hm (Or.inl h6) hb
  rw [hg] at this
  exact this

theorem applyAddDep_selector (E : Env) (r r' r'' : Recipe) (dep : Dep) (op path base p : Str) (mode : SelMode)
    (isNew : Bool) (sel : SelectorParser) (hsel : dep.selector = some sel)
    (h : op ≠ §"replace" ∨ mode = .replace ∨ r.getSelectorAtPath path = .error .keyError)
    (hpatch : r.patch E (.dict [(§"op", .str op), (§"path", .str path),
        (§"value", if isNew then .list [.str dep.data.render] else .str dep.data.render)]) = (.ok true, r'))
    (hpath : r'.depSelectorPath E base path = .ok p) (hadd : r'.addSelector p sel.render mode = (.ok (), r'')) :
    r.applyAddDep E dep op path base mode isNew = (.ok true, r'') := by
  have h1 := applyAddDep_plain E r { dep with selector := none } op path base mode isNew rfl h
  have h2 : r.patchAddDep E dep op path mode isNew = (.ok true, r') := by
    have h3 : r.patchAddDep E dep op path mode isNew = r.patchAddDep E { dep with selector := none } op path mode isNew := rfl
    rw [h3]
    simp only at h1
    rw [hpatch] at h1
    unfold Recipe.applyAddDep at h1
    rcases hp : r.patchAddDep E { dep with selector := none } op path mode isNew with ⟨o, rr⟩
    rw [hp] at h1
    cases o with
    | error e => simp only [Prod.mk.injEq, reduceCtorEq, false_and] at h1
    | ok b => cases b <;> simpa using h1
  unfold Recipe.applyAddDep
  rw [h2]
  simp only [hsel, hpath, hadd]

/-- C37: appending a dependency that has a selector appends the entry and then puts the selector on the line of the
last entry of the section. -/
theorem C37_append_selector (E : Env) (M : Str → Option Str) (r r' r'' : Recipe) (dep : Dep) (mode : DepMode)
    (selMode : SelMode) (sel : SelectorParser) (hsel : dep.selector = some sel)
    (comps : List Str) (i : Str) (hs : SectionPath comps) (hi : isDigitS i = true)
    (hp : dep.path = absPath (comps ++ [i])) (items : List PyVal) (hold : r.containsValue (absPath comps) = .ok true)
    (hcur : r.getValue E (absPath comps) (some (.list [])) true = .ok (.list items)) (hx : mode ≠ .exactPosition)
    (hn : mode = .useBoth ∨ textItems items ∧ ∀ x ∈ items, ¬ named M dep.data.name x)
    (hpatch : r.patch E (mkPatch §"add" (absPath (comps ++ [§"-"])) [(§"value", .str dep.data.render)]) = (.ok true, r'))
    (before : List PyVal) (last : PyVal) (hnew : r'.getValue E (absPath comps) = .ok (.list (before ++ [last])))
    (hadd : r'.addSelector (absPath (comps ++ [natStr before.length])) sel.render selMode = (.ok (), r'')) :
    r.addDependency E M dep mode selMode = (.ok true, r'') := by
  rw [addDependency_eq E M r dep mode selMode hs hi hp]
  unfold Recipe.addDependencyAt
  have hd : Recipe.findDuplicate M dep mode (.list items) = .ok none := findDuplicate_none (by
    rcases hn with h | h
    · exact Or.inl h
    · exact Or.inr (Or.inr h))
  simp only [calcIsNew_old hold, hcur, hd, if_neg hx, initPatchPath, Bool.false_eq_true, if_false]
  have ha : absPath (comps ++ [§"-"]) = absPath comps ++ §"/-" := by simp [absPath]
  rw [ha] at hpatch
  refine applyAddDep_selector E r r' r'' dep §"add" _ _ _ selMode false sel hsel (Or.inl (by decide)) hpatch ?_ hadd
  unfold Recipe.depSelectorPath
  have he : endsWith (absPath comps ++ §"/-") §"/-" = true := by simp [endsWith]
  rw [if_pos he]
  simp only [hnew, bind, Except.bind, Recipe.pyLen, List.length_append, List.length_cons, List.length_nil]
  have hlen : ((before.length + (0 + 1) : Nat) : Int) - 1 = (before.length : Int) := by omega
  have hdl : (absPath comps ++ §"/-").dropLast = absPath comps ++ §"/" := by
    have : absPath comps ++ §"/-" = (absPath comps ++ §"/") ++ §"-" := by simp
    rw [this, List.dropLast_concat]
  rw [hlen, hdl]
  simp [absPath, intStr]

/-- The selector of an entry with a number is set at the path of that entry. -/
theorem depSelectorPath_number (E : Env) (r : Recipe) (base path : Str) (n : Nat) :
    r.depSelectorPath E base (path ++ §"/" ++ natStr n) = .ok (path ++ §"/" ++ natStr n) := by
  unfold Recipe.depSelectorPath
  have he : endsWith (path ++ §"/" ++ natStr n) §"/-" = false := by
    cases h : endsWith (path ++ §"/" ++ natStr n) §"/-" with
    | false => rfl
    | true =>
      exfalso
      unfold endsWith at h
      rw [List.isPrefixOf_iff_prefix] at h
      obtain ⟨t, ht⟩ := h
      have hl : (path ++ §"/" ++ natStr n).getLast? = some '-' := by
        rw [List.getLast?_eq_head?_reverse, ← ht]; rfl
      rw [List.getLast?_append] at hl
      cases hg : (natStr n).getLast? with
      | none => exact natStr_ne_nil _ (List.getLast?_eq_none_iff.1 hg)
      | some c =>
        rw [hg] at hl
        simp only [Option.some_or, Option.some.injEq] at hl
        subst hl
        have hdg := isDigitS_natStr n
        unfold isDigitS at hdg
        simp only [Bool.and_eq_true, List.all_eq_true] at hdg
        exact absurd (hdg.2 _ (List.mem_of_getLast? hg)) (by decide)
  rw [he]
  rfl

/-- C37: replacing an entry by a dependency that has a selector puts the selector on the line of that entry. -/
theorem C37_replace_selector (E : Env) (M : Str → Option Str) (r r' r'' : Recipe) (dep : Dep)
    (sel : SelectorParser) (hsel : dep.selector = some sel)
    (comps : List Str) (i : Str) (hs : SectionPath comps) (hi : isDigitS i = true)
    (hp : dep.path = absPath (comps ++ [i])) (pre : List PyVal) (x : PyVal) (post : List PyVal)
    (hold : r.containsValue (absPath comps) = .ok true)
    (hcur : r.getValue E (absPath comps) (some (.list [])) true = .ok (.list (pre ++ x :: post))) (ht : textItems pre)
    (hn : ∀ y ∈ pre, ¬ named M dep.data.name y) (hx : named M dep.data.name x)
    (hpatch : r.patch E (mkPatch §"replace" (absPath (comps ++ [natStr pre.length])) [(§"value", .str dep.data.render)]) =
      (.ok true, r'))
    (hadd : r'.addSelector (absPath (comps ++ [natStr pre.length])) sel.render .replace = (.ok (), r'')) :
    r.addDependency E M dep .replace .replace = (.ok true, r'') := by
  rw [addDependency_eq E M r dep .replace .replace hs hi hp]
  unfold Recipe.addDependencyAt
  have hd : Recipe.findDuplicate M dep .replace (.list (pre ++ x :: post)) = .ok (some pre.length) := by
    unfold Recipe.findDuplicate
    rw [if_neg (by simp)]
    have := firstNamed_some M dep.data.name pre x post 0 ht hn hx
    rw [Nat.zero_add] at this
    exact this
  have ha : absPath (comps ++ [natStr pre.length]) = absPath comps ++ §"/" ++ natStr pre.length := by simp [absPath]
  rw [ha] at hpatch hadd
  simp only [calcIsNew_old hold, hcur, hd]
  rw [if_neg (by simp)]
  exact applyAddDep_selector E r r' r'' dep §"replace" _ _ _ .replace false sel hsel (Or.inr (Or.inl rfl)) hpatch
    (depSelectorPath_number E r' _ _ _) hadd

/-- C37: in the AND and OR selector modes, the selector on the line of the replaced entry is put back. -/
theorem C37_selector_preserved (E : Env) (M : Str → Option Str) (r r' r'' : Recipe) (dep : Dep) (selMode : SelMode)
    (hm : selMode ≠ .replace) (hsel : dep.selector = none)
    (comps : List Str) (i : Str) (hs : SectionPath comps) (hi : isDigitS i = true)
    (hp : dep.path = absPath (comps ++ [i])) (pre : List PyVal) (x : PyVal) (post : List PyVal)
    (hold : r.containsValue (absPath comps) = .ok true)
    (hcur : r.getValue E (absPath comps) (some (.list [])) true = .ok (.list (pre ++ x :: post))) (ht : textItems pre)
    (hn : ∀ y ∈ pre, ¬ named M dep.data.name y) (hx : named M dep.data.name x) (s : Str)
    (hs' : r.getSelectorAtPath (absPath (comps ++ [natStr pre.length])) = .ok s)
    (hpatch : r.patch E (mkPatch §"replace" (absPath (comps ++ [natStr pre.length])) [(§"value", .str dep.data.render)]) =
      (.ok true, r'))
    (hadd : r'.addSelector (absPath (comps ++ [natStr pre.length])) s = (.ok (), r'')) :
    r.addDependency E M dep .replace selMode = (.ok true, r'') := by
  rw [addDependency_eq E M r dep .replace selMode hs hi hp]
  unfold Recipe.addDependencyAt
  have hd : Recipe.findDuplicate M dep .replace (.list (pre ++ x :: post)) = .ok (some pre.length) := by
    unfold Recipe.findDuplicate
    rw [if_neg (by simp)]
    have := firstNamed_some M dep.data.name pre x post 0 ht hn hx
    rw [Nat.zero_add] at this
    exact this
  have ha : absPath (comps ++ [natStr pre.length]) = absPath comps ++ §"/" ++ natStr pre.length := by simp [absPath]
  rw [ha] at hpatch hadd hs'
  simp only [calcIsNew_old hold, hcur, hd]
  rw [if_neg (by simp)]
  unfold mkPatch at hpatch
  simp only [Recipe.applyAddDep, Recipe.patchAddDep, Recipe.preservedSelector, hs', hm, ne_eq, not_false_eq_true,
    and_self, if_true, Bool.false_eq_true, if_false, hpatch, hadd, hsel]

/-- C37: in the AND and OR selector modes, a dependency with a selector gets both: the selector of the replaced line is put back, and
the new one is added to it in that mode. -/
theorem C37_selector_joined (E : Env) (M : Str → Option Str) (r r' r'' rj : Recipe) (dep : Dep) (selMode : SelMode)
    (hm : selMode ≠ .replace) (sel : SelectorParser) (hsel : dep.selector = some sel)
    (comps : List Str) (i : Str) (hs : SectionPath comps) (hi : isDigitS i = true)
    (hp : dep.path = absPath (comps ++ [i])) (pre : List PyVal) (x : PyVal) (post : List PyVal)
    (hold : r.containsValue (absPath comps) = .ok true)
    (hcur : r.getValue E (absPath comps) (some (.list [])) true = .ok (.list (pre ++ x :: post))) (ht : textItems pre)
    (hn : ∀ y ∈ pre, ¬ named M dep.data.name y) (hx : named M dep.data.name x) (s : Str)
    (hs' : r.getSelectorAtPath (absPath (comps ++ [natStr pre.length])) = .ok s)
    (hpatch : r.patch E (mkPatch §"replace" (absPath (comps ++ [natStr pre.length])) [(§"value", .str dep.data.render)]) =
      (.ok true, r'))
    (hadd : r'.addSelector (absPath (comps ++ [natStr pre.length])) s = (.ok (), r''))
    (hjoin : r''.addSelector (absPath (comps ++ [natStr pre.length])) sel.render selMode = (.ok (), rj)) :
    r.addDependency E M dep .replace selMode = (.ok true, rj) := by
  rw [addDependency_eq E M r dep .replace selMode hs hi hp]
  unfold Recipe.addDependencyAt
  have hd : Recipe.findDuplicate M dep .replace (.list (pre ++ x :: post)) = .ok (some pre.length) := by
    unfold Recipe.findDuplicate
    rw [if_neg (by simp)]
    have := firstNamed_some M dep.data.name pre x post 0 ht hn hx
    rw [Nat.zero_add] at this
    exact this
  have ha : absPath (comps ++ [natStr pre.length]) = absPath comps ++ §"/" ++ natStr pre.length := by simp [absPath]
  rw [ha] at hpatch hadd hs' hjoin
  simp only [calcIsNew_old hold, hcur, hd]
  rw [if_neg (by simp)]
  unfold mkPatch at hpatch
  simp only [Recipe.applyAddDep, Recipe.patchAddDep, Recipe.preservedSelector, hs', hm, ne_eq, not_false_eq_true,
    and_self, if_true, Bool.false_eq_true, if_false, hpatch, hadd, hsel, depSelectorPath_number, hjoin]

/-- C37: `EXACT_POSITION` with a selector, where no selector is kept: the patch, then the selector on that line. -/
theorem C37_exact_selector (E : Env) (M : Str → Option Str) (r r' r'' : Recipe) (dep : Dep) (selMode : SelMode)
    (sel : SelectorParser) (hsel : dep.selector = some sel) (comps : List Str) (n : Nat) (hs : SectionPath comps)
    (hp : dep.path = absPath (comps ++ [natStr n])) (items : List PyVal)
    (hold : r.containsValue (absPath comps) = .ok true)
    (hcur : r.getValue E (absPath comps) (some (.list [])) true = .ok (.list items))
    (hkeep : selMode = .replace ∨ r.getSelectorAtPath dep.path = .error .keyError)
    (hpatch : r.patch E (mkPatch §"replace" dep.path [(§"value", .str dep.data.render)]) = (.ok true, r'))
    (hadd : r'.addSelector dep.path sel.render selMode = (.ok (), r'')) :
    r.addDependency E M dep .exactPosition selMode = (.ok true, r'') := by
  rw [addDependency_eq E M r dep .exactPosition selMode hs (isDigitS_natStr n) hp]
  unfold Recipe.addDependencyAt
  have hd : Recipe.findDuplicate M dep .exactPosition (.list items) = .ok none :=
    findDuplicate_none (Or.inr (Or.inl rfl))
  simp only [calcIsNew_old hold, hcur, hd, initPatchPath, if_true]
  have ha : dep.path = absPath comps ++ §"/" ++ natStr n := by rw [hp]; simp [absPath]
  exact applyAddDep_selector E r r' r'' dep §"replace" _ _ _ selMode false sel hsel (Or.inr hkeep) hpatch
    (by rw [ha]; exact depSelectorPath_number E r' _ _ n) hadd

/-- C37: `EXACT_POSITION` in the AND and OR selector modes, on a line with a selector: that selector is put back, and the one of the
dependency, if it has one, is added to it in that mode. -/
theorem C37_exact_joined (E : Env) (M : Str → Option Str) (r r' r'' rj : Recipe) (dep : Dep) (selMode : SelMode)
    (hm : selMode ≠ .replace) (comps : List Str) (n : Nat) (hs : SectionPath comps)
    (hp : dep.path = absPath (comps ++ [natStr n])) (items : List PyVal)
    (hold : r.containsValue (absPath comps) = .ok true)
    (hcur : r.getValue E (absPath comps) (some (.list [])) true = .ok (.list items)) (s : Str)
    (hs' : r.getSelectorAtPath dep.path = .ok s)
    (hpatch : r.patch E (mkPatch §"replace" dep.path [(§"value", .str dep.data.render)]) = (.ok true, r'))
    (hadd : r'.addSelector dep.path s = (.ok (), r''))
    (hjoin : match dep.selector with
      | none => rj = r''
      | some sel => r''.addSelector dep.path sel.render selMode = (.ok (), rj)) :
    r.addDependency E M dep .exactPosition selMode = (.ok true, rj) := by
  rw [addDependency_eq E M r dep .exactPosition selMode hs (isDigitS_natStr n) hp]
  unfold Recipe.addDependencyAt
  have hd : Recipe.findDuplicate M dep .exactPosition (.list items) = .ok none :=
    findDuplicate_none (Or.inr (Or.inl rfl))
  simp only [calcIsNew_old hold, hcur, hd, initPatchPath, if_true]
  have ha : dep.path = absPath comps ++ §"/" ++ natStr n := by rw [hp]; simp [absPath]
  have hsp : ∀ (r : Recipe) base, r.depSelectorPath E base dep.path = .ok dep.path := by
    intro r base; rw [ha]; exact depSelectorPath_number E r _ _ n
  unfold mkPatch at hpatch
  cases hds : dep.selector with
  | none =>
    rw [hds] at hjoin
    simp only at hjoin
    subst hjoin
    simp only [Recipe.applyAddDep, Recipe.patchAddDep, Recipe.preservedSelector, hs', hm, ne_eq, not_false_eq_true,
      and_self, if_true, Bool.false_eq_true, if_false, hpatch, hadd, hds]
  | some sel =>
    rw [hds] at hjoin
    simp only at hjoin
    simp only [Recipe.applyAddDep, Recipe.patchAddDep, Recipe.preservedSelector, hs', hm, ne_eq, not_false_eq_true,
      and_self, if_true, Bool.false_eq_true, if_false, hpatch, hadd, hds, hsp, hjoin]

/-- C37: `remove_dependency` is the patch that removes what is at the path of the dependency. -/
theorem C37_remove (E : Env) (r : Recipe) (dep : Dep) :
    r.removeDependency E dep = r.patch E (mkPatch §"remove" dep.path) := rfl

/-! ## C37: examples -/

/-- A dependency with the given path and text, named by its first word. -/
def exDep (path text : Str) (sel : Option SelectorParser := none) : Dep :=
  ⟨.str §"p", path, .run, .spec text ((splitWs text).headD []), sel⟩

/-- Reading a specification: the first word is the name. -/
def exMatch : Str → Option Str := fun s => some ((splitWs s).headD [])

def exReq : Recipe := Toy.recipe "package:\n  name: p\n\nrequirements:\n  run:\n    - a >1\n    - b\n    - a >2\n"

example : DependencyPath §"/requirements/run/0" ∧ SectionPath [§"requirements", §"run"] ∧
    exReq.getValue Toy.env §"/requirements/run" (some (.list [])) true = .ok (.list [.str §"a >1", .str §"b", .str §"a >2"]) ∧
    named exMatch §"a" (.str §"a >1") ∧ ¬ named exMatch §"a" (.str §"b") :=
  ⟨(C37_valid_path_iff _).1 (by decide), ⟨§"run", by decide, by decide, Or.inl rfl⟩, by decide +kernel,
    ⟨§"a >1", rfl, by decide, by decide⟩, by rintro ⟨t, ht, _, h⟩; cases ht; revert h; decide⟩
example : (exReq.addDependency Toy.env exMatch (exDep §"/requirements/run/0" §"a 3")).2.render =
    §"package:\n  name: p\n\nrequirements:\n  run:\n    - a 3\n    - b\n    - a >2\n" := by decide +kernel
example : (exReq.addDependency Toy.env exMatch (exDep §"/requirements/run/0" §"a 3") .useBoth).2.render =
    §"package:\n  name: p\n\nrequirements:\n  run:\n    - a >1\n    - b\n    - a >2\n    - a 3\n" := by decide +kernel
example : (exReq.addDependency Toy.env exMatch (exDep §"/requirements/run/1" §"a 3") .exactPosition).2.render =
    §"package:\n  name: p\n\nrequirements:\n  run:\n    - a >1\n    - a 3\n    - a >2\n" := by decide +kernel
example : (exReq.addDependency Toy.env exMatch (exDep §"/requirements/run/1" §"c 3"
      (some (SelectorParser.mk' §"[win]" false)))).2.render =
    §"package:\n  name: p\n\nrequirements:\n  run:\n    - a >1\n    - b\n    - a >2\n    - c 3  # [win]\n" := by
  decide +kernel

/-- C37 fails for a dependency with a selector in a new section: the selector is put on the line of the section
too, so it applies to whatever is added to the section later. -/
theorem C37_new_section_selector_violation :
    (exReq.addDependency Toy.env exMatch (exDep §"/requirements/host/0" §"c 3"
      (some (SelectorParser.mk' §"[win]" false)))).2.render =
    §"package:\n  name: p\n\nrequirements:\n  run:\n    - a >1\n    - b\n    - a >2\n  host:  # [win]\n    - c 3  # [win]\n" := by
  decide +kernel

end Crm
