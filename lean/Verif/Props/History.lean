import Verif.Props.PatchMove
import Verif.Spec.History

/-!
# Histories of calls (C16, C18)
-/

namespace Crm
open Spec

/-! ## C16 -/

private theorem patch_modified (E : Env) (r : Recipe) (p : PyVal) :
    ((r.patch E p).2.modified = true ↔ r.modified = true ∨ patchEdits E r p) := by
  by_cases hr : RfcPatch p
  · obtain ⟨o, ho, hop⟩ := hr.op
    obtain ⟨s, hs, hpath⟩ := hr.path
    obtain ⟨d, rfl, hpe⟩ := patch_eq (E := E) ⟨hr, hop, hpath⟩ r
    unfold patchEdits
    rw [hpe, hop, hpath]
    by_cases hm : o = §"move" ∧ field (.dict d) §"from" = some (.str s)
    · rw [if_pos hm, hm.1, hm.2]; simp
    · rw [if_neg hm]
      generalize callPatchOp E r.root o s d = out
      obtain ⟨res, root⟩ := out
      have hm' : ¬ (some (PyVal.str o) = some (.str §"move") ∧ field (.dict d) §"from" = some (.str s)) := by
        rintro ⟨h1, h2⟩; injection h1 with h1; injection h1 with h1; exact hm ⟨h1, h2⟩
      rcases res with e | _ | _
      · simp [finishPatch]
      · simp [finishPatch]
      · by_cases ht : o = §"test"
        · subst ht; simp [finishPatch]
        · simp only [finishPatch, ne_eq, ht, not_false_eq_true, if_true, edited, true_iff]
          refine Or.inr ⟨trivial, ?_, hm'⟩
          intro h; injection h with h; injection h with h; exact ht h
  · have := C15_no_effect E r p hr
    unfold patchEdits
    rw [this]
    simp

private theorem go_nil (E : Env) (d : List (Str × PyVal)) (r : Recipe) (b : Bool) :
    Recipe.searchAndPatchGo E d [] r b = (.ok b, r) := rfl

private theorem go_false (E : Env) (d : List (Str × PyVal)) (r : Recipe) (paths : List Str) :
    Recipe.searchAndPatchGo E d paths r false = (.ok false, r) := by
  induction paths with
  | nil => rfl
  | cons p ps ih => simpa only [Recipe.searchAndPatchGo, Recipe.patchIf, Bool.false_eq_true, if_false] using ih

private theorem go_cons (E : Env) (d : List (Str × PyVal)) (r : Recipe) (path : Str) (rest : List Str) :
    Recipe.searchAndPatchGo E d (path :: rest) r true =
      match r.patch E (.dict (insertD §"path" (.str path) d)) with
      | (.ok true, r') => Recipe.searchAndPatchGo E d rest r' true
      | out => out := by
  simp only [Recipe.searchAndPatchGo, Recipe.patchIf, if_true]
  generalize r.patch E (.dict (insertD §"path" (.str path) d)) = out
  obtain ⟨res, r'⟩ := out
  rcases res with e | _ | _
  · rfl
  · simp only [go_false]
  · rfl

private theorem go_modified (E : Env) (d : List (Str × PyVal)) (paths : List Str) (r : Recipe) :
    (Recipe.searchAndPatchGo E d paths r true).2.modified = true ↔ r.modified = true ∨
      ∃ pre path post r1, paths = pre ++ path :: post ∧ PatchedAll E d pre r r1 ∧
        patchEdits E r1 (.dict (insertD §"path" (.str path) d)) := by
  induction paths generalizing r with
  | nil => rw [go_nil]; simp
  | cons path rest ih =>
    rw [go_cons]
    have hm := patch_modified E r (.dict (insertD §"path" (.str path) d))
    constructor
    · intro h
      cases hout : r.patch E (.dict (insertD §"path" (.str path) d)) with
      | mk res r1 =>
        rw [hout] at h hm
        have key : r1.modified = true → r.modified = true ∨ ∃ pre path' post r1, path :: rest = pre ++ path' :: post ∧
            PatchedAll E d pre r r1 ∧ patchEdits E r1 (.dict (insertD §"path" (.str path') d)) := by
          intro h1
          rcases hm.1 h1 with h2 | h2
          · exact Or.inl h2
          · exact Or.inr ⟨[], path, rest, r, rfl, .nil r, h2⟩
        rcases res with e | _ | _
        · exact key h
        · exact key h
        · rcases (ih r1).1 h with h1 | ⟨pre, path', post, r2, h1, h2, h3⟩
          · exact key h1
          · exact Or.inr ⟨path :: pre, path', post, r2, by rw [h1]; rfl, .cons _ _ _ _ _ hout h2, h3⟩
    · intro h
      have h1 : (r.patch E (.dict (insertD §"path" (.str path) d))).2.modified = true ∨
          ∃ pre path' post r1 r2, rest = pre ++ path' :: post ∧
          r.patch E (.dict (insertD §"path" (.str path) d)) = (.ok true, r1) ∧ PatchedAll E d pre r1 r2 ∧
          patchEdits E r2 (.dict (insertD §"path" (.str path') d)) := by
        rcases h with h | ⟨pre, path', post, r1, h1, h2, h3⟩
        · exact Or.inl (hm.2 (Or.inl h))
        · cases h2 with
          | nil => injection h1 with h1 h4; subst h1; exact Or.inl (hm.2 (Or.inr h3))
          | cons p' rest' _ r2 _ h4 h5 =>
            injection h1 with h1 h6; subst h1
            exact Or.inr ⟨rest', path', post, r2, r1, h6, h4, h5, h3⟩
      cases hout : r.patch E (.dict (insertD §"path" (.str path) d)) with
      | mk res r1 =>
        rw [hout] at h1
        rcases h1 with h1 | ⟨pre, path', post, r1', r2, h1, h2, h3, h4⟩
        · rcases res with e | _ | _
          · exact h1
          · exact h1
          · exact (ih r1).2 (Or.inl h1)
        · injection h2 with h2 h5; subst h2 h5
          exact (ih r1).2 (Or.inr ⟨pre, path', post, r2, h1, h3, h4⟩)

private theorem patch_unmodified (E : Env) (r : Recipe) (p : PyVal) (hm : field p §"op" ≠ some (.str §"move"))
    (h : (r.patch E p).2.modified = false) : (r.patch E p).2 = r := by
  by_cases ho : (r.patch E p).1 = .ok true
  · have hne : ¬ patchEdits E r p := by
      intro he; rw [(patch_modified E r p).2 (Or.inr he)] at h; cases h
    have ht : field p §"op" = some (.str §"test") := by
      by_cases ht : field p §"op" = some (.str §"test")
      · exact ht
      · exact absurd ⟨ho, ht, fun h => hm h.1⟩ hne
    by_cases hr : RfcPatch p
    · obtain ⟨s, hs, hpath⟩ := hr.path
      obtain ⟨v, hv⟩ := Option.isSome_iff_exists.1 (hr.value §"test" (by simp) ht)
      exact (C07_test E r p s v ⟨hr, ht, hpath⟩ hv).1
    · rw [C15_no_effect E r p hr]
  · exact C08_rejected_unchanged_partial E r p hm ho

/-- `add_dependency` consists of patches that are no moves and of `add_selector` calls. -/
theorem addDependency_steps {E : Env} {P : Recipe → Prop} (hp : ∀ r p, P r → field p §"op" ≠ some (.str §"move") → P (r.patch E p).2)
    (hs : ∀ (r : Recipe) path s mode, P r → P (r.addSelector path s mode).2) (M : Str → Option Str) (r : Recipe) (dep : Dep)
    (mode : DepMode) (selMode : SelMode) (h : P r) : P (r.addDependency E M dep mode selMode).2 := by
  have h1 : ∀ op path isNew, op ≠ §"move" → P (r.patchAddDep E dep op path selMode isNew).2 := by
    intro op path isNew hop
    unfold Recipe.patchAddDep
    split
    · exact h
    · rename_i preserve _
      simp only
      have h2 := hp r (.dict [(§"op", .str op), (§"path", .str path),
        (§"value", if isNew then .list [.str dep.data.render] else .str dep.data.render)]) h (by simpa [field, lookupD] using hop)
      generalize r.patch E _ = out at h2
      obtain ⟨res, r1⟩ := out
      cases res with
      | error e => exact h2
      | ok b =>
        cases preserve with
        | none => exact h2
        | some s =>
          have h3 := hs r1 path s .replace h2
          simp only
          generalize r1.addSelector path s = out at h3
          obtain ⟨res, r2⟩ := out
          cases res <;> exact h3
  have h4 : ∀ op path base isNew, op ≠ §"move" → P (r.applyAddDep E dep op path base selMode isNew).2 := by
    intro op path base isNew hop
    have h5 := h1 op path isNew hop
    unfold Recipe.applyAddDep
    generalize r.patchAddDep E dep op path selMode isNew = out at h5
    obtain ⟨res, r1⟩ := out
    rcases res with e | _ | _
    · exact h5
    · exact h5
    · simp only
      split
      · exact h5
      · rename_i s _
        split
        · exact h5
        · rename_i p _
          have h6 := hs r1 p s.render selMode h5
          generalize r1.addSelector p s.render selMode = out at h6
          obtain ⟨res, r2⟩ := out
          cases res <;> exact h6
  unfold Recipe.addDependency
  split
  · exact h
  · unfold Recipe.addDependencyAt
    split
    · exact h
    · exact h
    · split
      · exact h
      · split
        · exact h
        · refine h4 _ _ _ _ ?_
          split <;> decide
        · split
          · exact h
          · exact h4 _ _ _ _ (by decide)

private theorem addDependency_true (E : Env) (M : Str → Option Str) (r : Recipe) (dep : Dep) (mode : DepMode) (selMode : SelMode)
    (h : (r.addDependency E M dep mode selMode).1 = .ok true) : (r.addDependency E M dep mode selMode).2.modified = true := by
  have hsel : ∀ (r : Recipe) path s mode, r.modified = true → (r.addSelector path s mode).2.modified = true := by
    intro r path s mode hr
    unfold Recipe.addSelector
    repeat' split
    all_goals simp [hr]
  have h1 : ∀ op path isNew, op ≠ §"move" → op ≠ §"test" → (r.patchAddDep E dep op path selMode isNew).1 = .ok true →
      (r.patchAddDep E dep op path selMode isNew).2.modified = true := by
    intro op path isNew hop hop' h
    unfold Recipe.patchAddDep at h ⊢
    revert h
    split
    · intro h; cases h
    · rename_i preserve _
      simp only
      have h2 := (patch_modified E r (.dict [(§"op", .str op), (§"path", .str path),
        (§"value", if isNew then .list [.str dep.data.render] else .str dep.data.render)])).2
      unfold patchEdits at h2
      generalize r.patch E _ = out at h2
      obtain ⟨res, r1⟩ := out
      rcases res with e | _ | _
      · intro h; cases h
      · cases preserve with
        | none => intro h; cases h
        | some s =>
          simp only
          generalize r1.addSelector path s = out
          obtain ⟨res, r2⟩ := out
          cases res <;> (intro h; cases h)
      · have h3 : r1.modified = true := h2 (Or.inr ⟨rfl, by simpa [field, lookupD] using hop', fun h => hop (by simpa [field, lookupD] using h.1)⟩)
        cases preserve with
        | none => intro _; exact h3
        | some s =>
          have h4 := hsel r1 path s .replace h3
          simp only
          generalize r1.addSelector path s = out at h4
          obtain ⟨res, r2⟩ := out
          cases res <;> (intro _; exact h4)
  have h4 : ∀ op path base isNew, op ≠ §"move" → op ≠ §"test" → (r.applyAddDep E dep op path base selMode isNew).1 = .ok true →
      (r.applyAddDep E dep op path base selMode isNew).2.modified = true := by
    intro op path base isNew hop hop' h
    have h5 := h1 op path isNew hop hop'
    unfold Recipe.applyAddDep at h ⊢
    revert h
    generalize r.patchAddDep E dep op path selMode isNew = out at h5
    obtain ⟨res, r1⟩ := out
    rcases res with e | _ | _
    · intro h; cases h
    · intro h; cases h
    · have h5 := h5 rfl
      simp only
      split
      · intro _; exact h5
      · rename_i s _
        split
        · intro _; exact h5
        · rename_i p _
          have h6 := hsel r1 p s.render selMode h5
          generalize r1.addSelector p s.render selMode = out at h6
          obtain ⟨res, r2⟩ := out
          cases res <;> (intro _; exact h6)
  unfold Recipe.addDependency at h ⊢
  revert h
  split
  · intro h; cases h
  · unfold Recipe.addDependencyAt
    split
    · intro h; cases h
    · intro h; cases h
    · split
      · intro h; cases h
      · split
        · intro h; cases h
        · refine h4 _ _ _ _ ?_ ?_ <;> split <;> decide
        · split
          · intro h; cases h
          · exact h4 _ _ _ _ (by decide) (by decide)

private theorem perform_modified (E : Env) (r : Recipe) (c : Call) :
    (perform E r c).modified = true ↔ r.modified = true ∨ edits E r c := by
  cases c with
  | patch p => exact patch_modified E r p
  | searchAndPatch re p ic => exact go_modified E p (r.search re ic) r
  | setVariable k v => simp [perform, edits, Recipe.setVariable]
  | delVariable k =>
    simp only [perform, edits, Recipe.delVariable, Recipe.containsVariable]
    cases lookupD k r.vars <;> simp
  | addSelector path s mode =>
    simp only [perform, edits, Recipe.addSelector]
    repeat' split
    all_goals simp
  | removeSelector path =>
    simp only [perform, edits, Recipe.removeSelector]
    repeat' split
    all_goals simp
  | addComment path text =>
    simp only [perform, edits, Recipe.addComment]
    repeat' split
    all_goals simp
  | addDependency M dep mode selMode =>
    simp only [perform, edits]
    have hs := addDependency_steps (E := E) (P := fun r' => r' = r ∨ r'.modified = true) ?_ ?_ M r dep mode selMode (Or.inl rfl)
    · constructor
      · intro h
        by_cases hm : r.modified = true
        · exact Or.inl hm
        · exact Or.inr (Or.inr fun he => hm (he ▸ h))
      · rintro (h | h | h)
        · rcases hs with he | he
          · rw [he]; exact h
          · exact he
        · exact addDependency_true E M r dep mode selMode h
        · exact hs.resolve_left h
    · intro r1 p h hop
      have hm := patch_modified E r1 p
      by_cases ho : (r1.patch E p).2.modified = true
      · exact Or.inr ho
      · rcases h with rfl | h
        · exact Or.inl (patch_unmodified E r1 p hop (by simpa using ho))
        · exact absurd (hm.2 (Or.inl h)) ho
    · intro r1 path s mode h
      unfold Recipe.addSelector
      repeat' split
      all_goals first
        | exact h
        | exact Or.inr rfl
  | removeDependency dep =>
    simp only [perform, edits, Recipe.removeDependency]
    rw [patch_modified]
    simp [patchEdits, field, lookupD]
  | getSelectorPaths s =>
    simp only [perform, edits, Recipe.getSelectorPaths]
    split <;> simp

/-- C16: a freshly read recipe is not modified. -/
theorem C16_initially_false (E : Env) (text : Str) (r : Recipe) (h : Recipe.ofString E text = .ok r) :
    r.modified = false := by
  unfold Recipe.ofString at h
  simp only [bind, Except.bind] at h
  repeat' split at h
  all_goals first
    | (injection h with h; subst h; rfl)
    | cases h

/-- C16: after any history of calls, whatever they returned or raised, `is_modified()` is `True` exactly if it was at
the start or some call of the history succeeded in changing something. -/
theorem C16_modified_iff (E : Env) (r : Recipe) (calls : List Call) :
    (performAll E r calls).modified = true ↔
      r.modified = true ∨ ∃ pre c post, calls = pre ++ c :: post ∧ edits E (performAll E r pre) c := by
  induction calls generalizing r with
  | nil => simp [performAll]
  | cons c cs ih =>
    show (performAll E (perform E r c) cs).modified = true ↔ _
    rw [ih, perform_modified]
    constructor
    · rintro ((h | h) | ⟨pre, c', post, h1, h2⟩)
      · exact Or.inl h
      · exact Or.inr ⟨[], c, cs, rfl, h⟩
      · exact Or.inr ⟨c :: pre, c', post, by rw [h1]; rfl, h2⟩
    · rintro (h | ⟨pre, c', post, h1, h2⟩)
      · exact Or.inl (Or.inl h)
      · cases pre with
        | nil => injection h1 with h1 h3; subst h1; exact Or.inl (Or.inr h2)
        | cons p ps =>
          injection h1 with h1 h3; subst h1
          exact Or.inr ⟨ps, c', post, h3, h2⟩

/-- C16: once modified, a recipe stays modified. -/
theorem C16_stays_true (E : Env) (r : Recipe) (calls : List Call) (h : r.modified = true) :
    (performAll E r calls).modified = true := (C16_modified_iff E r calls).2 (Or.inl h)

/-- C16: a history without `move` patches and selector-path queries that leaves a recipe unmodified has not changed
anything.  (A failed `move` may have: `C08_move_loses_source`.) -/
theorem C16_unmodified_without_failed_move (E : Env) (r : Recipe) (calls : List Call)
    (hno : ∀ c ∈ calls, match c with
      | .patch p => field p §"op" ≠ some (.str §"move")
      | .searchAndPatch _ p _ => lookupD §"op" p ≠ some (.str §"move")
      | .getSelectorPaths _ => False
      | _ => True)
    (h : (performAll E r calls).modified = false) : performAll E r calls = r := by
  have hpatch := patch_unmodified E
  have hgo : ∀ d, lookupD §"op" d ≠ some (.str §"move") → ∀ (paths : List Str) (r : Recipe),
      (Recipe.searchAndPatchGo E d paths r true).2.modified = false →
      (Recipe.searchAndPatchGo E d paths r true).2 = r := by
    intro d hd paths
    induction paths with
    | nil => intro r _; rw [go_nil]
    | cons path rest ih =>
      intro r h
      have hf : field (.dict (insertD §"path" (.str path) d)) §"op" ≠ some (.str §"move") := by
        simp only [field, lookupD_insertD]
        rw [if_neg (by decide)]
        exact hd
      have hp := hpatch r _ hf
      rw [go_cons] at h ⊢
      cases hout : r.patch E (.dict (insertD §"path" (.str path) d)) with
      | mk res r1 =>
        rw [hout] at h hp
        rcases res with e | _ | _
        · exact hp h
        · exact hp h
        · have h1 := ih r1 h
          have h' : (Recipe.searchAndPatchGo E d rest r1 true).2.modified = false := h
          rw [h1] at h'
          exact h1.trans (hp h')
  induction calls generalizing r with
  | nil => rfl
  | cons c cs ih =>
    have h1 : performAll E (perform E r c) cs = perform E r c := ih (perform E r c) (fun c hc => hno c (by simp [hc])) h
    show performAll E (perform E r c) cs = r
    rw [h1]
    have h2 : (perform E r c).modified = false := by rw [← h1]; exact h
    have hc := hno c (by simp)
    have hne : ¬ edits E r c := by intro he; rw [(perform_modified E r c).2 (Or.inr he)] at h2; cases h2
    cases c with
    | patch p => exact hpatch r p hc h2
    | searchAndPatch re p ic => exact hgo p hc _ r h2
    | setVariable k v => exact absurd trivial hne
    | delVariable k =>
      simp only [edits, Recipe.containsVariable] at hne
      cases hl : lookupD k r.vars with
      | none => simp only [perform, Recipe.delVariable, hl, Option.isNone_none, if_true]
      | some v => rw [hl] at hne; exact absurd rfl hne
    | addSelector path s mode =>
      simp only [perform, edits, Recipe.addSelector] at hne ⊢
      repeat' split
      all_goals simp_all
    | removeSelector path =>
      simp only [perform, edits, Recipe.removeSelector] at hne ⊢
      repeat' split
      all_goals simp_all
    | addComment path text =>
      simp only [perform, edits, Recipe.addComment] at hne ⊢
      repeat' split
      all_goals simp_all
    | addDependency M dep mode selMode => exact Classical.byContradiction fun hx => hne (Or.inr hx)
    | removeDependency dep => exact hpatch r _ (by simp [field, lookupD]) h2
    | getSelectorPaths s => exact hc.elim

example : (performAll Toy.env exPatch [.patch (mkPatch §"remove" §"/zz"), .patch (mkPatch §"test" §"/a/x" [(§"value", .int 1)]),
    .delVariable §"v"]).modified = false := by decide +kernel
example : (performAll Toy.env exPatch [.patch (mkPatch §"remove" §"/zz"), .patch (mkPatch §"remove" §"/l/0"),
    .delVariable §"v"]).modified = true := by decide +kernel
example : edits Toy.env exPatch (.patch (mkPatch §"remove" §"/l/0")) :=
  ⟨by decide +kernel, by decide, by decide⟩

/-! ## C18 -/

/-- C18: `search_and_patch` answers `True` exactly when the patch, applied at each path found before the call in turn,
succeeded each time; the resulting recipe is then that of the whole sequence. -/
theorem C18_true_iff_partial (E : Env) (r r' : Recipe) (re : Str → Bool) (p : List (Str × PyVal)) (ic : Bool) :
    r.searchAndPatch E re p ic = (.ok true, r') ↔ PatchedAll E p (r.search re ic) r r' := by
  unfold Recipe.searchAndPatch
  generalize r.search re ic = paths
  induction paths generalizing r with
  | nil =>
    rw [go_nil]
    constructor
    · intro h; injection h with _ h; subst h; exact .nil _
    · intro h; cases h; rfl
  | cons path rest ih =>
    rw [go_cons]
    constructor
    · intro h
      cases hout : r.patch E (.dict (insertD §"path" (.str path) p)) with
      | mk res r1 =>
        rw [hout] at h
        rcases res with e | _ | _
        · injection h with h; cases h
        · injection h with h; cases h
        · exact .cons _ _ _ _ _ hout ((ih r1).1 h)
    · intro h
      cases h with
      | cons _ _ _ r1 _ h1 h2 => rw [h1]; exact (ih r1).2 h2

/-- C18: otherwise the matches before the first one that failed have been patched, and the call answers (or raises)
what that patch answered. -/
theorem C18_otherwise_iff (E : Env) (r r' : Recipe) (re : Str → Bool) (p : List (Str × PyVal)) (ic : Bool)
    (out : Except PyErr Bool) (hout : out ≠ .ok true) :
    r.searchAndPatch E re p ic = (out, r') ↔ ∃ pre path post r1, r.search re ic = pre ++ path :: post ∧
      PatchedAll E p pre r r1 ∧ r1.patch E (.dict (insertD §"path" (.str path) p)) = (out, r') := by
  unfold Recipe.searchAndPatch
  generalize r.search re ic = paths
  induction paths generalizing r with
  | nil =>
    rw [go_nil]
    constructor
    · intro h; injection h with h; exact absurd h.symm hout
    · rintro ⟨pre, path, post, r1, h, _⟩; simp at h
  | cons path rest ih =>
    rw [go_cons]
    constructor
    · intro h
      cases hq : r.patch E (.dict (insertD §"path" (.str path) p)) with
      | mk res r1 =>
        rw [hq] at h
        rcases res with e | _ | _
        · exact ⟨[], path, rest, r, rfl, .nil _, by rw [hq]; exact h⟩
        · exact ⟨[], path, rest, r, rfl, .nil _, by rw [hq]; exact h⟩
        · obtain ⟨pre, path', post, r2, h1, h2, h3⟩ := (ih r1).1 h
          exact ⟨path :: pre, path', post, r2, by rw [h1]; rfl, .cons _ _ _ _ _ hq h2, h3⟩
    · rintro ⟨pre, path', post, r2, h1, h2, h3⟩
      cases h2 with
      | nil =>
        injection h1 with h1 h4; subst h1; rw [h3]
        rcases out with e | _ | _
        · rfl
        · rfl
        · exact absurd rfl hout
      | cons p' rest' _ r1 _ h4 h5 =>
        injection h1 with h1 h6; subst h1; rw [h4]
        exact (ih r1).2 ⟨rest', path', post, r2, h6, h5, h3⟩

/-- C18: when nothing matches, the answer is `True` and nothing happens. -/
theorem C18_no_match (E : Env) (r : Recipe) (re : Str → Bool) (p : List (Str × PyVal)) (ic : Bool)
    (h : r.search re ic = []) : r.searchAndPatch E re p ic = (.ok true, r) := by
  rw [C18_true_iff_partial, h]; exact .nil _

/-- C18 is false when the edits shift list elements: the matches are looked up once, so removing every `p` from
`[p, p, q]` removes one `p` and the `q`, and answers `True`. -/
theorem C18_stale_paths_violation :
    let r := Toy.recipe "l:
  - p
  - p
  - q
"
    let out := r.searchAndPatch Toy.env (fun s => s == §"p") [(§"op", .str §"remove")]
    r.search (fun s => s == §"p") = [§"/l/0", §"/l/1"] ∧ out.1 = .ok true ∧ out.2.render = §"l:
  - p
" := by
  decide +kernel

/-- Replacing, in contrast, hits every match. -/
example :
    let r := Toy.recipe "l:
  - p
  - p
  - q
"
    let out := r.searchAndPatch Toy.env (fun s => s == §"p") [(§"op", .str §"replace"), (§"value", .str §"z")]
    out.1 = .ok true ∧ out.2.render = §"l:
  - z
  - z
  - q
" := by decide +kernel

end Crm
