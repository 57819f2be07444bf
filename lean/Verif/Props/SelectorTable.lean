import Verif.Props.History
import Verif.Lemmas.SelTable

/-!
# The selector index (C19, C24)
-/

namespace Crm
open Spec

/-! ## What the index says when it agrees with the tree -/

private theorem agrees_lookup {r : Recipe} (h : indexAgrees r) (s : Str) :
    ((lookupD s r.selTbl).getD []).map (·.path) =
      ((visitAll r.root).filter fun np => selOf np.1.comment = some s).map (·.2) := by
  have h1 := lookupD_map (fun x : List SelInfo => x.map (·.path)) s r.selTbl
  have h2 := lookupD_map (fun x : List SelInfo => x.map (·.path)) s (rebuildSelectors r.root)
  unfold indexAgrees at h
  rw [h] at h1
  rw [h1] at h2
  have h3 := selFold_lookup (visitAll r.root) [] s
  rw [← rebuildSelectors_fold] at h3
  have h4 : ((lookupD s r.selTbl).getD []).map (·.path) = ((lookupD s (rebuildSelectors r.root)).getD []).map (·.path) := by
    cases ha : lookupD s r.selTbl <;> cases hb : lookupD s (rebuildSelectors r.root) <;> rw [ha, hb] at h2 <;> simp_all
  rw [h4, h3]
  simp [lookupD, selOf, List.map_map, Function.comp_def]

private theorem agrees_keys {r : Recipe} (h : indexAgrees r) :
    r.listSelectors = dedupe ((visitAll r.root).filterMap fun np => selOf np.1.comment) := by
  have h1 := congrArg (fun l : List (Str × List (List Str)) => l.map (·.1)) h
  simp only [List.map_map, Function.comp_def] at h1
  unfold Recipe.listSelectors
  rw [h1, rebuildSelectors_fold, selFold_keys]
  unfold dedupe selOf
  refine congrArg (fun f => List.foldl f [] _) ?_
  funext acc x
  by_cases hx : x ∈ acc <;> simp [hx]

theorem filterMap_congr_mem {α β : Type} {f g : α → Option β} (l : List α) (h : ∀ x ∈ l, f x = g x) :
    l.filterMap f = l.filterMap g := by
  induction l with
  | nil => rfl
  | cons x xs ih =>
    simp only [List.filterMap_cons, h x (by simp), ih fun y hy => h y (by simp [hy])]

private theorem selectorsOf_eq {root : Node} (h : oneLineComments root) :
    (visitAll root).filterMap (fun np => selOf np.1.comment) = selectorsOf root := by
  unfold selectorsOf nodesWithPaths
  rw [List.filterMap_map]
  exact filterMap_congr_mem _ fun np hnp => selectorIn_search _ (h np hnp)

private theorem pathsWith_eq {root : Node} (h : oneLineComments root) (s : Str) :
    (((visitAll root).filter fun np => selOf np.1.comment = some s).map (·.2)).map stackToStr = pathsWith root s := by
  unfold pathsWith nodesWithPaths
  rw [List.filter_map, List.map_map, List.map_map]
  have : (visitAll root).filter (fun np => selOf np.1.comment = some s) =
      (visitAll root).filter ((fun np : Node × Str => decide (selectorIn np.1.comment = some s)) ∘
        fun np => (np.1, stackToStr np.2)) := by
    apply List.filter_congr
    intro np hnp
    simp only [Function.comp, selOf, selectorIn_search _ (h np hnp)]
  rw [this]
  rfl

/-- C19 (meaning): when the index agrees with the tree, `list_selectors` lists the selectors in the comments of the
tree, each once, in document order; `contains_selector` tells whether one occurs; `get_selector_paths` lists the paths
of the lines that carry it. -/
theorem C19_meaning (r : Recipe) (h : indexAgrees r) (h1 : oneLineComments r.root) :
    FirstOccurrences (selectorsOf r.root) r.listSelectors ∧
    (∀ s, r.containsSelector s = true ↔ s ∈ selectorsOf r.root) ∧
    (∀ s, FirstOccurrences (pathsWith r.root s) (r.getSelectorPaths s).1) := by
  have hk : r.listSelectors = dedupe (selectorsOf r.root) := by rw [agrees_keys h, selectorsOf_eq h1]
  refine ⟨by rw [hk]; exact C57_dedupe _, fun s => ?_, fun s => ?_⟩
  · unfold Recipe.containsSelector
    rw [lookupD_isSome]
    show s ∈ r.listSelectors ↔ _
    rw [hk]
    exact (C57_dedupe _).1 s
  · have h2 := agrees_lookup h s
    have h3 : (r.getSelectorPaths s).1 = dedupe (pathsWith r.root s) := by
      rw [← pathsWith_eq h1 s, ← h2]
      unfold Recipe.getSelectorPaths
      cases hl : lookupD s r.selTbl with
      | none => rfl
      | some infos => simp [List.map_map, Function.comp_def]
    rw [h3]
    exact C57_dedupe _

/-! ## The index agrees after every history -/

/-- C19 (start): the index of a freshly read recipe agrees with its tree. -/
theorem C19_initially (E : Env) (text : Str) (r : Recipe) (h : Recipe.ofString E text = .ok r) : indexAgrees r := by
  unfold Recipe.ofString at h
  simp only [bind, Except.bind] at h
  repeat' split at h
  all_goals first
    | (injection h with h; subst h; rfl)
    | cases h

private theorem patch_true_agrees (E : Env) (r : Recipe) (p : PyVal) (hr : indexAgrees r)
    (h : (r.patch E p).1 = .ok true) : indexAgrees (r.patch E p).2 := by
  unfold Recipe.patch at h ⊢
  split
  · exact hr
  · rename_i hs
    rw [if_neg hs] at h
    split
    · rename_i d
      simp only at h ⊢
      split
      · exact hr
      · rename_i hm
        rw [if_neg hm] at h
        by_cases ht : patchStr d §"op" = §"test"
        · have hroot : (callPatchOp E r.root (patchStr d §"op") (patchStr d §"path") d).2 = r.root := by
            rw [ht]
            unfold callPatchOp
            repeat' split
            all_goals first
              | rfl
              | simp_all
          generalize callPatchOp E r.root (patchStr d §"op") (patchStr d §"path") d = out at h hroot ⊢
          obtain ⟨res, root⟩ := out
          simp only at hroot
          subst hroot
          rcases res with e | _ | _
          · exact hr
          · exact hr
          · simp only [ht, ne_eq, not_true_eq_false, if_false]; exact hr
        · generalize callPatchOp E r.root (patchStr d §"op") (patchStr d §"path") d = out at h ⊢
          obtain ⟨res, root⟩ := out
          rcases res with e | _ | _
          · cases h
          · cases h
          · simp only [ne_eq, ht, not_false_eq_true, if_true]; rfl
    · exact hr

private theorem patch_agrees (E : Env) (r : Recipe) (p : PyVal) (hr : indexAgrees r)
    (h : field p §"op" = some (.str §"move") → (r.patch E p).1 = .ok true ∨ (r.patch E p).2 = r) :
    indexAgrees (r.patch E p).2 := by
  by_cases ht : (r.patch E p).1 = .ok true
  · exact patch_true_agrees E r p hr ht
  · by_cases hm : field p §"op" = some (.str §"move")
    · rcases h hm with h | h
      · exact absurd h ht
      · rw [h]; exact hr
    · rw [C08_rejected_unchanged_partial E r p hm ht]; exact hr

private theorem go_agrees (E : Env) (d : List (Str × PyVal)) (hd : field (.dict d) §"op" ≠ some (.str §"move"))
    (paths : List Str) (r : Recipe) (b : Bool) (hr : indexAgrees r) :
    indexAgrees (Recipe.searchAndPatchGo E d paths r b).2 := by
  induction paths generalizing r b with
  | nil => exact hr
  | cons path rest ih =>
    have hp : indexAgrees (Recipe.patchIf E d r b path).2 := by
      unfold Recipe.patchIf
      split
      · refine patch_agrees E r _ hr fun h => ?_
        refine absurd ?_ hd
        simp only [field] at h ⊢
        rw [lookupD_insertD, if_neg (by decide)] at h
        exact h
      · exact hr
    unfold Recipe.searchAndPatchGo
    generalize Recipe.patchIf E d r b path = out at hp
    obtain ⟨res, r'⟩ := out
    rcases res with e | b'
    · exact hp
    · exact ih r' b' hp

theorem selOf_none_of_no_open {c : Str} (h : '[' ∉ c) : selOf c = none := by
  unfold selOf
  rw [show Regex.selector.search c = none from selector_searchFrom_none h]; rfl

private theorem stripL_subset (t : Str) : ∀ c ∈ lstrip t, c ∈ t := fun _ hc => List.dropWhile_subset _ hc

private theorem strip_subset (t : Str) : ∀ c ∈ strip t, c ∈ t := by
  intro _ hc
  unfold strip rstrip at hc
  have h := List.dropWhile_subset _ (List.mem_reverse.1 hc)
  exact stripL_subset t _ (List.mem_reverse.1 h)

theorem selOf_addCommentText (old text : Str) (hn : '\n' ∉ old) (h1 : '[' ∉ text) (h2 : ']' ∉ text)
    (h3 : '\n' ∉ text) : selOf (Recipe.addCommentText old text) = selOf old := by
  unfold Recipe.addCommentText
  cases hs : Regex.selector.search old with
  | none =>
    have : selOf old = none := by unfold selOf; rw [hs]; rfl
    rw [this]
    apply selOf_none_of_no_open
    simp only
    split
    · simpa using h1
    · exact h1
  | some m =>
    have hold : selOf old = some m.text := by unfold selOf; rw [hs]; rfl
    have htext : selectorIn old = some m.text := by rw [← selectorIn_search old hn, hs]; rfl
    rw [hold]
    rcases selector_cases old with h | ⟨a, b, rfl, ha, hb⟩ | ⟨pre, body, post, rfl, ha, hb⟩
    · have := selOf_none_of_no_open h; rw [hold] at this; cases this
    · exfalso
      simp only [selectorIn, dropWhile_ne_eq _ _ ha] at htext
      rw [dropWhile_ne_nil] at htext
      · simp at htext
      · simp only [List.mem_reverse, List.mem_cons, not_or]; exact ⟨by decide, hb⟩
    · rw [selectorIn_some ha hb] at htext
      injection htext with htext
      simp only [← htext]
      have hbody : '\n' ∉ body := fun h => hn (by simp [h])
      generalize hc : Recipe.dropHash text = c
      have hsub : ∀ x ∈ c, x ∈ text := by
        intro x hx
        rw [← hc] at hx
        unfold Recipe.dropHash at hx
        split at hx
        · exact List.mem_cons_of_mem _ (strip_subset _ x hx)
        · exact hx
      have h2' : ']' ∉ ' ' :: c := by
        simp only [List.mem_cons, not_or]; exact ⟨by decide, fun h => h2 (hsub _ h)⟩
      have hhead : (§"# " ++ ('[' :: (body ++ [']'])) ++ §" " ++ c).head? = some '#' := rfl
      simp only [hhead, ne_eq, not_true_eq_false, if_false]
      have hshape : §"# " ++ ('[' :: (body ++ [']'])) ++ §" " ++ c = §"# " ++ '[' :: (body ++ ']' :: (' ' :: c)) := by
        simp
      rw [hshape]
      have hn' : '\n' ∉ §"# " ++ '[' :: (body ++ ']' :: (' ' :: c)) := by
        have hnl : '\n' ∉ c := fun h => h3 (hsub _ h)
        simp [hbody, hnl]
      unfold selOf
      rw [selectorIn_search _ hn', selectorIn_some (by decide) h2']

theorem addComment_agrees (r : Recipe) (path text : Str) (hr : indexAgrees r)
    (h1 : '[' ∉ text) (h2 : ']' ∉ text) (h3 : '\n' ∉ text)
    (h4 : ∀ n, r.nodeAtPath path = .ok (some n) → '\n' ∉ n.comment ∧ ordinaryLine n) :
    indexAgrees (r.addComment path text).2 := by
  unfold Recipe.addComment
  simp only
  split
  · exact hr
  split
  · exact hr
  cases hst : strToStack path with
  | error e => exact hr
  | ok stack =>
    simp only
    cases htr : traverse r.root stack with
    | none => exact hr
    | some pos =>
      simp only
      cases hna : nodeAt r.root pos with
      | none => obtain ⟨m, hm⟩ := traverse_valid htr; rw [hna] at hm; cases hm
      | some n =>
        have hn := h4 n (by simp only [Recipe.nodeAtPath, hst, bind, Except.bind, htr, Option.bind_some, hna])
        obtain ⟨hnl, ho1, ho2⟩ := hn
        simp only [Option.map_some, Option.getD_some]
        have hsel := selOf_addCommentText n.comment (strip text) hnl (fun h => h1 (strip_subset _ _ h))
          (fun h => h2 (strip_subset _ _ h)) (fun h => h3 (strip_subset _ _ h))
        have hs := similar_setLineComment (R := fun c c' => selOf c' = selOf c) (fun _ => rfl) (n := n)
          (c := Recipe.addCommentText n.comment (strip text)) ho1 (fun x hx hk => (ho2 hk x hx).1) hsel
          (fun x hx hk => by rw [(ho2 hk x hx).2]; exact hsel)
        have hu := similar_updateAt (R := fun c c' => selOf c' = selOf c) (fun _ => rfl) pos r.root n hna hs
        exact Eq.trans hr (rebuild_similar hu).symm

private theorem addSelector_agrees (r : Recipe) (path s : Str) (mode : SelMode) (hr : indexAgrees r) :
    indexAgrees (r.addSelector path s mode).2 := by
  unfold Recipe.addSelector
  repeat' split
  all_goals first
    | exact hr
    | rfl

private theorem perform_agrees (E : Env) (r : Recipe) (c : Call) (hr : indexAgrees r) (hk : keepsIndex E r c) :
    indexAgrees (perform E r c) := by
  cases c with
  | patch p => exact patch_agrees E r p hr hk
  | searchAndPatch re p ic => exact go_agrees E p hk _ r true hr
  | setVariable k v => exact hr
  | delVariable k =>
    simp only [perform, Recipe.delVariable]
    split <;> exact hr
  | addSelector path s mode => exact addSelector_agrees r path s mode hr
  | removeSelector path =>
    simp only [perform, Recipe.removeSelector]
    repeat' split
    all_goals first
      | exact hr
      | rfl
  | addComment path text => exact addComment_agrees r path text hr hk.1 hk.2.1 hk.2.2.1 hk.2.2.2
  | addDependency M dep mode selMode =>
    exact addDependency_steps (P := indexAgrees) (fun r p h hop => patch_agrees E r p h fun hm => absurd hm hop) addSelector_agrees
      M r dep mode selMode hr
  | removeDependency dep => exact patch_agrees E r _ hr fun hm => absurd hm (by simp [field, lookupD])
  | getSelectorPaths s =>
    have h : lookupD s r.selTbl = none := by
      have : r.containsSelector s = false := hk
      unfold Recipe.containsSelector at this
      cases hl : lookupD s r.selTbl with
      | none => rfl
      | some v => rw [hl] at this; cases this
    simp only [perform, Recipe.getSelectorPaths, h]
    exact hr

/-- C19: the index keeps agreeing with the tree through every history of calls none of which is one of the exceptions
listed in `keepsIndex`. -/
theorem C19_agrees_partial (E : Env) (r : Recipe) (calls : List Call) (hr : indexAgrees r)
    (hk : allKeepIndex E r calls) : indexAgrees (performAll E r calls) := by
  induction calls generalizing r with
  | nil => exact hr
  | cons c cs ih => exact ih (perform E r c) (perform_agrees E r c hr hk.1) hk.2

/-- C19: so, for a recipe that was read from a text and then edited, the queries describe the current tree. -/
theorem C19_queries_partial (E : Env) (text : Str) (r₀ : Recipe) (calls : List Call) (h : Recipe.ofString E text = .ok r₀)
    (hk : allKeepIndex E r₀ calls) (h1 : oneLineComments (performAll E r₀ calls).root) :
    let r := performAll E r₀ calls
    FirstOccurrences (selectorsOf r.root) r.listSelectors ∧
    (∀ s, r.containsSelector s = true ↔ s ∈ selectorsOf r.root) ∧
    (∀ s, FirstOccurrences (pathsWith r.root s) (r.getSelectorPaths s).1) :=
  C19_meaning _ (C19_agrees_partial E r₀ calls (C19_initially E text r₀ h) hk) h1

/-- An example recipe with selectors. -/
def exSel : Recipe := Toy.recipe "a:\n  x: 1  # [linux]\n  y: 2  # [win] text\n  z: 3\nl:\n  - b  # [linux]\n"

example : exSel.listSelectors = [§"[linux]", §"[win]"] ∧ (exSel.getSelectorPaths §"[linux]").1 = [§"/a/x", §"/l/0"] ∧
    selectorsOf exSel.root = [§"[linux]", §"[linux]", §"[win]", §"[win]", §"[linux]"] ∧
    pathsWith exSel.root §"[linux]" = [§"/a/x", §"/a/x", §"/l/0"] := by decide +kernel
/-- An example history. -/
def exSelCalls : List Call :=
  [.patch (mkPatch §"remove" §"/a/x"), .addSelector §"/a/z" §"[osx]" .replace, .addComment §"/a/y" §"more"]

example : (performAll Toy.env exSel exSelCalls).listSelectors = [§"[win]", §"[osx]", §"[linux]"] ∧
    ((performAll Toy.env exSel exSelCalls).getSelectorPaths §"[osx]").1 = [§"/a/z"] := by decide +kernel
example (E : Env) (r : Recipe) : allKeepIndex E r [.patch (mkPatch §"remove" §"/a/x"), .removeSelector §"/a/y"] :=
  ⟨fun h => absurd h (by decide), trivial, trivial⟩
example (E : Env) (r : Recipe) (p : PyVal) (h : (r.patch E p).1 = .ok true) : keepsIndex E r (.patch p) := fun _ => Or.inl h
example : (exSel.patch Toy.env (mkPatch §"move" §"/a/w" [(§"from", .str §"/a/x")])).1 = .ok true := by decide +kernel
/-- C19 fails: a selector that enters through `add_comment` is on the line but not in the index. -/
theorem C19_comment_violation :
    let r := perform Toy.env exSel (.addComment §"/a/z" §"only [osx]")
    r.getSelectorAtPath §"/a/z" = .ok §"[osx]" ∧ r.containsSelector §"[osx]" = false ∧
      r.listSelectors = [§"[linux]", §"[win]"] := by decide +kernel

/-- C19 fails: a `move` that fails after its removal step leaves the removed line in the index. -/
theorem C19_failed_move_violation :
    let r := perform Toy.env exSel (.patch (mkPatch §"move" §"/a/y/q" [(§"from", .str §"/a/y")]))
    r.containsValue §"/a/y" = .ok false ∧ (r.getSelectorPaths §"[win]").1 = [§"/a/y"] := by decide +kernel

/-! ## C24 -/

private theorem asked_keys (r : Recipe) (s : Str) : (r.getSelectorPaths s).2.listSelectors = r.listSelectors := by
  unfold Recipe.getSelectorPaths Recipe.listSelectors
  cases h : lookupD s r.selTbl with
  | none => rfl
  | some infos =>
    simp only [keys_insertD]
    rw [if_pos]
    rw [← lookupD_isSome, h]; rfl

private theorem asked_lookup (r : Recipe) (s t : Str) (hst : t ≠ s) :
    lookupD t (r.getSelectorPaths s).2.selTbl = lookupD t r.selTbl := by
  unfold Recipe.getSelectorPaths
  cases h : lookupD s r.selTbl with
  | none => rfl
  | some infos => simp only [lookupD_insertD, hst, if_false]

private theorem asked_rest (r : Recipe) (s : Str) : ∃ tbl, (r.getSelectorPaths s).2 = { r with selTbl := tbl } := by
  unfold Recipe.getSelectorPaths
  cases h : lookupD s r.selTbl with
  | none => exact ⟨r.selTbl, rfl⟩
  | some infos => exact ⟨_, rfl⟩

/-- The recipe after asking for the paths of the given selectors, one after the other. -/
def Spec.afterAsking (r : Recipe) (ss : List Str) : Recipe := ss.foldl (fun r s => (r.getSelectorPaths s).2) r

/-- C24: whatever paths have been asked for before, `list_selectors`, `contains_selector`, `contains_selector_at_path`
and `get_selector_at_path` answer as if nothing had been asked, and so does `get_selector_paths` for every selector it
was not asked about before.  Missing, because false of the code: a second `get_selector_paths` for the same selector. -/
theorem C24_no_side_effects_partial (r : Recipe) (ss : List Str) :
    let r' := afterAsking r ss
    r'.listSelectors = r.listSelectors ∧ (∀ s, r'.containsSelector s = r.containsSelector s) ∧
    (∀ path, r'.containsSelectorAtPath path = r.containsSelectorAtPath path) ∧
    (∀ path d, r'.getSelectorAtPath path d = r.getSelectorAtPath path d) ∧
    (∀ t, t ∉ ss → (r'.getSelectorPaths t).1 = (r.getSelectorPaths t).1) ∧
    r'.render = r.render ∧ r'.modified = r.modified ∧ r'.root = r.root := by
  have hk : (afterAsking r ss).listSelectors = r.listSelectors := by
    unfold afterAsking
    induction ss generalizing r with
    | nil => rfl
    | cons s ss ih => rw [List.foldl_cons, ih, asked_keys]
  have hr : ∃ tbl, afterAsking r ss = { r with selTbl := tbl } := by
    unfold afterAsking
    clear hk
    induction ss generalizing r with
    | nil => exact ⟨r.selTbl, rfl⟩
    | cons s ss ih =>
      rw [List.foldl_cons]
      obtain ⟨t1, h1⟩ := asked_rest r s
      obtain ⟨t2, h2⟩ := ih (r.getSelectorPaths s).2
      exact ⟨t2, by rw [h2, h1]⟩
  have hl : ∀ t, t ∉ ss → lookupD t (afterAsking r ss).selTbl = lookupD t r.selTbl := by
    unfold afterAsking
    clear hk hr
    induction ss generalizing r with
    | nil => intro t _; rfl
    | cons s ss ih =>
      intro t ht
      simp only [List.mem_cons, not_or] at ht
      rw [List.foldl_cons, ih _ t ht.2, asked_lookup r s t ht.1]
  refine ⟨hk, fun s => ?_, ?_, ?_, fun t ht => ?_, ?_, ?_, ?_⟩
  · have e : ∀ r : Recipe, r.containsSelector s = decide (s ∈ r.listSelectors) := by
      intro r
      rw [Bool.eq_iff_iff, decide_eq_true_iff]
      exact lookupD_isSome s r.selTbl
    rw [e, e, hk]
  · obtain ⟨tbl, h⟩ := hr; rw [h]; intro path; rfl
  · obtain ⟨tbl, h⟩ := hr; rw [h]; intro path d; rfl
  · unfold Recipe.getSelectorPaths
    rw [hl t ht]
    cases lookupD t r.selTbl <;> rfl
  · obtain ⟨tbl, h⟩ := hr; rw [h]; rfl
  · obtain ⟨tbl, h⟩ := hr; rw [h]
  · obtain ⟨tbl, h⟩ := hr; rw [h]

example : (exSel.getSelectorPaths §"[win]").1 = [§"/a/y"] ∧
    ((afterAsking exSel [§"[linux]"]).getSelectorPaths §"[win]").1 = [§"/a/y"] := by decide +kernel

/-- C24 fails in general: asked a second time for the same selector, `get_selector_paths` never repeats its answer, it
returns a single empty path however many lines carry the selector. -/
theorem C24_second_answer_violation (r : Recipe) (s : Str) (infos : List SelInfo) (h : lookupD s r.selTbl = some infos)
    (hne : infos ≠ []) : ((r.getSelectorPaths s).2.getSelectorPaths s).1 = [[]] := by
  show _ = [stackToStr []]
  have h2 : lookupD s (r.getSelectorPaths s).2.selTbl = some (infos.map fun i => { i with path := [] }) := by
    simp only [Recipe.getSelectorPaths, h, lookupD_insertD, if_true]
  have h3 : ∀ r' : Recipe, ∀ i', lookupD s r'.selTbl = some i' →
      (r'.getSelectorPaths s).1 = dedupe (i'.map (stackToStr ·.path)) := by
    intro r' i' h'; simp only [Recipe.getSelectorPaths, h']
  rw [h3 _ _ h2]
  simp only [List.map_map, Function.comp_def]
  have hd : ∀ x ∈ dedupe (infos.map fun _ => stackToStr []), x = stackToStr [] := by
    intro x hx
    rw [(C57_dedupe _).1] at hx
    obtain ⟨_, _, h⟩ := List.mem_map.1 hx
    exact h.symm
  have hn := (C57_dedupe (infos.map fun _ => stackToStr [])).2.1
  have hm : stackToStr [] ∈ dedupe (infos.map fun _ => stackToStr []) := by
    rw [(C57_dedupe _).1]
    obtain ⟨i, is, rfl⟩ := List.exists_cons_of_ne_nil hne
    simp
  generalize dedupe (infos.map fun _ => stackToStr []) = l at hd hn hm
  match l, hd, hn, hm with
  | [x], hd, _, _ => rw [hd x (by simp)]
  | x :: y :: l, hd, hn, _ =>
    have h1 := hd x (by simp)
    have h2 := hd y (by simp)
    subst h1
    simp [h2] at hn

example : (exSel.getSelectorPaths §"[linux]").1 = [§"/a/x", §"/l/0"] ∧
    ((afterAsking exSel [§"[linux]"]).getSelectorPaths §"[linux]").1 = [[]] := by decide +kernel

end Crm
