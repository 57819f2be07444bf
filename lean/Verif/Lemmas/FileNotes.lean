import Verif.Lemmas.FileComments
import Verif.Props.Comments
import Verif.Props.FileValue

/-! # The comments in the tree of a document -/

namespace Crm
open Spec Spec.Doc

theorem seen_of_visited {E : Env} {ds : List Doc} (h : OkL E ds) {np : Node × List Str} (hn : np ∈ visitAll (root ds)) (hc : np.1.comment ≠ []) :
    ∃ e ∈ commentsOf ds, e.1.map (rootValue :: ·) = (if np.1.isComment then none else some np.2) ∧ e.2 = np.1.comment := by
  have h1 : (if np.1.isComment then none else some np.2, np.1.comment) ∈ (visitAll (root ds)).filterMap seen :=
    List.mem_filterMap.2 ⟨np, hn, by unfold seen; rw [if_neg hc]⟩
  obtain ⟨e, he, hx⟩ := List.mem_map.1 (((visitAll_comments h).mem _).1 h1)
  rw [Prod.mk.injEq] at hx
  exact ⟨e, he, hx.1, hx.2⟩

theorem file_oneLine {E : Env} {ds : List Doc} (h : OkL E ds) : oneLineComments (root ds) := by
  intro np hn
  by_cases hc : np.1.comment = []
  · rw [hc]; simp
  · obtain ⟨e, he, _, h2⟩ := seen_of_visited h hn hc
    rw [← h2]
    exact commentsL_oneLine E ds h [] 0 e (List.mem_filter.1 he).1

theorem selectorIn_nil : selectorIn [] = none := rfl

theorem tree_selectors {E : Env} {ds : List Doc} (h : OkL E ds) : Stutter (selectorsOf (root ds)) (fileSelectors ds) := by
  have := (visitAll_comments h).filterMap fun e => selectorIn e.2
  rw [List.filterMap_filterMap, List.filterMap_map] at this
  unfold selectorsOf nodesWithPaths fileSelectors
  rw [List.filterMap_map]
  refine (filterMap_congr_mem _ fun np _ => ?_) ▸ this
  unfold seen
  by_cases hc : np.1.comment = []
  · simp [hc, selectorIn_nil]
  · simp [hc]

theorem stackToStr_noSlash (q : List Str) (hq : §"/" ∉ q) : stackToStr q = absPath q := by
  induction q with
  | nil => rfl
  | cons x q ih =>
    rw [stackToStr, if_neg (by rintro rfl; exact hq (by simp [rootValue])), ih fun hm => hq (by simp [hm])]
    simp [absPath]

theorem tree_paths {E : Env} {ds : List Doc} (h : OkL E ds) (hk : NoSlashKey ds) {s : Str} (ha : NotAlone ds s) :
    Stutter (pathsWith (root ds) s) (filePathsWith ds s) := by
  have := (visitAll_comments h).filterMap fun e => if selectorIn e.2 = some s then e.1.map stackToStr else none
  rw [List.filterMap_filterMap, List.filterMap_map] at this
  have e1 : filePathsWith ds s = (commentsOf ds).filterMap
      ((fun e : Option (List Str) × Str => if selectorIn e.2 = some s then e.1.map stackToStr else none) ∘
        fun e => (e.1.map (rootValue :: ·), e.2)) := by
    refine filterMap_congr_mem _ fun e he => ?_
    simp only [Function.comp]
    split
    · cases hp : e.1 with
      | none => rfl
      | some p =>
        have hs := hk e he p hp
        simp only [Option.map_some]
        rw [show stackToStr (rootValue :: p) = stackToStr p by rw [stackToStr, if_pos rfl], stackToStr_noSlash p hs]
    · rfl
  rw [e1]
  unfold pathsWith nodesWithPaths
  rw [show ∀ l : List (Node × Str), (l.filter fun np => decide (selectorIn np.1.comment = some s)).map (·.2) =
      l.filterMap fun np => if selectorIn np.1.comment = some s then some np.2 else none from fun l => by
    induction l with
    | nil => rfl
    | cons x l ih =>
      rw [List.filter_cons, List.filterMap_cons]
      split <;> rename_i hx
      · simp only [decide_eq_true_eq] at hx
        simp only [hx, if_true, List.map_cons, ih]
      · simp only [decide_eq_true_eq] at hx
        simp only [hx, if_false, ih]]
  rw [List.filterMap_map]
  refine (filterMap_congr_mem _ fun np hn => ?_) ▸ this
  unfold seen
  by_cases hc : np.1.comment = []
  · simp [hc, selectorIn_nil]
  · simp only [if_neg hc, Option.bind_some, Function.comp]
    by_cases hs : selectorIn np.1.comment = some s
    · obtain ⟨e, he, h1, h2⟩ := seen_of_visited h hn hc
      cases hcm : np.1.isComment with
      | true =>
        rw [hcm, if_pos rfl, Option.map_eq_none_iff] at h1
        exact absurd h1 (ha e he (by rw [h2]; exact hs))
      | false => simp [hs]
    · simp [hs]

/-- What a recipe whose tree is that of a document, and whose index is in step with it, answers about selectors. -/
theorem selectors_in_tree {E : Env} {r : Recipe} {ds : List Doc} (hr : r.root = root ds) (ho : OkL E ds) (hi : indexAgrees r) :
    FirstOccurrences (fileSelectors ds) r.listSelectors ∧ (∀ s, r.containsSelector s = true ↔ s ∈ fileSelectors ds) ∧
    (NoSlashKey ds → ∀ s, NotAlone ds s → FirstOccurrences (filePathsWith ds s) (r.getSelectorPaths s).1) := by
  obtain ⟨h1, h2, h3⟩ := C19_meaning r hi (hr ▸ file_oneLine ho)
  rw [hr] at h1 h2 h3
  have t := tree_selectors ho
  refine ⟨?_, fun s => (h2 s).trans (t.mem s), fun hk s ha => ?_⟩
  · rw [C57_dedupe_unique _ _ h1.1 h1.2.2, t.dedupe]
    exact C57_dedupe _
  · have h := h3 s
    rw [C57_dedupe_unique _ _ h.1 h.2.2, (tree_paths ho hk ha).dedupe]
    exact C57_dedupe _

theorem leadsTo_not_comment {path : List Str} {ds : List Doc} {d : Doc} (h : LeadsTo path ds d) : d.isComment = false := by
  induction h with
  | @here part pre d post hq =>
    unfold Picks at hq
    split at hq
    · have := hq.1
      cases d <;> first | rfl | cases this
    · have := hq.1
      cases d <;> first | rfl | cases this
  | key _ _ ih => exact ih
  | element _ _ ih => exact ih

theorem ok_trail {E : Env} {d : Doc} (h : d.Ok E) : '\n' ∉ d.trail := by
  have : Plain d.head := by cases d <;> exact h.1.plain
  exact withComment_oneLine this

theorem leadsTo_trail {E : Env} {path : List Str} {ds : List Doc} {d : Doc} (h : LeadsTo path ds d) :
    (∀ x ∈ ds, Fine E x ∧ '\n' ∉ x.trail) → '\n' ∉ d.trail := by
  induction h with
  | here _ => intro hx; exact (hx _ (by simp)).2
  | @key k c cs pre post path d _ _ ih =>
    intro hx
    have hcs := (okL_iff cs).1 (fine_block (hx (block k c cs) (by simp)).1).2.2
    exact ih fun y hy => ⟨Or.inl (hcs y hy), ok_trail (hcs y hy)⟩
  | @element i first rest pre post path d _ _ ih =>
    intro hx
    obtain ⟨h1, h2⟩ := hx (elem first rest) (by simp)
    have ho := fine_element h1 rfl
    refine ih fun y hy => ?_
    rcases List.mem_cons.1 hy with rfl | hy
    · exact ⟨Or.inr ho.2.2.2.2.1, h2⟩
    · have := (okL_iff rest).1 ho.2.2.2.2.2.2 y hy
      exact ⟨Or.inl this, ok_trail this⟩

/-- The comment at the place of an entry. -/
theorem comment_in_tree {E : Env} {r : Recipe} {ds : List Doc} {path : List Str} {d : Doc} (hr : r.root = root ds) (ho : OkL E ds)
    (hp : ∀ x ∈ path, Component x) (h : LeadsTo path ds d) : commentAt r (absPath path) = some d.trail ∧ '\n' ∉ d.trail := by
  have hall := (okL_iff ds).1 ho
  obtain ⟨h1, h2⟩ := leadsTo_lookup (E := E) h r.root (by rw [hr]; rfl) fun x hx => Or.inl (hall x hx)
  have hc : d.node.comment = d.trail := by
    have := leadsTo_not_comment h
    cases d <;> first | rfl | cases this
  have hn : r.nodeAtPath (absPath path) = .ok (some d.node) := by
    unfold Recipe.nodeAtPath
    rw [strToStack_absPath path (leadsTo_ne_nil h) hp]
    simp only [bind, Except.bind]
    rw [traverse_lookup, h1]
  exact ⟨by unfold commentAt; rw [hn]; simp [hc], leadsTo_trail (E := E) h fun x hx => ⟨Or.inl (hall x hx), ok_trail (hall x hx)⟩⟩

/-- What is said of the selector at the place of an entry. -/
theorem selector_in_tree {E : Env} {r : Recipe} {ds : List Doc} {path : List Str} {d : Doc} (hr : r.root = root ds) (ho : OkL E ds)
    (hp : ∀ x ∈ path, Component x) (h : LeadsTo path ds d) :
    r.containsSelectorAtPath (absPath path) = .ok (selectorIn d.trail).isSome ∧
    r.getSelectorAtPath (absPath path) none = (match selectorIn d.trail with | some s => .ok s | none => .error .keyError) := by
  obtain ⟨h1, h2⟩ := comment_in_tree hr ho hp h
  obtain ⟨h3, h4⟩ := C75_selector_at_path r _ _ h1 h2
  cases hs : selectorIn d.trail with
  | some s => exact ⟨(h3 s hs).1, (h3 s hs).2 none⟩
  | none => exact ⟨(h4 hs).1, (h4 hs).2.1⟩

/-- … where there is no entry. -/
theorem no_selector_in_tree {r : Recipe} {ds : List Doc} {path : List Str} (hr : r.root = root ds) (hp : ∀ x ∈ path, Component x)
    (hne : path ≠ []) (ht : ∀ x ∈ path, x ∉ valueTextsL ds) (h : ∀ d, ¬ LeadsTo path ds d) :
    r.containsSelectorAtPath (absPath path) = .ok false ∧ ∀ d, r.getSelectorAtPath (absPath path) d = .error .keyError := by
  have hl : lookup r.root path = none := by
    cases hx : lookup r.root path with
    | none => rfl
    | some x =>
      obtain ⟨d, h1, _⟩ := lookup_leads path ds r.root x hne (by rw [hr]; rfl) ht hx
      exact absurd h1 (h d)
  have hn : r.nodeAtPath (absPath path) = .ok none := by
    unfold Recipe.nodeAtPath
    rw [strToStack_absPath path hne hp]
    simp only [bind, Except.bind]
    rw [traverse_lookup, hl]
  exact ⟨by simp only [Recipe.containsSelectorAtPath, hn, bind, Except.bind],
    fun d => by simp only [Recipe.getSelectorAtPath, hn, bind, Except.bind]⟩

/-! ## The comments table -/

/-- The table entry for a comment. -/
def noteFor (c : Str) : Option Str := Recipe.commentOf { value := .str [], comment := c }

theorem commentOf_noteFor (n : Node) : Recipe.commentOf n = if n.isComment then none else noteFor n.comment := by
  unfold noteFor Recipe.commentOf
  rw [show (⟨.str [], n.comment, [], false, .no, false⟩ : Node).isComment = false from rfl]
  cases n.isComment <;> simp

theorem tree_notes {E : Env} {ds : List Doc} (h : OkL E ds) (hk : NoSlashKey ds) :
    Stutter (noted (root ds)) ((commentsOf ds).filterMap fun e => e.1.bind fun p => (noteFor e.2).map fun t => (absPath p, t)) := by
  have := (visitAll_comments h).filterMap fun e => e.1.bind fun p => (noteFor e.2).map fun t => (stackToStr p, t)
  rw [List.filterMap_filterMap, List.filterMap_map] at this
  have e1 : ((commentsOf ds).filterMap fun e => e.1.bind fun p => (noteFor e.2).map fun t => (absPath p, t)) = (commentsOf ds).filterMap
      ((fun e : Option (List Str) × Str => e.1.bind fun p => (noteFor e.2).map fun t => (stackToStr p, t)) ∘
        fun e => (e.1.map (rootValue :: ·), e.2)) := by
    refine filterMap_congr_mem _ fun e he => ?_
    simp only [Function.comp]
    cases hp : e.1 with
    | none => rfl
    | some p =>
      simp only [Option.map_some, Option.bind_some]
      rw [show stackToStr (rootValue :: p) = stackToStr p by rw [stackToStr, if_pos rfl], stackToStr_noSlash p (hk e he p hp)]
  rw [e1]
  unfold noted nodesWithPaths
  rw [List.filterMap_map]
  refine (filterMap_congr_mem _ fun np _ => ?_) ▸ this
  simp only [Function.comp]
  rw [commentOf_noteFor]
  unfold seen
  by_cases hc : np.1.comment = []
  · simp only [hc, if_true, Option.bind_none]
    have : noteFor [] = none := rfl
    rw [this]
    cases np.1.isComment <;> rfl
  · simp only [if_neg hc, Option.bind_some]
    cases np.1.isComment <;> simp

theorem notes_in_tree {E : Env} {r : Recipe} {ds : List Doc} (hr : r.root = root ds) (ho : OkL E ds) (hk : NoSlashKey ds) (path : Str) :
    ((∀ p c, (some p, c) ∈ commentsOf ds → absPath p ≠ path) → lookupD path r.getCommentsTable = none) ∧
    (∀ c, OnlyComment ds path c → lookupD path r.getCommentsTable = noteFor c) := by
  have ht := (C74_table r path).1
  rw [hr, (tree_notes ho hk).last] at ht
  rw [ht]
  have hmem : ∀ x ∈ ((commentsOf ds).filterMap fun e => e.1.bind fun p => (noteFor e.2).map fun t => (absPath p, t)).reverse,
      ∃ p c, (some p, c) ∈ commentsOf ds ∧ noteFor c = some x.2 ∧ x.1 = absPath p := by
    intro x hx
    obtain ⟨e, he, hb⟩ := List.mem_filterMap.1 (List.mem_reverse.1 hx)
    obtain ⟨p, hp, hb⟩ := Option.bind_eq_some_iff.1 hb
    obtain ⟨t, ht, rfl⟩ := Option.map_eq_some_iff.1 hb
    exact ⟨p, e.2, by rw [← hp]; exact he, ht, rfl⟩
  constructor
  · intro hno
    rw [List.find?_eq_none.2]
    · rfl
    · intro x hx hq
      obtain ⟨p, c, h1, _, h3⟩ := hmem x hx
      exact hno p c h1 (by simp only [decide_eq_true_eq] at hq; rw [← h3, hq])
  · rintro c ⟨⟨p, h1, h2⟩, h3⟩
    cases hf : List.find? (fun e => decide (e.1 = path))
        ((commentsOf ds).filterMap fun e => e.1.bind fun p => (noteFor e.2).map fun t => (absPath p, t)).reverse with
    | some x =>
      obtain ⟨q, c', g1, g2, g3⟩ := hmem x (List.mem_of_find?_eq_some hf)
      have hq := List.find?_some hf
      simp only [decide_eq_true_eq] at hq
      rw [← h3 q c' g1 (by rw [← g3, hq]), g2]
      rfl
    | none =>
      have hx := List.find?_eq_none.1 hf
      cases hn : noteFor c with
      | none => rfl
      | some t =>
        refine absurd ?_ (hx (path, t) (List.mem_reverse.2 (List.mem_filterMap.2 ⟨(some p, c), h1, ?_⟩)))
        · simp
        · simp [hn, h2]

end Crm
