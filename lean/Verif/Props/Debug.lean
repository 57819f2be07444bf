import Verif.Model.Debug
import Verif.Props.FileComments

/-! # What `str(recipe)` shows (C112) -/

namespace Crm.Spec.Doc

mutual
/-- The outline of an entry: a line for the key or the element, one for its value or each entry below it. -/
def outline (level : Nat) : Doc → List Str
  | comment t => [ind level ++ §"|- <Comment: " ++ t ++ §">"]
  | empty k _ => [ind level ++ §"|- " ++ k]
  | scalar k _ v _ => [ind level ++ §"|- " ++ k, ind (level + 1) ++ §"|- " ++ pyStr v]
  | multi k _ _ body => [ind level ++ §"|- " ++ k, ind (level + 1) ++ §"|- " ++ pyStr (.list (body.map .str))]
  | block k _ cs => (ind level ++ §"|- " ++ k) :: outlineL (level + 1) cs
  | item _ v _ => [ind level ++ §"|- " ++ pyStr v]
  | elem first rest => (ind level ++ §"|- " ++ §"<Collection Node>") :: first.outline (level + 1) ++ outlineL (level + 1) rest
def outlineL (level : Nat) : List Doc → List Str
  | [] => []
  | d :: ds => d.outline level ++ outlineL level ds
end

end Crm.Spec.Doc

namespace Crm
open Spec Spec.Doc

/-- A text of lines, each ended by a line break. -/
def Spec.ended (ls : List Str) : Str := (ls.map (· ++ §"\n")).flatten

theorem ind_flatten (n : Nat) : ind n = (List.replicate n §"  ").flatten := by
  induction n with
  | zero => rfl
  | succ n ih =>
    rw [List.replicate_succ, List.flatten_cons, ← ih]
    unfold ind
    rw [show 2 * (n + 1) = 2 * n + 1 + 1 by omega, List.replicate_succ, List.replicate_succ]
    rfl

theorem strTree_eq (depth : Nat) (n : Node) :
    strTree (depth + 1) n = (ind (depth + 1) ++ §"|- " ++ n.shortStr) :: strTrees (depth + 2) n.children := by
  cases n
  rw [ind_flatten]
  rfl

theorem shortStr_value {n : Node} (h : n.value ≠ .sentinel) : n.shortStr = pyStr n.value := by
  unfold Node.shortStr Node.isComment Node.isCollectionElement Node.isSentinel
  simp [h]

mutual
theorem strTree_node {E : Env} (level : Nat) (d : Doc) (h : d.Ok E) : strTree (level + 1) d.node = d.outline (level + 1) := by
  cases d with
  | comment t =>
    obtain ⟨_, ⟨u, hu⟩, _⟩ := h
    subst hu
    rw [strTree_eq]
    simp [node, outline, Node.shortStr, Node.isComment, Node.isSentinel, strTrees]
  | empty k c =>
    rw [strTree_eq, shortStr_value (by simp [node])]
    simp [node, outline, strTrees, pyStr]
  | scalar k vt v c =>
    obtain ⟨_, _, _, _, hv, _⟩ := h
    rw [strTree_eq, shortStr_value (by simp [node])]
    simp only [node, outline, strTrees, pyStr, strTree_eq, List.append_nil]
    rw [shortStr_value hv]
    rfl
  | multi k m c body =>
    rw [strTree_eq, shortStr_value (by simp [node])]
    simp only [node, outline, strTrees, pyStr, strTree_eq, List.append_nil]
    rw [shortStr_value (by simp)]
    rfl
  | block k c cs =>
    obtain ⟨_, _, _, _, _, hc⟩ := h
    rw [strTree_eq, shortStr_value (by simp [node])]
    simp only [node, outline, pyStr, strTrees_nodes (level + 1) cs hc]
  | item vt v c =>
    obtain ⟨_, _, _, _, hv, _⟩ := h
    rw [strTree_eq, shortStr_value hv]
    simp [node, outline, strTrees]
  | elem first rest =>
    obtain ⟨_, _, _, hl, hf, _, hr⟩ := h
    rw [strTree_eq]
    simp only [node, outline, strTrees, strTrees_nodes (level + 1) rest hr]
    have hs : Node.shortStr { comment := first.trail, listMember := true, children := first.node :: nodes rest } = §"<Collection Node>" := by
      simp [Node.shortStr, Node.isComment, Node.isCollectionElement, Node.isSentinel]
    rw [hs]
    cases first with
    | scalar k vt v c =>
      obtain ⟨_, hv, _⟩ := hf
      rw [strTree_eq, shortStr_value (by simp [node])]
      simp only [node, outline, strTrees, pyStr, strTree_eq, List.append_nil]
      rw [shortStr_value hv]
      rfl
    | block k c cs =>
      obtain ⟨_, _, hc⟩ := hf
      rw [strTree_eq, shortStr_value (by simp [node])]
      simp only [node, outline, pyStr, strTrees_nodes (level + 2) cs hc]
      rfl
    | _ => cases hl
theorem strTrees_nodes {E : Env} (level : Nat) (ds : List Doc) (h : OkL E ds) : strTrees (level + 1) (nodes ds) = outlineL (level + 1) ds := by
  cases ds with
  | nil => rfl
  | cons d ds =>
    simp only [nodes, strTrees, outlineL]
    rw [strTree_node level d h.1, strTrees_nodes level ds h.2]
end

theorem joinStr_ended (ls : List Str) (h : ls ≠ []) : joinStr §"\n" ls ++ §"\n" = ended ls := by
  induction ls with
  | nil => exact absurd rfl h
  | cons l ls ih =>
    cases ls with
    | nil => simp [joinStr, ended]
    | cons m ls =>
      rw [joinStr_cons _ _ _ (by simp)]
      have := ih (by simp)
      simp only [ended, List.map_cons, List.flatten_cons, List.append_assoc] at this ⊢
      rw [this]

namespace Spec

/-- `text` shows the recipe `r` whose lines are `ds`: the header, one line per selector with one line per use of it (the uses are those of
`get_selector_paths`), whether the recipe was edited, and the outline of the entries. -/
def DebugShows (cls : Str) (json : List (Str × PyVal) → Str) (ds : List Doc) (r : Recipe) (text : Str) (uses : Str → List (Str × Str)) :
    Prop :=
  (∀ s ∈ r.listSelectors, dedupe ((uses s).map (·.2)) = (r.getSelectorPaths s).1) ∧
  text = ended (
    [§"--------------------", cls ++ §" Instance", §"- Schema Version: " ++ (if r.schema = .v1 then §"1" else §"0"),
      §"- Variables Table:", json r.vars, §"- Selectors Table:"] ++
    r.listSelectors.flatMap (fun s => (§"  " ++ s) :: (uses s).map fun u => §"    - " ++ u.1 ++ §" -> " ++ u.2) ++
    [§"- is_modified?: " ++ (if r.modified = true then §"True" else §"False"), §"- Tree:", §"/"] ++ outlineL 1 ds ++
    [§"--------------------"])

/-- What is shown in the outline. -/
def InOutline (ds : List Doc) (t : Str) : Prop := t = §"/" ∨ ∃ level, ind level ++ §"|- " ++ t ∈ outlineL 1 ds

end Spec

theorem ended_append (a b : List Str) : ended (a ++ b) = ended a ++ ended b := by simp [ended]

theorem strSelectors_eq (tbl : List (Str × List SelInfo)) (hn : (tbl.map (·.1)).Nodup) :
    (tbl.map strSelector).flatten = ended ((tbl.map (·.1)).flatMap fun s => (§"  " ++ s) ::
      (((lookupD s tbl).getD []).map fun i => (i.node.shortStr, stackToStr i.path)).map fun u => §"    - " ++ u.1 ++ §" -> " ++ u.2) := by
  have key : ∀ pre : List (Str × List SelInfo), ((pre ++ tbl).map (·.1)).Nodup →
      (tbl.map strSelector).flatten = ended ((tbl.map (·.1)).flatMap fun s => (§"  " ++ s) ::
        (((lookupD s (pre ++ tbl)).getD []).map fun i => (i.node.shortStr, stackToStr i.path)).map
          fun u => §"    - " ++ u.1 ++ §" -> " ++ u.2) := by
    clear hn
    induction tbl with
    | nil => intro _ _; rfl
    | cons kv tbl ih =>
      intro pre hn
      have hl : lookupD kv.1 (pre ++ kv :: tbl) = some kv.2 := by
        rw [List.map_append, List.map_cons] at hn
        exact lookupD_mid kv.1 kv.2 tbl pre fun h => (List.nodup_append.1 hn).2.2 _ h _ (List.mem_cons_self ..) rfl
      have := ih (pre ++ [kv]) (by simpa using hn)
      rw [List.append_assoc, List.singleton_append] at this
      rw [List.map_cons, List.flatten_cons, this, List.map_cons, List.flatMap_cons, ended_append, hl]
      congr 1
      simp [ended, strSelector, SelInfo.str, List.map_map, Function.comp_def]
  exact key [] hn

theorem shows {E : Env} {cls : Str} {json : List (Str × PyVal) → Str} {ds : List Doc} {r : Recipe} (hr : r.root = root ds)
    (ho : OkL E ds) (hn : r.listSelectors.Nodup) : DebugShows cls json ds r (r.str cls json)
      fun s => ((lookupD s r.selTbl).getD []).map fun i => (i.node.shortStr, stackToStr i.path) := by
  refine ⟨?_, ?_⟩
  · intro s _
    unfold Recipe.getSelectorPaths
    cases hl : lookupD s r.selTbl with
    | none => simp [hl, dedupe]
    | some infos => simp [hl, List.map_map, Function.comp_def]
  · unfold Recipe.str
    have ht : strTree 0 r.root = §"/" :: outlineL 1 ds := by
      rw [hr, root, strTree, strTrees_nodes 0 ds ho]
      rfl
    rw [strSelectors_eq _ hn, ht]
    have hj := joinStr_ended (§"/" :: outlineL 1 ds) (by simp)
    have hj' : joinStr §"\n" (§"/" :: outlineL 1 ds) ++ §"\n" = §"/\n" ++ ended (outlineL 1 ds) := hj
    simp only [ended_append]
    generalize joinStr §"\n" (§"/" :: outlineL 1 ds) = j at hj'
    generalize ended (outlineL 1 ds) = o at hj'
    rw [List.append_assoc _ j, hj']
    simp [ended, Recipe.listSelectors]

mutual
theorem visit_shown (depth : Nat) (path : Option (List Str)) (idx : Nat) (t : Node) (np : Node × List Str) (h : np ∈ visit path idx t) :
    ∃ d, depth ≤ d ∧ (List.replicate d §"  ").flatten ++ (if d = 0 then [] else §"|- ") ++ np.1.shortStr ∈ strTree depth t := by
  obtain ⟨v, c, cs, l, m, k⟩ := t
  rw [visit] at h
  rcases List.mem_cons.1 h with h | h
  · subst h
    exact ⟨depth, Nat.le_refl _, by rw [strTree]; exact List.mem_cons_self ..⟩
  · obtain ⟨d, hi, hd⟩ := visitL_shown (depth + 1) _ _ cs np h
    exact ⟨d, by omega, by rw [strTree]; exact List.mem_cons_of_mem _ hd⟩
theorem visitL_shown (depth : Nat) (p : List Str) (vs : List Nat) (cs : List Node) (np : Node × List Str) (h : np ∈ visitL p vs cs) :
    ∃ d, depth ≤ d ∧ (List.replicate d §"  ").flatten ++ (if d = 0 then [] else §"|- ") ++ np.1.shortStr ∈ strTrees depth cs := by
  cases vs with
  | nil => simp [visitL] at h
  | cons v vs =>
    cases cs with
    | nil => simp [visitL] at h
    | cons c cs =>
      rw [visitL] at h
      rw [strTrees]
      rcases List.mem_append.1 h with h | h
      · obtain ⟨d, hi, hd⟩ := visit_shown depth _ _ c np h
        exact ⟨d, hi, List.mem_append_left _ hd⟩
      · obtain ⟨d, hi, hd⟩ := visitL_shown depth p vs cs np h
        exact ⟨d, hi, List.mem_append_right _ hd⟩
end

theorem selFold_nodes (l : List (Node × List Str)) (tbl : List (Str × List SelInfo)) (P : Node → Prop) (hl : ∀ np ∈ l, P np.1)
    (ht : ∀ s infos, lookupD s tbl = some infos → ∀ i ∈ infos, P i.node) (s : Str) (infos : List SelInfo)
    (h : lookupD s (l.foldl selStep tbl) = some infos) : ∀ i ∈ infos, P i.node := by
  induction l generalizing tbl with
  | nil => exact ht s infos h
  | cons np l ih =>
    refine ih (selStep tbl np) (fun x hx => hl x (List.mem_cons_of_mem _ hx)) ?_ h
    intro s' infos' h'
    unfold selStep at h'
    split at h'
    · exact ht s' infos' h'
    · rename_i t _
      by_cases hs : s' = t
      · subst hs
        rw [lookupD_insertD, if_pos rfl] at h'
        cases h'
        intro i hi
        rcases List.mem_append.1 hi with hi | hi
        · cases hl' : lookupD s' tbl with
          | none => rw [hl'] at hi; cases hi
          | some x => rw [hl'] at hi; exact ht s' x hl' i hi
        · rw [List.mem_singleton.1 hi]; exact hl np (List.mem_cons_self ..)
      · rw [lookupD_insertD, if_neg hs] at h'
        exact ht s' infos' h'

theorem shown_nodes {E : Env} {ds : List Doc} (ho : OkL E ds) (s : Str) (i : SelInfo)
    (h : i ∈ (lookupD s (rebuildSelectors (root ds))).getD []) : InOutline ds i.node.shortStr := by
  cases hl : lookupD s (rebuildSelectors (root ds)) with
  | none => rw [hl] at h; cases h
  | some infos =>
    rw [hl] at h
    rw [rebuildSelectors_fold] at hl
    refine selFold_nodes (visitAll (root ds)) [] (fun n => InOutline ds n.shortStr) ?_ (fun _ _ h => by cases h) s infos hl i h
    intro np hnp
    unfold visitAll root at hnp
    rw [visit] at hnp
    rcases List.mem_cons.1 hnp with h | h
    · subst h; exact .inl rfl
    · obtain ⟨d, hd, hm⟩ := visitL_shown 1 _ _ (nodes ds) np h
      rw [strTrees_nodes 0 ds ho, if_neg (by omega), ← ind_flatten] at hm
      exact .inr ⟨d, hm⟩

/-- C112: what `str(recipe)` shows of a recipe read from a file is the outline of the file, its selectors with their uses, and that it is
unchanged. -/
theorem C112_file (E : Env) (cls : Str) (json : List (Str × PyVal) → Str) (vars : List (Str × PyVal)) (ds : List Doc) (r : Recipe)
    (hv : Writable E vars) (h : Document E ds) (hr : Recipe.ofString E (recipeText vars ds) = .ok r) (hs : r.schema = .v1 → vars = []) :
    r.modified = false ∧ (r.schema = .v0 → r.vars = vars) ∧ TellsSelectors ds r ∧
      ∃ uses, DebugShows cls json ds r (r.str cls json) uses ∧ ∀ s, ∀ u ∈ uses s, InOutline ds u.1 := by
  obtain ⟨_, hroot, hvars⟩ := C31_text_is_kept_partial E vars ds r hv h hr hs
  obtain ⟨rt, sv, _, _, _, e3, _, e4, e5, _⟩ := ofString_parts hr
  have ht := tells_selectors hroot h.1 (C19_initially E _ r hr)
  refine ⟨e4, hvars, ht, _, shows hroot h.1 ht.1.2.1, fun s u hu => ?_⟩
  obtain ⟨i, hi, rfl⟩ := List.mem_map.1 hu
  rw [e5, ← e3, hroot] at hi
  exact shown_nodes h.1 s i hi

/-- C112: the same for a file in any layout. -/
theorem C112_free_layout (E : Env) (cls : Str) (json : List (Str × PyVal) → Str) (vars : List (Str × PyVal)) (ds : List Doc) (fs : List Str)
    (r : Recipe) (ho : OkL E ds) (hf : FreeFile E vars ds fs) (hr : Recipe.ofString E (fileText fs) = .ok r) :
    r.modified = false ∧ (r.schema = .v0 → r.vars = vars) ∧ TellsSelectors ds r ∧
      ∃ uses, DebugShows cls json ds r (r.str cls json) uses ∧ ∀ s, ∀ u ∈ uses s, InOutline ds u.1 := by
  obtain ⟨hroot, hvars⟩ := free_file_opened ho hf hr
  obtain ⟨rt, sv, _, _, _, e3, _, e4, e5, _⟩ := ofString_parts hr
  have ht := tells_selectors hroot ho (C19_initially E _ r hr)
  refine ⟨e4, hvars, ht, _, shows hroot ho ht.1.2.1, fun s u hu => ?_⟩
  obtain ⟨i, hi, rfl⟩ := List.mem_map.1 hu
  rw [e5, ← e3, hroot] at hi
  exact shown_nodes ho s i hi

/-- C112: after any session of edits the outline is that of the edited file. -/
theorem C112_after_session (E : Env) (cls : Str) (json : List (Str × PyVal) → Str) (vars vars' : List (Str × PyVal)) (ds ds' : List Doc)
    (r : Recipe) (calls : List Call) (hv : Writable E vars) (h : Document E ds) (hr : Recipe.ofString E (recipeText vars ds) = .ok r)
    (hs : r.schema = .v1 → vars = [] ∧ ∀ c ∈ calls, changesVariables c = false)
    (he : FileSession E r.schema calls vars ds vars' ds') (ho : OkL E ds') :
    (performAll E r calls).render = recipeText vars' ds' ∧ TellsSelectors ds' (performAll E r calls) ∧
      ∃ uses, DebugShows cls json ds' (performAll E r calls) ((performAll E r calls).str cls json) uses := by
  obtain ⟨_, t2, t3⟩ := C31_text_is_kept_partial E vars ds r hv h hr fun hc => (hs hc).1
  obtain ⟨⟨a1, _, _, _, a5⟩, _⟩ := holds_session (r₀ := r) he (r := r) ⟨t2, rfl, t3, fun _ => rfl, C19_initially E _ r hr⟩
    fun hc => (hs hc).2
  obtain ⟨b1, b2, _⟩ := C106_after_session_partial E vars vars' ds ds' r calls hv h hr hs he ho
  exact ⟨b1, b2, _, shows a1 ho b2.1.2.1⟩

/-- The file of `FileCommentsExample` and the sessions of `FileDepsExample` meet the hypotheses. -/
example := C112_file Toy.env §"RecipeParser" (fun _ => §"{}") [] _ _ FileCommentsExample.writable FileCommentsExample.document
  FileCommentsExample.opened_eq fun _ => rfl
example (r : Recipe) (hr : Recipe.ofString Toy.env (fileText LayoutExample.lines) = .ok r) :=
  C112_free_layout Toy.env §"RecipeParser" (fun _ => §"{}") _ _ _ r LayoutExample.document.1 LayoutExample.free_file hr
example := C112_after_session Toy.env §"RecipeParser" (fun _ => §"{}") _ _ _ _ _ _ FileDepsExample.writable0 FileDepsExample.document0
  FileDepsExample.opened0_eq (fun hs => by rw [FileDepsExample.old_format0] at hs; cases hs) FileDepsExample.session
  FileDepsExample.document.1

/-- A file, with what is shown of it. -/
example :
    (Toy.recipe "# note\npackage:\n  name: foo  # [win]\nsource:\n  - url: a  # [osx]\n    n: 1  # [win]\n").str §"RecipeParser" (fun _ => §"{}") =
      §"--------------------\nRecipeParser Instance\n- Schema Version: 0\n- Variables Table:\n{}\n- Selectors Table:\n  [win]\n    - name -> /package/name\n    - foo -> /package/name\n    - n -> /source/0/n\n    - 1 -> /source/0/n\n  [osx]\n    - <Collection Node> -> /source/0\n    - url -> /source/0/url\n    - a -> /source/0/url\n- is_modified?: False\n- Tree:\n/\n  |- <Comment: # note>\n  |- package\n    |- name\n      |- foo\n  |- source\n    |- <Collection Node>\n      |- url\n        |- a\n      |- n\n        |- 1\n--------------------\n" := by
  decide +kernel

end Crm
