import Verif.Spec.FileValues
import Verif.Lemmas.FileNotes
import Verif.Props.Layout
import Verif.Props.FileSession
import Verif.Props.Queries

/-! # The values found in a file (C107) -/

namespace Crm
open Spec Spec.Doc

/-! ## The values that are visited -/

/-- What is seen of a value: its place, whether it is a key, the value and its comment. -/
def seenValue (np : Node × List Str) : Option (List Str × Bool × PyVal × Str) :=
  if np.1.isLeaf then some (np.2, np.1.key, np.1.value, np.1.comment) else none

/-- What the file says about a value. -/
def saidValue (e : ValueLine) : List Str × Bool × PyVal × Str :=
  match e.value with
  | some v => (rootValue :: e.path, false, v, e.comment)
  | none => (rootValue :: e.path, true, .str e.text, e.comment)

theorem one_number (n : Node) : ∃ i, physToVirt [n] = [i] := by
  have h1 := physToVirt_length [n]
  match physToVirt [n], h1 with
  | [y], _ => exact ⟨y, rfl⟩

theorem visitPath_leaf (P : List Str) (i : Nat) (n : Node) (h1 : n.listMember = false) (h2 : n.key = false) (h3 : n.isLeaf = true) :
    visitPath (some P) i n = P := by
  unfold visitPath
  simp only [h1, Node.isEmptyKey, h2, h3, Bool.false_eq_true, if_false, Bool.false_and, Bool.not_true, Bool.or_self]

mutual
theorem visit_values (E : Env) : ∀ (d : Doc), Fine E d → ∀ (p : List Str) (i : Nat),
    (visit (some (rootValue :: p)) i d.node).filterMap seenValue = (d.values p i).map saidValue
  | comment t, h, p, i => by
    have hc := fine_isComment h
    have hl : (comment t).node.isLeaf = false := by unfold Node.isLeaf; rw [hc]; rfl
    rw [node] at hl ⊢
    rw [visit]
    simp only [List.filterMap_cons, seenValue, hl, Bool.false_eq_true, if_false, values, List.map_nil]
    rfl
  | empty k c, h, p, i => by
    have hl : (⟨.str k, c, [], false, .no, true⟩ : Node).isLeaf = true := rfl
    rw [node, visit]
    simp only [List.filterMap_cons, seenValue, hl, if_true, values, visitL, List.filterMap_nil, List.map_cons, List.map_nil, saidValue,
      visit_key]
    rfl
  | scalar k vt v c, h, p, i => by
    have hv : v ≠ .sentinel := by
      rcases h with h | h
      · exact h.2.2.2.2.1
      · exact h.2.1
    have hl : (⟨v, c, [], false, .no, false⟩ : Node).isLeaf = true := by
      cases v <;> first | rfl | exact absurd rfl hv
    have hk : (⟨.str k, c, [⟨v, c, [], false, .no, false⟩], false, .no, true⟩ : Node).isLeaf = false := rfl
    obtain ⟨j, hj⟩ := one_number ⟨v, c, [], false, .no, false⟩
    rw [node, visit]
    simp only [List.filterMap_cons, seenValue, hk, Bool.false_eq_true, if_false, values, hj, visitL, visit_key, visit, List.append_nil,
      visitPath_leaf _ _ _ (show (⟨v, c, [], false, .no, false⟩ : Node).listMember = false from rfl) rfl hl, hl, if_true,
      List.filterMap_nil, List.map_cons, List.map_nil, saidValue]
    rfl
  | multi k m c body, h, p, i => by
    have hl : (⟨.list (body.map .str), [], [], false, m, false⟩ : Node).isLeaf = true := rfl
    have hk : (⟨.str k, c, [⟨.list (body.map .str), [], [], false, m, false⟩], false, .no, true⟩ : Node).isLeaf = false := rfl
    obtain ⟨j, hj⟩ := one_number ⟨.list (body.map .str), [], [], false, m, false⟩
    rw [node, visit]
    simp only [List.filterMap_cons, seenValue, hk, Bool.false_eq_true, if_false, values, hj, visitL, visit_key, visit, List.append_nil,
      visitPath_leaf _ _ _ (show (⟨.list (body.map .str), [], [], false, m, false⟩ : Node).listMember = false from rfl) rfl hl, hl, if_true,
      List.filterMap_nil, List.map_cons, List.map_nil, saidValue]
    rfl
  | block k c cs, h, p, i => by
    obtain ⟨hne, _, hcs⟩ := fine_block h
    have hall := (okL_iff cs).1 hcs
    have hk : (⟨.str k, c, nodes cs, false, .no, true⟩ : Node).isLeaf = false := by
      cases cs with
      | nil => exact absurd rfl hne
      | cons x xs => rfl
    have ih := visitL_values E cs (fun x hx => Or.inl (hall x hx)) (p ++ [k]) 0
    rw [node, visit]
    simp only [List.filterMap_cons, seenValue, hk, Bool.false_eq_true, if_false, values, visit_key]
    rw [physToVirt_nodes E cs fun x hx => node_isComment (hall x hx)]
    exact ih
  | item vt v c, h, p, i => by
    have hv : v ≠ .sentinel := (fine_element h rfl).2.2.2.2.1
    have hl : (⟨v, c, [], true, .no, false⟩ : Node).isLeaf = true := by
      cases v <;> first | rfl | exact absurd rfl hv
    rw [node, visit]
    simp only [List.filterMap_cons, seenValue, hl, if_true, values, visitL, List.filterMap_nil, List.map_cons, List.map_nil, saidValue,
      visitPath]
    rfl
  | elem first rest, h, p, i => by
    have ho := fine_element h rfl
    have h1 : Fine E first := Or.inr ho.2.2.2.2.1
    have hall : ∀ x ∈ first :: rest, Fine E x := by
      intro x hx
      rcases List.mem_cons.1 hx with rfl | hx
      · exact h1
      · exact Or.inl ((okL_iff rest).1 ho.2.2.2.2.2.2 x hx)
    have hfc : first.isComment = false := by
      have := ho.2.2.2.1
      cases first <;> first | rfl | cases this
    have ih1 := visit_values E first h1 (p ++ [natStr i]) 0
    have ih2 := visitL_values E rest (fun x hx => hall x (by simp [hx])) (p ++ [natStr i]) 1
    have hn := physToVirt_nodes E (first :: rest) fun x hx => fine_isComment (hall x hx)
    rw [nodes] at hn
    simp only [entryNumbers, hfc, Bool.false_eq_true, if_false, Nat.zero_add] at hn
    have hl : (⟨.sentinel, first.trail, first.node :: nodes rest, true, .no, false⟩ : Node).isLeaf = false := rfl
    rw [node, visit]
    simp only [List.filterMap_cons, seenValue, hl, visitPath, if_true, Bool.false_eq_true, if_false, hn, visitL, List.filterMap_append,
      values, List.map_append]
    rw [← ih1, ← ih2]
    rfl
theorem visitL_values (E : Env) : ∀ (ds : List Doc), (∀ d ∈ ds, Fine E d) → ∀ (p : List Str) (i : Nat),
    (visitL (rootValue :: p) (entryNumbers i ds) (nodes ds)).filterMap seenValue = (valuesL p i ds).map saidValue
  | [], _, p, i => by simp only [nodes, entryNumbers, visitL, valuesL, List.filterMap_nil, List.map_nil]
  | d :: ds, h, p, i => by
    have hd := h d (by simp)
    simp only [nodes, entryNumbers, visitL, valuesL, List.filterMap_append, List.map_append]
    rw [visitL_values E ds (fun x hx => h x (by simp [hx])) p _]
    congr 1
    cases hc : d.isComment with
    | false => simpa using visit_values E d hd p i
    | true =>
      have := visit_values E d hd p 0
      cases d with
      | comment t => simpa [values] using this
      | _ => cases hc
end

theorem visitAll_values {E : Env} {ds : List Doc} (h : OkL E ds) (hne : ds ≠ []) :
    (visitAll (root ds)).filterMap seenValue = (valuesOf ds).map saidValue := by
  have hall := (okL_iff ds).1 h
  have := visitL_values E ds (fun x hx => Or.inl (hall x hx)) [] 0
  unfold visitAll root valuesOf
  rw [visit]
  have hl : (⟨.str §"/", [], nodes ds, false, .no, false⟩ : Node).isLeaf = false := by
    cases ds with
    | nil => exact absurd rfl hne
    | cons x xs => rfl
  simp only [List.filterMap_cons, seenValue, hl, Bool.false_eq_true, if_false, visitPath]
  rw [physToVirt_nodes E ds fun x hx => node_isComment (hall x hx)]
  exact this

/-- A query over the values of the tree. -/
theorem query_values {E : Env} {ds : List Doc} (h : OkL E ds) (hne : ds ≠ []) (hk : NoSlashPath ds) (g : Bool → PyVal → Str → Bool)
    (f : ValueLine → Bool) (hf : ∀ e ∈ valuesOf ds, f e = (match e.value with | some v => g false v e.comment | none => g true (.str e.text) e.comment)) :
    ((visitAll (root ds)).filter fun np => np.1.isLeaf && g np.1.key np.1.value np.1.comment).map (stackToStr ·.2) = filePaths ds f := by
  have e1 : ∀ l : List (Node × List Str), (l.filter fun np => np.1.isLeaf && g np.1.key np.1.value np.1.comment).map (stackToStr ·.2) =
      (l.filterMap seenValue).filterMap fun e => if g e.2.1 e.2.2.1 e.2.2.2 then some (stackToStr e.1) else none := by
    intro l
    induction l with
    | nil => rfl
    | cons x l ih =>
      rw [List.filter_cons, List.filterMap_cons,
        show seenValue x = if x.1.isLeaf then some (x.2, x.1.key, x.1.value, x.1.comment) else none from rfl]
      cases x.1.isLeaf with
      | false => simpa using ih
      | true =>
        simp only [if_true, Bool.true_and, List.filterMap_cons]
        cases g x.1.key x.1.value x.1.comment with
        | false => simpa using ih
        | true => simp only [if_true, List.map_cons]; rw [ih]
  rw [e1, visitAll_values h hne, List.filterMap_map]
  unfold filePaths
  have e2 : ∀ l : List ValueLine, (∀ e ∈ l, e ∈ valuesOf ds) →
      l.filterMap ((fun e : List Str × Bool × PyVal × Str => if g e.2.1 e.2.2.1 e.2.2.2 then some (stackToStr e.1) else none) ∘ saidValue) =
        (l.filter f).map fun e => absPath e.path := by
    intro l
    induction l with
    | nil => intro _; rfl
    | cons e l ih =>
      intro hm
      have he := hm e (by simp)
      have hp : stackToStr (rootValue :: e.path) = absPath e.path := by
        rw [stackToStr, if_pos rfl, stackToStr_noSlash _ (hk e he)]
      rw [List.filterMap_cons, List.filter_cons, hf e he, ih fun x hx => hm x (by simp [hx])]
      obtain ⟨path, value, text, c⟩ := e
      cases value with
      | none =>
        simp only [Function.comp, saidValue] at hp ⊢
        by_cases hg : g true (.str text) c = true
        · simp [hg, hp]
        · simp [hg]
      | some v =>
        simp only [Function.comp, saidValue] at hp ⊢
        by_cases hg : g false v c = true
        · simp [hg, hp]
        · simp [hg]
  exact e2 _ fun _ h => h

/-! ## The texts of the values -/

mutual
theorem values_text (E : Env) : ∀ (d : Doc), Fine E d → ∀ (p : List Str) (i : Nat), ∀ e ∈ d.values p i,
    match e.value with | some v => yamlText v = e.text | none => yamlText (.str e.text) = e.text
  | comment t, _, p, i, e, he => by cases he
  | empty k c, h, p, i, e, he => by
    simp only [values, List.mem_singleton] at he
    subst he
    rcases h with h | h
    · exact h.2.2.2
    · exact absurd h id
  | scalar k vt v c, h, p, i, e, he => by
    simp only [values, List.mem_singleton] at he
    subst he
    rcases h with h | h
    · exact h.2.2.2.2.2.symm
    · exact h.2.2.symm
  | multi k m c body, h, p, i, e, he => by
    simp only [values, List.mem_singleton] at he
    subst he
    rfl
  | block k c cs, h, p, i, e, he => valuesL_text E cs (fine_block h).2.2 _ _ e he
  | item vt v c, h, p, i, e, he => by
    simp only [values, List.mem_singleton] at he
    subst he
    exact (fine_element h rfl).2.2.2.2.2.symm
  | elem first rest, h, p, i, e, he => by
    have ho := fine_element h rfl
    rw [values] at he
    rcases List.mem_append.1 he with he | he
    · exact values_text E first (Or.inr ho.2.2.2.2.1) _ _ e he
    · exact valuesL_text E rest ho.2.2.2.2.2.2 _ _ e he
theorem valuesL_text (E : Env) : ∀ (ds : List Doc), OkL E ds → ∀ (p : List Str) (i : Nat), ∀ e ∈ valuesL p i ds,
    match e.value with | some v => yamlText v = e.text | none => yamlText (.str e.text) = e.text
  | [], _, _, _, _, he => by cases he
  | d :: ds, h, p, i, e, he => by
    rw [valuesL] at he
    rcases List.mem_append.1 he with he | he
    · exact values_text E d (Or.inl h.1) p i e he
    · exact valuesL_text E ds h.2 _ _ e he
end

theorem tells_values {E : Env} {r : Recipe} {ds : List Doc} (hr : r.root = root ds) (ho : OkL E ds) (hne : ds ≠ []) (hk : NoSlashPath ds) :
    TellsValues ds r := by
  have ht := valuesL_text E ds ho [] 0
  constructor
  · unfold Recipe.listValuePaths
    rw [hr, ← query_values ho hne hk (fun _ _ _ => true) (fun _ => true) fun e _ => by cases e.value <;> rfl]
    simp
  · intro v hv hv2 hname
    unfold Recipe.findValue
    rw [if_neg (by simp [hv]), hr, ← query_values ho hne hk (fun _ w _ => decide (w = v)) (fun e => decide (e.value = some v)) fun e he => by
      have := hname e he
      cases hx : e.value with
      | some w => simp
      | none => simp [this hx, Ne.symm (this hx)]]
    congr 2
    apply List.filter_congr
    rintro ⟨n, p⟩ _
    rw [Bool.and_assoc, primitive_eq hv]
    simp [hv2]
  · unfold Recipe.findValue
    rw [if_neg (by simp [PyVal.isPrimitive]), hr,
      ← query_values ho hne hk (fun k w _ => k || decide (w = .none)) (fun e => decide (e.value = none) || decide (e.value = some .none))
        fun e _ => by cases hx : e.value <;> simp]
    congr 2
    apply List.filter_congr
    rintro ⟨n, p⟩ _
    rw [Bool.and_assoc, primitive_eq rfl]
    simp only [Node.isEmptyKey]
    cases n.isLeaf <;> cases n.key <;> simp
  · intro re
    unfold Recipe.search
    rw [hr, ← query_values ho hne hk (fun _ w _ => re (yamlText w)) (fun e => re e.text) fun e he => by
      have := ht e he
      cases hx : e.value with
      | some w => rw [hx] at this; simp only at this; simp only [this]
      | none => rw [hx] at this; simp only at this; simp only [this]]
    simp [stringify_text]
  · intro re
    unfold Recipe.search
    show _ = filePaths ds fun e => re (e.text ++ if e.comment = [] then [] else tabStr ++ e.comment)
    rw [hr, ← query_values ho hne hk (fun _ w c => re (yamlText w ++ if c = [] then [] else tabStr ++ c))
      (fun e => re (e.text ++ if e.comment = [] then [] else tabStr ++ e.comment)) fun e he => by
      have := ht e he
      cases hx : e.value with
      | some w => rw [hx] at this; simp only at this; simp only [this]
      | none => rw [hx] at this; simp only at this; simp only [this]]
    simp only [stringify_text]
    congr 2
    funext np
    cases h : np.1.comment with
    | nil => simp
    | cons c cs => simp [List.append_assoc]

/-- C107: the values that a recipe read from a file finds are those in the lines of the file, at the paths of their lines.  Proved for the
documents of `Spec/Document.lean`; keys without a value and texts of several lines are searched as `ValueLine.text` says, see the
violations below. -/
theorem C107_file_partial (E : Env) (vars : List (Str × PyVal)) (ds : List Doc) (r : Recipe) (hv : Writable E vars) (h : Document E ds)
    (hr : Recipe.ofString E (recipeText vars ds) = .ok r) (hs : r.schema = .v1 → vars = []) (hne : ds ≠ []) (hk : NoSlashPath ds) :
    TellsValues ds r := by
  obtain ⟨_, hroot, _⟩ := C31_text_is_kept_partial E vars ds r hv h hr hs
  exact tells_values hroot h.1 hne hk

/-- C107: the same for a file in any layout. -/
theorem C107_free_layout_partial (E : Env) (vars : List (Str × PyVal)) (ds : List Doc) (fs : List Str) (r : Recipe) (ho : OkL E ds)
    (hf : FreeFile E vars ds fs) (hr : Recipe.ofString E (fileText fs) = .ok r) (hne : ds ≠ []) (hk : NoSlashPath ds) : TellsValues ds r :=
  tells_values (free_file_opened ho hf hr).1 ho hne hk

/-- C107: after any session of edits the values found are those in the lines of the edited file. -/
theorem C107_after_session_partial (E : Env) (vars vars' : List (Str × PyVal)) (ds ds' : List Doc) (r : Recipe) (calls : List Call)
    (hv : Writable E vars) (h : Document E ds) (hr : Recipe.ofString E (recipeText vars ds) = .ok r)
    (hs : r.schema = .v1 → vars = [] ∧ ∀ c ∈ calls, changesVariables c = false)
    (he : FileSession E r.schema calls vars ds vars' ds') (ho : OkL E ds') (hne : ds' ≠ []) (hk : NoSlashPath ds') :
    (performAll E r calls).render = recipeText vars' ds' ∧ TellsValues ds' (performAll E r calls) := by
  obtain ⟨t1, t2, t3⟩ := C31_text_is_kept_partial E vars ds r hv h hr fun hc => (hs hc).1
  obtain ⟨⟨a1, _, _, _, a5⟩, _⟩ := holds_session (r₀ := r) he (r := r) ⟨t2, rfl, t3, fun _ => rfl, C19_initially E _ r hr⟩
    fun hc => (hs hc).2
  exact ⟨(C103_session_is_saved_partial E vars vars' ds ds' r calls hv h hr hs he ho).1, tells_values a1 ho hne hk⟩

/-! ## A file that meets the hypotheses -/

namespace FileValuesExample

def file : List Doc :=
  [ comment §"# a recipe",
    block §"package" [] [scalar §"name" §"p" (.str §"p") §"# the name"],
    block §"build" [] [multi §"script" .pipe §"# make it" [§"make", §"make install"], scalar §"number" §"0" (.int 0) [], empty §"noarch" §"# p"],
    block §"requirements" [] [block §"run" [] [item §"a" (.str §"a") [], comment §"# b", item §"p" (.str §"p") []]],
    block §"outputs" [] [elem (scalar §"name" §"q" (.str §"q") []) [scalar §"skip" §"true" (.bool true) []]] ]

theorem document : Document Toy.env file := documentB_sound (by decide +kernel)
theorem writable : Writable Toy.env [] := ⟨by decide, by decide, by decide, by decide, by decide⟩

def opened : Recipe :=
  match Recipe.ofString Toy.env (recipeText [] file) with
  | .ok o => o
  | .error _ => ⟨[], {}, .v0, [], [], false⟩

theorem opened_ok : (Recipe.ofString Toy.env (recipeText [] file)).toOption.isSome = true := by decide +kernel
theorem opened_eq : Recipe.ofString Toy.env (recipeText [] file) = .ok opened := by
  unfold opened
  have := opened_ok
  cases h : Recipe.ofString Toy.env (recipeText [] file) with
  | error e => rw [h] at this; cases this
  | ok o => rfl

theorem no_slash : NoSlashPath file := by unfold NoSlashPath; decide +kernel

theorem tells : TellsValues file opened :=
  C107_file_partial Toy.env [] file opened writable document opened_eq (fun _ => rfl) (by simp [file]) no_slash

/-- What the theorem gives for this file. -/
example : opened.listValuePaths = [§"/package/name", §"/build/script", §"/build/number", §"/build/noarch", §"/requirements/run/0",
    §"/requirements/run/1", §"/outputs/0/name", §"/outputs/0/skip"] := by
  rw [tells.listed]; decide +kernel
example : opened.findValue (.str §"p") = .ok [§"/package/name", §"/requirements/run/1"] := by
  rw [tells.found _ rfl (by decide) (by decide +kernel)]; decide +kernel
example : opened.findValue .none = .ok [§"/build/noarch"] := by
  rw [tells.foundNone]; decide +kernel
example : opened.search (fun s => inStr §"make" s) = [§"/build/script"] := by
  rw [tells.searched]; decide +kernel

/-- The file of `LayoutExample`, as people write it. -/
example (r : Recipe) (hr : Recipe.ofString Toy.env (fileText LayoutExample.lines) = .ok r) :
    r.listValuePaths = [§"/package/name", §"/package/version", §"/build/script", §"/build/number"] := by
  rw [(C107_free_layout_partial Toy.env _ _ _ r LayoutExample.document.1 LayoutExample.free_file hr (by simp [LayoutExample.doc])
    (by unfold NoSlashPath; decide +kernel)).listed]
  decide +kernel

/-- The session of `FileDepsExample`. -/
example : (performAll Toy.env FileDepsExample.opened0 FileDepsExample.calls).findValue (.str §"c 1.*") = .ok [§"/outputs/0/requirements/run/0"] := by
  rw [(C107_after_session_partial Toy.env _ _ _ _ _ _ FileDepsExample.writable0 FileDepsExample.document0 FileDepsExample.opened0_eq
    (fun hs => by rw [FileDepsExample.old_format0] at hs; cases hs) FileDepsExample.session FileDepsExample.document.1
    (by simp [FileDepsExample.file]) (by unfold NoSlashPath; decide +kernel)).2.found _ rfl (by decide) (by decide +kernel)]
  decide +kernel

end FileValuesExample

/-- `search` looks at the name of a key without a value as if it were the value, and with `include_comment` it misses the comment behind
`script: |`. -/
theorem C107_search_violation :
    FileValuesExample.opened.search (fun s => decide (s = §"noarch")) = [§"/build/noarch"] ∧
      FileValuesExample.opened.search (fun s => inStr §"make it" s) true = [] := by
  rw [FileValuesExample.tells.searched, FileValuesExample.tells.searchedComments]; decide +kernel

/-- An empty file has one value, at the empty path. -/
theorem C107_empty_file_violation : (Toy.recipe "").listValuePaths = [[]] ∧ (Toy.recipe "").containsValue [] = .error .indexError := by
  decide +kernel

end Crm
