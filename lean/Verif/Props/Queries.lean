import Verif.Lemmas.Walk
import Verif.Lemmas.Text
import Verif.Props.Lookup
import Verif.Model.Parser

/-!
# Listing and searching values (C05, C06, C64), single values (C61, C62), equality (C33)
-/

namespace Crm
open Spec

/-- The document used in the examples below:
```
a:
  - x
  # note
  - k: 1
e:
t: x
```
-/
def exWalk : Node :=
  { value := .str §"/", children :=
    [{ value := .str §"a", key := true, children :=
        [{ value := .str §"x", listMember := true }, { comment := §"# note" },
         { listMember := true, children := [{ value := .str §"k", key := true, children := [{ value := .int 1 }] }] }] },
     { value := .str §"e", key := true },
     { value := .str §"t", key := true, children := [{ value := .str §"x" }] }] }

/-- The recipe with that document. -/
def exWalkRecipe : Recipe := ⟨[], exWalk, .v0, [], [], false⟩

/-! ## C05 -/

theorem visitAll_root {root : Node} (hl : root.isLeaf = false) :
    (visitAll root).filter (·.1.isLeaf) =
      (visitL [rootValue] (physToVirt root.children) root.children).filter (·.1.isLeaf) := by
  unfold visitAll
  rw [visit_eq, List.filter_cons, if_neg (by simp [hl])]
  rfl

theorem rootNotLeaf {root : Node} (h : regularDocument root = true) : root.isLeaf = false := by
  simp only [regularDocument, Bool.and_eq_true, Bool.not_eq_true'] at h
  simp [Node.isLeaf, h.1.2]

theorem visitAll_path {root : Node} (h : regularDocument root = true) {m : Node} {q : List Str}
    (hm : (m, q) ∈ (visitAll root).filter (·.1.isLeaf)) :
    ∃ s, s ≠ [] ∧ q = rootValue :: s ∧ (∀ c ∈ s, Component c) ∧
      ((bare m = false ∧ lookup root s = some m) ∨ (bare m = true ∧ ∃ x, lookup root s = some x ∧ m ∈ x.children)) := by
  rw [visitAll_root (rootNotLeaf h), List.mem_filter] at hm
  simp only [regularDocument, Bool.and_eq_true, Bool.not_eq_true'] at h
  obtain ⟨s, hs, hc, hr⟩ := visitL_path root h.1.1 [rootValue] m q hm.1 hm.2
  refine ⟨s, ?_, hs, hc, ?_⟩
  · rintro rfl
    rcases hr with ⟨_, h', _⟩ | ⟨hb, x, hx, hmem⟩
    · exact h' rfl
    · simp only [lookup, Option.some.injEq] at hx
      subst hx
      have h2 := List.all_eq_true.1 h.2 m hmem
      simp only [bare, Node.isLeaf, Bool.and_eq_true, Bool.not_eq_true'] at hb
      simp [hb.1, hb.2.1, hb.2.2.2] at h2
  · rcases hr with ⟨a, _, b⟩ | h
    · exact Or.inl ⟨a, b⟩
    · exact Or.inr h

/-- C05: `list_value_paths` has one path per value of the document. -/
theorem C05_one_path_per_value (r : Recipe) : r.listValuePaths.length = (leaves r.root).length := by
  unfold Recipe.listValuePaths visitAll
  rw [List.length_map, ← visit_leaves r.root none 0, List.length_map]

/-- C05: in a regular document the paths come in document order and each leads to its value: the `i`-th path leads to the
`i`-th value of the document, or, if that value is written behind a key, to that key. -/
theorem C05_paths_lead_to_values (r : Recipe) (hreg : regularDocument r.root = true) (i : Nat) (path : Str) (v : Node)
    (hp : r.listValuePaths[i]? = some path) (hv : (leaves r.root)[i]? = some v) :
    r.nodeAtPath path = .ok (some v) ∨ ∃ k, r.nodeAtPath path = .ok (some k) ∧ v ∈ k.children ∧ v.listMember = false := by
  unfold Recipe.listValuePaths at hp
  rw [← visit_leaves r.root none 0, List.getElem?_map] at hv
  rw [List.getElem?_map] at hp
  unfold visitAll at hp
  cases hq : ((visit none 0 r.root).filter (·.1.isLeaf))[i]? with
  | none => rw [hq] at hp; cases hp
  | some mq =>
    obtain ⟨m, q⟩ := mq
    rw [hq] at hp hv
    simp only [Option.map_some, Option.some.injEq] at hp hv
    subst hv
    obtain ⟨s, hs0, hs, hc, hr⟩ := visitAll_path hreg (List.mem_of_getElem? hq)
    have hpath : path = absPath s := by rw [← hp, hs, stackToStr_root s hc]
    have hn : r.nodeAtPath path = .ok (lookup r.root s) := by
      unfold Recipe.nodeAtPath
      rw [hpath, strToStack_absPath s hs0 hc]
      simp only [bind, Except.bind, traverse_lookup]
    rw [hn]
    rcases hr with ⟨_, hr⟩ | ⟨hb, x, hx, hmem⟩
    · exact Or.inl (by rw [hr])
    · refine Or.inr ⟨x, by rw [hx], hmem, ?_⟩
      simp only [bare, Bool.and_eq_true, Bool.not_eq_true'] at hb
      exact hb.1

/-- C05: every listed path exists. -/
theorem C05_listed_paths_exist (r : Recipe) (hreg : regularDocument r.root = true) (path : Str)
    (hp : path ∈ r.listValuePaths) : r.containsValue path = .ok true := by
  obtain ⟨i, hi⟩ := List.getElem?_of_mem hp
  have hlt : i < (leaves r.root).length := by
    rw [← C05_one_path_per_value]; exact (List.getElem?_eq_some_iff.1 hi).1
  have key : ∃ n, r.nodeAtPath path = .ok (some n) := by
    rcases C05_paths_lead_to_values r hreg i path _ hi (List.getElem?_eq_getElem hlt) with h | ⟨k, h, _⟩
    · exact ⟨_, h⟩
    · exact ⟨_, h⟩
  obtain ⟨n, hn⟩ := key
  unfold Recipe.nodeAtPath at hn
  unfold Recipe.containsValue
  cases hs : strToStack path with
  | error e => rw [hs] at hn; cases hn
  | ok st =>
    rw [hs] at hn
    simp only [bind, Except.bind, Except.ok.injEq] at hn ⊢
    rw [traverse_isSome_iff, hn]; rfl

/-- C05: no path is listed twice. -/
theorem C05_paths_distinct (r : Recipe) (hreg : regularDocument r.root = true) : r.listValuePaths.Nodup := by
  have hnd : (((visitAll r.root).filter (·.1.isLeaf)).map (·.2)).Nodup := by
    rw [visitAll_root (rootNotLeaf hreg)]
    simp only [regularDocument, Bool.and_eq_true] at hreg
    exact visitL_nodup r.root hreg.1.1 [rootValue]
  unfold Recipe.listValuePaths
  have e : ((visitAll r.root).filter (·.1.isLeaf)).map (fun np => stackToStr np.2) =
      (((visitAll r.root).filter (·.1.isLeaf)).map (·.2)).map stackToStr := by simp
  rw [e]
  unfold List.Nodup at *
  rw [List.pairwise_map]
  refine hnd.imp_of_mem ?_
  intro a b ha hb hab heq
  obtain ⟨⟨m, q⟩, hmem, rfl⟩ := List.mem_map.1 ha
  obtain ⟨⟨m', q'⟩, hmem', rfl⟩ := List.mem_map.1 hb
  obtain ⟨s, hs0, rfl, hc, _⟩ := visitAll_path hreg hmem
  obtain ⟨s', hs0', rfl, hc', _⟩ := visitAll_path hreg hmem'
  simp only at heq hab
  rw [stackToStr_root s hc, stackToStr_root s' hc'] at heq
  have h1 := strToStack_absPath s hs0 hc
  rw [heq, strToStack_absPath s' hs0' hc'] at h1
  injection h1 with h1
  exact hab h1.symm

example : regularDocument exWalkRecipe.root = true ∧
    exWalkRecipe.listValuePaths = [§"/a/0", §"/a/1/k", §"/e", §"/t"] := by decide

/-- Outside regular documents the claim fails: of two keys whose names look like numbers, neither can be looked up. -/
theorem C05_numeric_key_violation :
    let r : Recipe := ⟨[], { value := .str §"/", children :=
      [{ value := .str §"10", key := true, children := [{ value := .str §"x" }] }] }, .v0, [], [], false⟩
    r.listValuePaths = [§"/10"] ∧ r.containsValue §"/10" = .ok false := by decide

/-! ## C06 and C64 -/

/-- The value a leaf stands for: nothing (`None`) for a key without a value, the value itself otherwise. -/
def Spec.leafValue (n : Node) : PyVal := if n.key then .none else n.value

/-- The paths of those values of the document that satisfy `f`, in document order. -/
def Spec.pathsOf (r : Recipe) (f : Node → Bool) : List Str :=
  (((leaves r.root).zip r.listValuePaths).filter fun vp => f vp.1).map (·.2)

theorem pathsOf_eq (r : Recipe) (f : Node → Bool) :
    pathsOf r f = ((visitAll r.root).filter fun np => np.1.isLeaf && f np.1).map (stackToStr ·.2) := by
  unfold pathsOf Recipe.listValuePaths
  rw [← visit_leaves r.root none 0]
  show ((((((visitAll r.root).filter (·.1.isLeaf)).map (·.1)).zip _).filter _).map _) = _
  rw [List.zip_map', List.filter_map, List.map_map, List.filter_filter]
  simp only [Function.comp_def]
  congr 2
  funext x
  rw [Bool.and_comm]

theorem primitive_eq {a v : PyVal} (hv : v.isPrimitive = true) : (a.sameType v && pyEq a v) = decide (a = v) := by
  cases v <;> simp [PyVal.isPrimitive] at hv <;> cases a <;> simp [PyVal.sameType, pyEq, Bool.beq_eq_decide_eq]

/-- C06: collections are rejected with `ValueError`, and nothing else is. -/
theorem C06_collections_rejected (r : Recipe) (v : PyVal) :
    r.findValue v = .error .valueError ↔ v.isPrimitive = false := by
  unfold Recipe.findValue
  cases v.isPrimitive <;> simp

/-- C06: exactly what `find_value` returns: the paths of the values that are `v`, and of the keys without a value whose
name is `v`. -/
theorem C06_find_value_exact (r : Recipe) (v : PyVal) (hv : v.isPrimitive = true) :
    r.findValue v = .ok (pathsOf r fun n => decide (leafValue n = v) || (n.key && decide (n.value = v))) := by
  unfold Recipe.findValue
  rw [if_neg (by simp [hv]), pathsOf_eq]
  congr 2
  apply List.filter_congr
  rintro ⟨n, p⟩ _
  rw [Bool.and_assoc, primitive_eq hv]
  cases hl : n.isLeaf <;> cases hk : n.key <;> by_cases h1 : n.value = v <;> by_cases h2 : v = .none <;>
    simp [leafValue, Node.isEmptyKey, hl, hk, h1, h2, Ne.symm]
  all_goals first | exact fun h => h2 h.symm | skip

/-- C06: `find_value(v)` returns, in document order, the paths of the values equal to `v`.  What is missing: it also
returns keys without a value that are called `v`, so there must be none of those. -/
theorem C06_find_value_partial (r : Recipe) (v : PyVal) (hv : v.isPrimitive = true)
    (hk : ∀ n ∈ leaves r.root, n.key = true → n.value ≠ v) :
    r.findValue v = .ok (pathsOf r fun n => decide (leafValue n = v)) := by
  rw [C06_find_value_exact r v hv]
  unfold pathsOf
  congr 2
  apply List.filter_congr
  rintro ⟨n, p⟩ hm
  have := hk n (List.of_mem_zip hm).1
  cases hkey : n.key
  · simp [hkey]
  · simp [this hkey]

example : exWalkRecipe.findValue (.str §"x") = .ok [§"/a/0", §"/t"] ∧ exWalkRecipe.findValue .none = .ok [§"/e"] ∧
    (PyVal.str §"x").isPrimitive = true ∧ (∀ n ∈ leaves exWalkRecipe.root, n.key = true → n.value ≠ .str §"x") := by decide

/-- C06 fails in general: a key without a value is reported as holding its own name. -/
theorem C06_key_name_violation :
    exWalkRecipe.findValue (.str §"e") = .ok [§"/e"] ∧
    pathsOf exWalkRecipe (fun n => decide (leafValue n = .str §"e")) = [] := by decide

/-- C64: `search(re)` lists, in document order, exactly the values whose text the expression matches. -/
theorem C64_search (r : Recipe) (re : Str → Bool) :
    r.search re = pathsOf r fun n => re (yamlText n.value) := by
  rw [pathsOf_eq]
  simp [Recipe.search, stringify_text]

/-- C64: with `include_comment` the text searched is the value, followed by its comment if it has one. -/
theorem C64_search_comments (r : Recipe) (re : Str → Bool) :
    r.search re true = pathsOf r fun n =>
      re (yamlText n.value ++ if n.comment = [] then [] else tabStr ++ n.comment) := by
  rw [pathsOf_eq]
  unfold Recipe.search
  simp only [stringify_text]
  congr 2
  funext np
  cases h : np.1.comment with
  | nil => simp
  | cons c cs => simp [List.append_assoc]

example : exWalkRecipe.search (fun s => decide (s = §"x")) = [§"/a/0", §"/t"] := by decide

/-! ## C61 -/

/-- C61: what `get_value` gives for a key without a value: the loader's reading of the key's own name.  What is missing:
it should be `None`; it is, only if the loader reads the name as null. -/
theorem C61_empty_key_partial (E : Env) (r : Recipe) (comps : List Str) (hc : ∀ c ∈ comps, Component c) (hne : comps ≠ [])
    (n : Node) (k : Str) (hn : lookup r.root comps = some n) (he : n.isEmptyKey = true) (hk : n.value = .str k)
    (d : Option PyVal) (sub : Bool) :
    r.getValue E (absPath comps) d sub = parseYaml E k (if sub then some r.ctx else none) := by
  have hl : n.isLeaf = true := by simp only [Node.isEmptyKey, Bool.and_eq_true] at he; exact he.2
  have hcs : n.children = [] := by simp only [Node.isLeaf, Bool.and_eq_true, List.isEmpty_iff] at hl; exact hl.1
  unfold Recipe.getValue getValueIn
  rw [strToStack_absPath comps hne hc]
  simp only [bind, Except.bind, traverse_lookup, hn]
  have hs : n.isSingleKey = false := by simp [Node.isSingleKey, hcs]
  simp only [hs, Bool.false_and, Bool.false_eq_true, if_false, hl, if_true, hk, hcs]
  cases parseYaml E k (if sub = true then some r.ctx else none) with
  | error e => rfl
  | ok v => simp

/-- C61 fails for every name that the loader reads as a text: the answer is the name. -/
theorem C61_violation (E : Env) (r : Recipe) (comps : List Str) (hc : ∀ c ∈ comps, Component c) (hne : comps ≠ [])
    (n : Node) (k : Str) (hn : lookup r.root comps = some n) (he : n.isEmptyKey = true) (hk : n.value = .str k)
    (hload : E.load k = .ok (.str k)) :
    r.getValue E (absPath comps) = .ok (.str k) := by
  rw [C61_empty_key_partial E r comps hc hne n k hn he hk none false]
  simp [parseYaml, hload, subJinja, bind, Except.bind]

example : (∀ c ∈ [§"e"], Component c) ∧ (lookup exWalk [§"e"]).map (·.isEmptyKey) = some true ∧
    exWalkRecipe.getValue Toy.env §"/e" = .ok (.str §"e") ∧ Toy.env.load §"e" = .ok (.str §"e") := by decide

/-! ## C62 -/

/-- C62: a list whose only element is a text comes back as a list: if the element itself reads as a list, that one,
otherwise the list with that one element.  (What is missing: lists whose only element is not a text, see below.) -/
theorem C62_single_text_partial (E : Env) (r : Recipe) (comps : List Str) (hc : ∀ c ∈ comps, Component c) (hne : comps ≠ [])
    (k el : Node) (s : Str) (hn : lookup r.root comps = some k) (hkey : k.key = true) (hroot : k.value ≠ .str §"/")
    (hch : k.children = [el]) (hlm : el.listMember = true) (hlf : el.children = []) (hml : el.multiline = .no)
    (hv : el.value = .str s) (v : PyVal) (sub : Bool)
    (hp : parseYaml E s (if sub then some r.ctx else none) = .ok v) (d : Option PyVal) :
    r.getValue E (absPath comps) d sub = .ok (match v with | .list xs => .list xs | v => .list [v]) := by
  have hleaf : el.isLeaf = true := by simp [Node.isLeaf, Node.isComment, Node.isSentinel, hlf, hv]
  have hs : k.isSingleKey = true := by simp [Node.isSingleKey, hkey, hch, hleaf]
  have hr : k.isRoot = false := by simp [Node.isRoot, hroot]
  unfold Recipe.getValue getValueIn
  rw [strToStack_absPath comps hne hc]
  simp only [bind, Except.bind, traverse_lookup, hn, hs, hr, Bool.not_false, Bool.and_self, if_true, hch, hml, hv, hp,
    ne_eq, not_true_eq_false, if_false, hlm]
  cases v <;> simp

/-- C62: a list of two or more values comes back as whatever the loader makes of the lines `- value`. -/
theorem C62_longer_list (E : Env) (r : Recipe) (comps : List Str) (hc : ∀ c ∈ comps, Component c) (hne : comps ≠ [])
    (k : Node) (hn : lookup r.root comps = some k)
    (hch : ∀ el ∈ k.children, el.listMember = true ∧ el.children = [] ∧ el.value ≠ .sentinel ∧ el.key = false)
    (hlen : 2 ≤ k.children.length) (d : Option PyVal) (sub : Bool) :
    r.getValue E (absPath comps) d sub =
      parseYaml E (joinStr §"\n" (k.children.flatMap fun el =>
        [rstrip (§"- " ++ yamlText el.value ++ §"  " ++ el.comment), []]))
        (if sub then some r.ctx else none) := by
  have hs : k.isSingleKey = false := by
    unfold Node.isSingleKey
    cases hk : k.children with
    | nil => rw [hk] at hlen; simp at hlen
    | cons a l => cases l with
      | nil => rw [hk] at hlen; simp at hlen
      | cons b l => simp
  have hl : k.isLeaf = false := by
    unfold Node.isLeaf
    cases hk : k.children with
    | nil => rw [hk] at hlen; simp at hlen
    | cons a l => rfl
  have hrender : ∀ (n : Node) (cs : List Node),
      (∀ el ∈ cs, el.listMember = true ∧ el.children = [] ∧ el.value ≠ .sentinel ∧ el.key = false) →
      renderChildren (-1) 0 n cs = cs.flatMap fun el =>
        [rstrip (§"- " ++ yamlText el.value ++ §"  " ++ el.comment), []] := by
    intro n cs
    induction cs with
    | nil => intro _; rfl
    | cons c cs ih =>
      intro h
      obtain ⟨_, h2, h3, h4⟩ := h c (by simp)
      have hcm : c.isComment = false := by
        unfold Node.isComment Node.isSentinel
        split <;> simp_all
      have hlf : c.isLeaf = true := by simp [Node.isLeaf, h2, hcm]
      have hek : c.isEmptyKey = false := by simp [Node.isEmptyKey, h4]
      rw [renderChildren, ih fun el hel => h el (List.mem_cons_of_mem _ hel)]
      simp [hcm, hlf, hek, tabs, stringify_text]
  obtain ⟨a, b, l, hk2⟩ : ∃ a b l, k.children = a :: b :: l := by
    cases hk : k.children with
    | nil => rw [hk] at hlen; simp at hlen
    | cons a l => cases l with
      | nil => rw [hk] at hlen; simp at hlen
      | cons b l => exact ⟨a, b, l, rfl⟩
  have ht : renderTree (-1) none k = k.children.flatMap fun el =>
      [rstrip (§"- " ++ yamlText el.value ++ §"  " ++ el.comment), []] := by
    rw [← hrender k k.children hch]
    obtain ⟨v, c, cs, l, m, kk⟩ := k
    rw [renderTree.eq_def]
    simp [hs]
  unfold Recipe.getValue getValueIn
  rw [strToStack_absPath comps hne hc]
  simp only [bind, Except.bind, traverse_lookup, hn, hs, Bool.false_and, Bool.false_eq_true, if_false, hl, ht]
  generalize parseYaml E _ _ = res
  cases res with
  | error e => rfl
  | ok v =>
    simp [hk2]

/-- C62 fails for a list whose only element is not a text: `get_value` returns the element itself. -/
theorem C62_single_scalar_violation (E : Env) (r : Recipe) (comps : List Str) (hc : ∀ c ∈ comps, Component c)
    (hne : comps ≠ []) (k el : Node) (hn : lookup r.root comps = some k) (hkey : k.key = true)
    (hroot : k.value ≠ .str §"/") (hch : k.children = [el]) (hlf : el.children = [])
    (hml : el.multiline = .no) (hv : ∀ s, el.value ≠ .str s) (hsen : el.value ≠ .sentinel) (d : Option PyVal) (sub : Bool) :
    r.getValue E (absPath comps) d sub = .ok el.value := by
  have hcm : el.isComment = false := by
    unfold Node.isComment Node.isSentinel
    split <;> simp_all
  have hleaf : el.isLeaf = true := by simp [Node.isLeaf, hlf, hcm]
  have hs : k.isSingleKey = true := by simp [Node.isSingleKey, hkey, hch, hleaf]
  have hr : k.isRoot = false := by simp [Node.isRoot, hroot]
  unfold Recipe.getValue getValueIn
  rw [strToStack_absPath comps hne hc]
  simp only [bind, Except.bind, traverse_lookup, hn, hs, hr, Bool.not_false, Bool.and_self, if_true, hch, hml,
    ne_eq, not_true_eq_false, if_false, hv]

example : (Toy.recipe "a:\n  - x\n").getValue Toy.env §"/a" = .ok (.list [.str §"x"]) ∧
    (Toy.recipe "a:\n  - 1\n").getValue Toy.env §"/a" = .ok (.int 1) ∧
    (Toy.recipe "a:\n  - 1\n  - 2\n").getValue Toy.env §"/a" = .ok (.list [.int 1, .int 2]) := by decide +kernel

/-! ## C65 -/

/-- C65: joining two absolute paths appends their components. -/
theorem C65_join_absolute (a b : List Str) (ha : ∀ c ∈ a, Component c) (hna : a ≠ []) (hnb : b ≠ []) :
    Recipe.appendToPath (absPath a) (absPath b) = absPath (a ++ b) := by
  unfold Recipe.appendToPath
  have h1 := absPath_ne_nil a hna
  have h2 := absPath_getLast a hna ha
  cases b with
  | nil => exact absurd rfl hnb
  | cons c cs =>
    simp only [if_neg h1, ne_eq, h2, not_false_eq_true, if_true]
    rw [absPath_append, absPath_cons]
    simp

/-- C65: a slash at the end of the base makes no difference. -/
theorem C65_trailing_slash (a : List Str) (ha : ∀ c ∈ a, Component c) (hna : a ≠ []) (ext : Str) :
    Recipe.appendToPath (absPath a ++ §"/") ext = Recipe.appendToPath (absPath a) ext := by
  unfold Recipe.appendToPath
  have h1 := absPath_ne_nil a hna
  have h2 := absPath_getLast a hna ha
  simp [h1, h2]

/-- C65: neither does one in front of the extension. -/
theorem C65_leading_slash (base ext : Str) (h : ext.head? ≠ some '/') :
    Recipe.appendToPath base ('/' :: ext) = Recipe.appendToPath base ext := by
  simp [Recipe.appendToPath, h]

/-- C65: joining to the root, written `/` or as an empty text, gives the absolute path itself. -/
theorem C65_join_root (b : List Str) (hnb : b ≠ []) :
    Recipe.appendToPath §"/" (absPath b) = absPath b ∧ Recipe.appendToPath [] (absPath b) = absPath b := by
  cases b with
  | nil => exact absurd rfl hnb
  | cons c cs => rw [absPath_cons]; simp [Recipe.appendToPath]

example : Recipe.appendToPath §"/outputs/0" §"requirements/host" = §"/outputs/0/requirements/host" := by decide

/-- C65: the package paths of a recipe are the root and one path per output. -/
theorem C65_package_paths (E : Env) (r : Recipe) (outs : List PyVal)
    (h : r.getValue E §"/outputs" (some (.list [])) = .ok (.list outs)) :
    r.getPackagePaths E = .ok (§"/" :: (List.range outs.length).map fun i => absPath [§"outputs", natStr i]) := by
  unfold Recipe.getPackagePaths
  simp only [h, bind, Except.bind, Recipe.pyLen]
  simp [absPath]

/-- C65: a recipe without outputs has the root as its only package path. -/
theorem C65_single_package (E : Env) (r : Recipe) (h : r.isMultiOutput = false) : r.getPackagePaths E = .ok [§"/"] := by
  have hc : r.containsValue §"/outputs" = .ok false := by
    unfold Recipe.isMultiOutput at h
    rcases C04_contains_total r §"/outputs" with ⟨h', _⟩ | ⟨_, b, hb⟩
    · cases h'
    · rw [hb] at h ⊢
      simp only at h
      rw [h]
  rw [C65_package_paths E r [] (C04_default_missing E r _ _ false hc)]
  rfl

example : exWalkRecipe.isMultiOutput = false ∧
    (Toy.recipe "outputs:\n  - name: a\n  - name: b\n").getPackagePaths Toy.env =
      .ok [§"/", §"/outputs/0", §"/outputs/1"] := by decide +kernel

/-! ## C33 -/

/-- C33: recipes are equal exactly when they have the same schema and the same rendering. -/
theorem C33_equal_iff (a b : Recipe) : a.eqRecipe b = true ↔ a.schema = b.schema ∧ a.render = b.render := by
  simp [Recipe.eqRecipe]

/-- C33: equal recipes have equal digests, whatever the digest function. -/
theorem C33_equal_same_digest (sha : Str → Str) (a b : Recipe) (h : a.eqRecipe b = true) :
    a.calcSha256 sha = b.calcSha256 sha := by
  unfold Recipe.calcSha256
  rw [((C33_equal_iff a b).1 h).2]

/-- C33: as far as the digest function does not collide, the digest tells renderings apart. -/
theorem C33_digest_separates (sha : Str → Str) (hinj : ∀ x y, sha x = sha y → x = y) (a b : Recipe) :
    a.calcSha256 sha = b.calcSha256 sha ↔ a.render = b.render :=
  ⟨hinj _ _, fun h => by unfold Recipe.calcSha256; rw [h]⟩

/-- C33: an unmodified recipe has no difference to show, whatever the differ. -/
theorem C33_diff_unmodified (differ : List Str → List Str → List Str) (r : Recipe) (h : r.modified = false) :
    r.diff differ = [] := by
  simp [Recipe.diff, h]

/-- C33: a modified one shows the difference between the text it was read from and its rendering. -/
theorem C33_diff_modified (differ : List Str → List Str → List Str) (r : Recipe) (h : r.modified = true) :
    r.diff differ = joinStr §"\n" (differ (splitlines r.init) (splitlines r.render)) := by
  simp [Recipe.diff, h]

/-- C33: a recipe that has just been read is unmodified and remembers its text. -/
theorem C33_fresh (E : Env) (s : Str) (r : Recipe) (h : Recipe.ofString E s = .ok r) : r.modified = false ∧ r.init = s := by
  unfold Recipe.ofString at h
  simp only [bind, Except.bind] at h
  repeat' split at h
  all_goals first | (cases h; done) | (injection h with h; subst h; exact ⟨rfl, rfl⟩) | skip

/-- Equal recipes that are not the same object state: a variable table does not matter in the V1 schema. -/
example : (Recipe.mk [] exWalk .v1 [] [] false).eqRecipe ⟨§"x", exWalk, .v1, [(§"v", .int 1)], [], true⟩ = true := by
  decide

end Crm
