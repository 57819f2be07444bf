import Verif.Spec.FileDeps
import Verif.Props.DocDeps
import Verif.Lemmas.YamlText
import Verif.Props.SelectorTable

/-! # The dependencies that a file lists (C104) -/

namespace Crm
open Spec Spec.Doc

theorem keyOf_value {d : Doc} {k : Str} (h : d.keyOf = some k) : d.node.value = .str k ∧ d.node.key = true := by
  cases d <;> simp only [Doc.keyOf, Option.some.injEq, reduceCtorEq] at h <;> subst h <;> exact ⟨rfl, rfl⟩

theorem isElement_real {E : Env} {d : Doc} (h : d.isElement = true) (ho : d.Ok E) : real d.node = true ∧ d.node.listMember = true := by
  refine ⟨?_, ?_⟩
  · unfold real
    rw [node_isComment ho]
    cases d <;> first | rfl | cases h
  · cases d <;> first | rfl | cases h

/-- The child that a component names. -/
theorem picks_child {E : Env} {part : Str} {pre post : List Doc} {d : Doc} {n : Node} (h : Picks part pre d)
    (hn : n.children = nodes (pre ++ d :: post)) (ho : d.isElement = true → d.Ok E) : child n part = some d.node := by
  unfold Picks at h
  unfold child
  rw [hn, nodes_append, nodes]
  split at h
  · rename_i hd
    obtain ⟨h1, h2⟩ := h
    obtain ⟨hr, hl⟩ := isElement_real h1 (ho h1)
    rw [if_pos hd, List.filter_append, List.filter_cons, if_pos hr]
    have : natOfStr part = ((nodes pre).filter real).length := by
      rw [h2, nodes_map, ← List.countP_eq_length_filter, List.countP_map]
      rfl
    rw [this]
    simp [hl]
  · rename_i hd
    obtain ⟨h1, h2⟩ := h
    rw [if_neg hd, List.find?_append, List.find?_eq_none.2]
    · rw [List.find?_cons, pyEq_str.2 (keyOf_value h1).1]
      rfl
    · intro x hx he
      exact showsL_fresh (shows_nodes pre) h2 x hx (pyEq_str.1 he)

/-- What is known about an entry of a well-formed document: it is well formed, on its own or behind `- `. -/
def Fine (E : Env) (d : Doc) : Prop := d.Ok E ∨ Doc.Lead E d

theorem fine_element {E : Env} {d : Doc} (h : Fine E d) (he : d.isElement = true) : d.Ok E := by
  rcases h with h | h
  · exact h
  · cases d <;> simp only [Doc.isElement, Doc.Lead, Bool.false_eq_true] at he h

theorem fine_block {E : Env} {k c : Str} {cs : List Doc} (h : Fine E (block k c cs)) :
    cs ≠ [] ∧ (∀ d, cs = [d] → d.isEmpty = false) ∧ OkL E cs := by
  rcases h with h | h
  · exact ⟨h.2.2.2.1, h.2.2.2.2.1, h.2.2.2.2.2⟩
  · exact h

/-- The entry that a path leads to, in the tree. -/
theorem leadsTo_lookup {E : Env} {path : List Str} {ds : List Doc} {d : Doc} (h : LeadsTo path ds d) :
    ∀ n : Node, n.children = nodes ds → (∀ x ∈ ds, Fine E x) → lookup n path = some d.node ∧ Fine E d := by
  induction h with
  | @here part pre d post hp =>
    intro n hn ho
    have hd := ho d (by simp)
    exact ⟨by rw [lookup, picks_child hp hn (fine_element hd)]; rfl, hd⟩
  | @key k c cs pre post path d hp hw ih =>
    intro n hn ho
    have hd := ho (block k c cs) (by simp)
    obtain ⟨h1, h2⟩ := ih (block k c cs).node rfl fun x hx => Or.inl ((okL_iff cs).1 (fine_block hd).2.2 x hx)
    exact ⟨by rw [lookup, picks_child hp hn (fine_element hd)]; exact h1, h2⟩
  | @element i first rest pre post path d hp hw ih =>
    intro n hn ho
    have hd := fine_element (ho (elem first rest) (by simp)) rfl
    obtain ⟨h1, h2⟩ := ih (elem first rest).node rfl fun x hx => by
      rcases List.mem_cons.1 hx with rfl | hx
      · exact Or.inr hd.2.2.2.2.1
      · exact Or.inl ((okL_iff rest).1 hd.2.2.2.2.2.2 x hx)
    exact ⟨by rw [lookup, picks_child hp hn fun _ => hd]; exact h1, h2⟩

theorem leadsTo_below {p q : List Str} {ds cs : List Doc} {k c : Str} {d : Doc} (h1 : LeadsTo p ds (block k c cs)) (h2 : LeadsTo q cs d) :
    LeadsTo (p ++ q) ds d := by
  generalize he : block k c cs = e at h1
  induction h1 with
  | @here part pre d0 post hp =>
    subst he
    have hk : part = k := by
      unfold Picks at hp
      split at hp
      · exact absurd hp.1 (by simp [Doc.isElement])
      · exact (Option.some.inj hp.1).symm
    subst hk
    exact .key hp h2
  | key hp _ ih => exact .key hp (ih he)
  | element hp _ ih => exact .element hp (ih he)

theorem leadsTo_ne_nil {path : List Str} {ds : List Doc} {d : Doc} (h : LeadsTo path ds d) : path ≠ [] := by cases h <;> simp

/-- `get_value` on a section that is no list of one item: what the text of the section is read as. -/
theorem getValue_block {E : Env} {r : Recipe} {ds cs : List Doc} {k c : Str} {path : List Str} {v w : PyVal} (hr : r.root = Doc.root ds)
    (ho : OkL E ds) (hp : ∀ x ∈ path, Component x) (h : LeadsTo path ds (block k c cs)) (hi : ∀ x ∈ cs, x.isElement = false)
    (hv : parseYaml E (text cs) = .ok v) (hf : Filled E r.schema r.vars E.recLimit v w) (d : Option PyVal) :
    r.getValue E (absPath path) d true = .ok w := by
  obtain ⟨h1, h2⟩ := leadsTo_lookup (E := E) h r.root (by rw [hr]; rfl) fun x hx => Or.inl ((okL_iff ds).1 ho x hx)
  obtain ⟨b1, b2, b3⟩ := fine_block h2
  have hns : (block k c cs).node.isSingleKey = false := by
    cases hs : (block k c cs).node.isSingleKey with
    | false => rfl
    | true => obtain ⟨vt, x, c', he⟩ := (block_single b2 b3 k c).1 hs; exact absurd (hi (item vt x c') (by simp [he])) (by simp [Doc.isElement])
  have hleaf : (block k c cs).node.isLeaf = false := by
    cases cs with
    | nil => exact absurd rfl b1
    | cons x xs => rfl
  have htext : joinStr §"\n" (renderTree (-1) none (block k c cs).node) = text cs := by
    rw [node] at hns ⊢
    rw [renderTree_not_single _ _ _ _ _ _ _ _ hns]
    simp only [show decide ((-1 : Int) > -1) = false by decide, Bool.false_and, Bool.false_eq_true, if_false, List.nil_append]
    rw [show (-1 : Int) + 1 = 0 by omega, render_documentLines E cs b3 _ (by simp [Node.isCollectionElement])]
    rfl
  have hwrap : (match (block k c cs).node.children with | [x] => x.listMember | _ => false) = false := by
    rw [node]
    match cs, hi with
    | [], _ => rfl
    | [x], hi =>
      have := hi x (by simp)
      cases x <;> first | rfl | exact absurd this (by simp [Doc.isElement])
    | _ :: _ :: _, _ => rfl
  have hy : parseYaml E (text cs) (some r.ctx) = .ok w := parseYaml_filled E r.ctx _ v w hv hf
  unfold Recipe.getValue getValueIn
  rw [strToStack_absPath path (leadsTo_ne_nil h) hp]
  simp only [bind, Except.bind, if_pos]
  rw [traverse_lookup, h1]
  simp only [hns, Bool.false_and, Bool.false_eq_true, if_false, hleaf, htext]
  rw [hy]
  simp only
  rw [if_neg]
  intro hw
  simp only [Bool.and_eq_true] at hw
  exact Bool.false_ne_true (hwrap.symm.trans hw.2)

/-- `get_value` where there is nothing gives the default. -/
theorem getValue_absent {E : Env} {r : Recipe} {path : List Str} (hne : path ≠ []) (hp : ∀ x ∈ path, Component x)
    (h : lookup r.root path = none) (d : PyVal) (b : Bool) : r.getValue E (absPath path) (some d) b = .ok d := by
  unfold Recipe.getValue getValueIn
  rw [strToStack_absPath path hne hp]
  simp only [bind, Except.bind]
  rw [traverse_lookup, h]

theorem lookup_fresh {n : Node} {ds : List Doc} {k : Str} (hn : n.children = nodes ds) (hk : isDigitS k = false) (hf : Fresh k ds) :
    lookup n [k] = none := by
  unfold lookup child
  rw [if_neg (by simp [hk]), hn, List.find?_eq_none.2]
  · rfl
  · intro x hx he
    exact showsL_fresh (shows_nodes ds) hf x hx (pyEq_str.1 he)

/-- The selector on the line of an item. -/
theorem selector_item {E : Env} {r : Recipe} {ds : List Doc} {path : List Str} {vt c : Str} {v : PyVal} (hr : r.root = Doc.root ds)
    (ho : OkL E ds) (hp : ∀ x ∈ path, Component x) (h : LeadsTo path ds (item vt v c)) :
    (r.getSelectorAtPath (absPath path)).toOption = selectorIn c := by
  obtain ⟨h1, h2⟩ := leadsTo_lookup (E := E) h r.root (by rw [hr]; rfl) fun x hx => Or.inl ((okL_iff ds).1 ho x hx)
  have hok := fine_element h2 rfl
  have hnl : '\n' ∉ c := by
    intro hc
    have := hok.1.plain.oneLine '\n' (by
      unfold Doc.head Doc.trail withComment
      split
      · rename_i h0; rw [h0] at hc; cases hc
      · simp [hc])
    exact absurd this (by decide)
  unfold Recipe.getSelectorAtPath Recipe.nodeAtPath
  rw [strToStack_absPath path (leadsTo_ne_nil h) hp]
  simp only [bind, Except.bind]
  rw [traverse_lookup, h1]
  have hs := selectorIn_search c hnl
  simp only [node]
  cases hm : Regex.selector.search c with
  | none => rw [hm] at hs; exact hs
  | some m => rw [hm] at hs; exact hs

theorem numbered_mem {E : Env} {i : Nat} {v : PyVal} {c : Str} : ∀ {cs : List Doc} {n : Nat}, OkL E cs → (i, v, c) ∈ numbered n cs →
    ∃ pre vt post, cs = pre ++ item vt v c :: post ∧ i = n + entryCount pre
  | [], _, _, h => by cases h
  | d :: ds, n, ho, h => by
    have step : ∀ m, entryCount [d] = m → (i, v, c) ∈ numbered (n + m) ds → ∃ pre vt post, d :: ds = pre ++ item vt v c :: post ∧
        i = n + entryCount pre := by
      intro m hm h
      obtain ⟨pre, vt, post, h1, h2⟩ := numbered_mem ho.2 h
      refine ⟨d :: pre, vt, post, by rw [h1]; rfl, ?_⟩
      have : entryCount (d :: pre) = entryCount [d] + entryCount pre := by
        simp only [entryCount, List.countP_cons, List.countP_nil]; omega
      omega
    have hreal : entryCount [d] = if d.isComment then 0 else 1 := by
      simp only [entryCount, List.countP_cons, List.countP_nil, real, node_isComment ho.1]
      cases d.isComment <;> rfl
    cases d with
    | item vt w c' =>
      simp only [numbered, List.mem_cons, Prod.mk.injEq] at h
      rcases h with ⟨rfl, rfl, rfl⟩ | h
      · exact ⟨[], vt, ds, rfl, by simp [entryCount]⟩
      · exact step 1 (by rw [hreal]; rfl) h
    | comment t => exact step 0 (by rw [hreal]; rfl) (by simpa [numbered, Doc.isComment] using h)
    | empty k c' => exact step 1 (by rw [hreal]; rfl) (by simpa [numbered, Doc.isComment] using h)
    | scalar k vt w c' => exact step 1 (by rw [hreal]; rfl) (by simpa [numbered, Doc.isComment] using h)
    | multi k m c' b => exact step 1 (by rw [hreal]; rfl) (by simpa [numbered, Doc.isComment] using h)
    | block k c' b => exact step 1 (by rw [hreal]; rfl) (by simpa [numbered, Doc.isComment] using h)
    | elem a b => exact step 1 (by rw [hreal]; rfl) (by simpa [numbered, Doc.isComment] using h)

/-- The entries in front of a section have other names. -/
theorem mapping_fresh {reqs : List Doc} {d : List (Str × PyVal)} (h : MappingOf reqs d) : ∀ {pre post : List Doc} {k c : Str} {cs : List Doc},
    (d.map (·.1)).Nodup → reqs = pre ++ block k c cs :: post → Fresh k pre ∧ k ∈ d.map (·.1) := by
  have key : ∀ {ds : List Doc} {e : Doc} {k' : Str} {v : PyVal} {d : List (Str × PyVal)} {pre post : List Doc} {k c : Str} {cs : List Doc},
      e.keyOf = some k' → (((k', v) :: d).map (·.1)).Nodup → e :: ds = pre ++ block k c cs :: post →
      (∀ {pre post : List Doc} {k c : Str} {cs : List Doc}, (d.map (·.1)).Nodup → ds = pre ++ block k c cs :: post → Fresh k pre ∧ k ∈ d.map (·.1)) →
      Fresh k pre ∧ k ∈ ((k', v) :: d).map (·.1) := by
    intro ds e k' v d pre post k c cs he hn hreq ih
    cases pre with
    | nil =>
      simp only [List.nil_append, List.cons.injEq] at hreq
      rw [hreq.1] at he
      have : k' = k := (Option.some.inj he).symm
      exact ⟨by simp [Fresh], by simp [this]⟩
    | cons p pre =>
      simp only [List.cons_append, List.cons.injEq] at hreq
      simp only [List.map_cons, List.nodup_cons] at hn
      obtain ⟨h1, h2⟩ := ih hn.2 hreq.2
      refine ⟨?_, List.mem_cons_of_mem _ h2⟩
      intro x hx
      rcases List.mem_cons.1 hx with rfl | hx
      · rw [← hreq.1, (keyOf_value he).1]
        intro hk
        injection hk with hk
        exact hn.1 (hk ▸ h2)
      · exact h1 x hx
  induction h with
  | nil => intro pre post k c cs _ h; simp at h
  | @comment ds d t _ ih =>
    intro pre post k c cs hn hreq
    cases pre with
    | nil => simp at hreq
    | cons p pre =>
      simp only [List.cons_append, List.cons.injEq] at hreq
      obtain ⟨h1, h2⟩ := ih hn hreq.2
      refine ⟨?_, h2⟩
      intro x hx
      rcases List.mem_cons.1 hx with rfl | hx
      · rw [← hreq.1]; intro h; cases h
      · exact h1 x hx
  | texts k' c' cs' _ _ _ _ ih => intro pre post k c cs hn hreq; exact key (e := block k' c' cs') rfl hn hreq ih
  | other e k' v he _ _ ih => intro pre post k c cs hn hreq; exact key he hn hreq ih

theorem strToDepSection_not_number {k : Str} (h : (strToDepSection k).isSome = true) (hk : '/' ∉ k) : isDigitS k = false := by
  have := Spec.SectionPath.not_number (comps := [§"requirements", k]) ⟨k, h, hk, Or.inl rfl⟩
  simpa [endsInNumber] using this

/-- A dependency line stands at its path. -/
theorem line_leads {E : Env} {reqs : List Doc} {d : List (Str × PyVal)} (hm : MappingOf reqs d) (hn : (d.map (·.1)).Nodup) (ho : OkL E reqs)
    (l : DepLine) (hl : l ∈ dependencyLines reqs) (hk : '/' ∉ l.name) :
    (∃ vt, LeadsTo [l.name, natStr l.number] reqs (item vt (.str l.text) l.comment)) ∧ (strToDepSection l.name).isSome = true := by
  unfold dependencyLines at hl
  rw [List.mem_flatMap] at hl
  obtain ⟨e, he, hl⟩ := hl
  cases e <;> simp only [sectionLines, List.not_mem_nil] at hl
  rename_i k c cs
  cases hs : strToDepSection k with
  | none => simp only [hs, List.not_mem_nil] at hl
  | some s =>
    simp only [hs, List.mem_filterMap] at hl
    obtain ⟨⟨i, v, c'⟩, hi, hl⟩ := hl
    cases v <;> simp only [Option.some.injEq, reduceCtorEq] at hl
    subst hl
    obtain ⟨pre, post, hreq⟩ := List.append_of_mem he
    have hok : OkL E cs := (fine_block (Or.inl ((okL_iff reqs).1 ho _ he))).2.2
    obtain ⟨ipre, vt, ipost, h1, h2⟩ := numbered_mem hok hi
    refine ⟨⟨vt, ?_⟩, by simp [hs]⟩
    subst hreq h1
    have hnum := strToDepSection_not_number (k := k) (by simp [hs]) hk
    refine .key ?_ (.here ?_)
    · unfold Picks
      rw [if_neg (by simp [hnum])]
      exact ⟨rfl, (mapping_fresh hm hn rfl).1⟩
    · unfold Picks
      rw [if_pos (isDigitS_natStr _)]
      exact ⟨rfl, by rw [natOfStr_natStr, h2]; simp⟩

theorem mapping_known {reqs : List Doc} {d : List (Str × PyVal)} (h : MappingOf reqs d) (l : DepLine) (hl : l ∈ dependencyLines reqs) :
    '/' ∉ l.name := by
  induction h with
  | nil => cases hl
  | comment t _ ih => exact ih (by simpa [dependencyLines, sectionLines] using hl)
  | @texts ds d k c cs h1 h2 h3 _ ih =>
    simp only [dependencyLines, List.flatMap_cons, List.mem_append] at hl
    rcases hl with hl | hl
    · cases hs : strToDepSection k with
      | none => rw [hs] at h1; cases h1
      | some s =>
        simp only [sectionLines, hs, List.mem_filterMap] at hl
        obtain ⟨⟨i, v, c'⟩, _, hl⟩ := hl
        cases v <;> simp only [Option.some.injEq, reduceCtorEq] at hl
        subst hl
        exact h2
    · exact ih hl
  | @other ds d e k v h1 h2 _ ih =>
    simp only [dependencyLines, List.flatMap_cons, List.mem_append] at hl
    rcases hl with hl | hl
    · cases e <;> simp only [sectionLines, List.not_mem_nil] at hl
      injection h1 with h1
      simp only [h1, h2, List.not_mem_nil] at hl
    · exact ih hl

/-- The line as an entry in the sense of C36. -/
def lineEntry (fill : Str → Str) (path : Str) (l : DepLine) : Option Entry :=
  if strip (fill l.text) = [] then none
  else some ⟨l.type, prefixOf path ++ absPath [§"requirements", l.name, natStr l.number], strip (fill l.text)⟩

theorem filled_str {E : Env} {schema : Schema} {vars : List (Str × PyVal)} {n : Nat} {t u : Str} {v : PyVal}
    (h : Filled E schema vars n (.str t) v) (hu : Fills E schema vars t (.str u)) : v = .str u := by
  cases h with
  | text h _ =>
    have h := fills_render h
    rw [fills_render hu] at h
    injection h with h
    exact h.symm
  | other _ h => exact absurd rfl (h t)

theorem filled_list {E : Env} {schema : Schema} {vars : List (Str × PyVal)} {n : Nat} {xs : List PyVal} {v : PyVal}
    (h : Filled E schema vars n (.list xs) v) : ∃ (g : PyVal → PyVal) (m : Nat), v = .list (xs.map g) ∧ ∀ x ∈ xs, Filled E schema vars m x (g x) := by
  cases h with
  | other h _ => exact absurd h id
  | list g h => exact ⟨g, _, rfl, h⟩

theorem filled_dict {E : Env} {schema : Schema} {vars : List (Str × PyVal)} {n : Nat} {kvs : List (Str × PyVal)} {v : PyVal}
    (h : Filled E schema vars n (.dict kvs) v) :
    ∃ (g : Str × PyVal → PyVal) (m : Nat), v = .dict (kvs.map fun kv => (kv.1, g kv)) ∧ ∀ kv ∈ kvs, Filled E schema vars m kv.2 (g kv) := by
  cases h with
  | other h _ => exact absurd h id
  | dict g h => exact ⟨g, _, rfl, h⟩

theorem texts_lines (fill : Str → Str) (path k : Str) (s : DepSection) (g : PyVal → PyVal) : ∀ (cs : List Doc) (n : Nat), TextList cs →
    (∀ i t c, (i, .str t, c) ∈ numbered n cs → g (.str t) = .str (fill t)) →
    (((((numbered n cs).map (·.2.1)).map g).zipIdx n).filterMap fun vi => match vi.1 with
        | .str s => if strip s = [] then none else some (vi.2, strip s)
        | _ => none).map (fun it => (⟨s, prefixOf path ++ absPath [§"requirements", k, natStr it.1], it.2⟩ : Entry)) =
      (((numbered n cs).filterMap fun (i, v, c) => match v with
        | .str t => some (⟨s, k, i, t, c⟩ : DepLine)
        | _ => none).filterMap (lineEntry fill path)) := by
  intro cs
  induction cs with
  | nil => intro n _ _; rfl
  | cons d ds ih =>
    intro n ht hg
    rcases ht d (by simp) with hc | ⟨vt, t, c, rfl⟩
    · cases d <;> first | cases hc | skip
      have hnum : ∀ t, numbered n (comment t :: ds) = numbered n ds := fun t => rfl
      rw [hnum] at hg ⊢
      exact ih n (fun x hx => ht x (by simp [hx])) hg
    · have hnum : numbered n (item vt (.str t) c :: ds) = (n, .str t, c) :: numbered (n + 1) ds := rfl
      rw [hnum] at hg ⊢
      have h1 := hg n t c (by simp)
      have h2 := ih (n + 1) (fun x hx => ht x (by simp [hx])) fun i t c h => hg i t c (by simp [h])
      simp only [List.map_cons, List.zipIdx_cons, List.filterMap_cons, h1]
      by_cases hb : strip (fill t) = []
      · simp only [if_pos hb, lineEntry]
        exact h2
      · simp only [if_neg hb, List.map_cons, lineEntry]
        rw [h2]

theorem declared_lines {E : Env} {schema : Schema} {vars : List (Str × PyVal)} {m : Nat} (fill : Str → Str) (path : Str) (g : Str × PyVal → PyVal)
    {reqs : List Doc} {d : List (Str × PyVal)} (h : MappingOf reqs d) : (∀ kv ∈ d, Filled E schema vars m kv.2 (g kv)) →
    (∀ l ∈ dependencyLines reqs, Fills E schema vars l.text (.str (fill l.text))) →
    declared path (d.map fun kv => (kv.1, g kv)) = (dependencyLines reqs).filterMap (lineEntry fill path) ∧
      textLists (d.map fun kv => (kv.1, g kv)) := by
  induction h with
  | nil => intro _ _; exact ⟨rfl, by intro kv hkv; cases hkv⟩
  | comment t _ ih => intro h1 h2; exact ih h1 (by simpa [dependencyLines, sectionLines] using h2)
  | @texts ds d k c cs hs hk ht _ ih =>
    intro h1 h2
    obtain ⟨i1, i2⟩ := ih (fun kv hkv => h1 kv (by simp [hkv])) fun l hl => h2 l (by
      simp only [dependencyLines, List.flatMap_cons, List.mem_append] at hl ⊢; exact Or.inr hl)
    obtain ⟨gl, n, hgl, hel⟩ := filled_list (h1 _ (List.mem_cons_self ..))
    obtain ⟨s, hs'⟩ := Option.isSome_iff_exists.1 hs
    have hg : ∀ i t c', (i, .str t, c') ∈ numbered 0 cs → gl (.str t) = .str (fill t) := by
      intro i t c' hi
      refine filled_str (hel (.str t) (List.mem_map.2 ⟨_, hi, rfl⟩)) (h2 ⟨s, k, i, t, c'⟩ ?_)
      simp only [dependencyLines, List.flatMap_cons, List.mem_append]
      refine Or.inl ?_
      simp only [sectionLines, hs', List.mem_filterMap]
      exact ⟨_, hi, rfl⟩
    refine ⟨?_, ?_⟩
    · simp only [List.map_cons, declared, List.flatMap_cons, hgl, hs', dependencyLines, List.filterMap_append]
      refine congr (congrArg _ ?_) i1
      unfold sectionEntries texts
      refine (texts_lines fill path k s gl cs 0 ht hg).trans ?_
      simp only [sectionLines, hs']
      rfl
    · intro kv hkv hks
      rcases List.mem_cons.1 hkv with rfl | hkv
      · refine ⟨_, hgl, ?_⟩
        intro x hx
        obtain ⟨y, hy, rfl⟩ := List.mem_map.1 hx
        obtain ⟨⟨i, v, c'⟩, hi, rfl⟩ := List.mem_map.1 hy
        have : ∃ t, v = .str t := by
          have key : ∀ (cs : List Doc) (n : Nat), TextList cs → (i, v, c') ∈ numbered n cs → ∃ t, v = .str t := by
            intro cs
            induction cs with
            | nil => intro n _ h; cases h
            | cons e es ihe =>
              intro n ht h
              rcases ht e (by simp) with hc | ⟨vt, t, c, rfl⟩
              · cases e <;> first | cases hc | skip
                exact ihe n (fun x hx => ht x (by simp [hx])) h
              · simp only [numbered, List.mem_cons, Prod.mk.injEq] at h
                rcases h with ⟨_, rfl, _⟩ | h
                · exact ⟨t, rfl⟩
                · exact ihe _ (fun x hx => ht x (by simp [hx])) h
          exact key cs 0 ht hi
        obtain ⟨t, rfl⟩ := this
        exact Or.inr ⟨_, hg i t c' hi⟩
      · exact i2 kv hkv hks
  | @other ds d e k v he hk _ ih =>
    intro h1 h2
    obtain ⟨i1, i2⟩ := ih (fun kv hkv => h1 kv (by simp [hkv])) fun l hl => h2 l (by
      simp only [dependencyLines, List.flatMap_cons, List.mem_append] at hl ⊢; exact Or.inr hl)
    refine ⟨?_, ?_⟩
    · simp only [List.map_cons, declared, List.flatMap_cons, hk, List.nil_append, dependencyLines]
      have : sectionLines e = [] := by
        cases e <;> first | rfl | skip
        injection he with he
        simp only [sectionLines, he, hk]
      simp only [List.filterMap_append]
      rw [this]
      exact i1
    · intro kv hkv hks
      rcases List.mem_cons.1 hkv with rfl | hkv
      · simp only [hk] at hks; cases hks
      · exact i2 kv hkv hks

theorem mapping_no_element {reqs : List Doc} {d : List (Str × PyVal)} (h : MappingOf reqs d) : ∀ x ∈ reqs, x.isElement = false := by
  induction h with
  | nil => simp
  | comment t _ ih => 
    intro x hx
    rcases List.mem_cons.1 hx with rfl | hx
    · rfl
    · exact ih x hx
  | texts k c cs _ _ _ _ ih => 
    intro x hx
    rcases List.mem_cons.1 hx with rfl | hx
    · rfl
    · exact ih x hx
  | other e k v he _ _ ih =>
    intro x hx
    rcases List.mem_cons.1 hx with rfl | hx
    · cases x <;> first | rfl | cases he
    · exact ih x hx

/-- What is found about a package whose block of requirements is at `comps`. -/
theorem package_found {E : Env} {r : Recipe} {ds reqs : List Doc} {comps : List Str} {c path : Str} {d : List (Str × PyVal)} {w : PyVal}
    (fill : Str → Str) (hr : r.root = Doc.root ds) (ho : OkL E ds) (hp : ∀ x ∈ comps, Component x)
    (h : LeadsTo comps ds (block §"requirements" c reqs)) (hy : YamlReads E reqs d)
    (hf : Filled E r.schema r.vars E.recLimit (.dict d) w)
    (ht : ∀ l ∈ dependencyLines reqs, Fills E r.schema r.vars l.text (.str (fill l.text)))
    (hpre : prefixOf path ++ §"/requirements" = absPath comps) (happ : Recipe.appendToPath path §"/requirements" = absPath comps) :
    ∃ d1, r.getValue E (Recipe.appendToPath path §"/requirements") (some (.dict [])) true = .ok (.dict d1) ∧ textLists d1 ∧
      declared path d1 = (dependencyLines reqs).filterMap (lineEntry fill path) ∧
      ∀ l ∈ dependencyLines reqs,
        (r.getSelectorAtPath (prefixOf path ++ absPath [§"requirements", l.name, natStr l.number])).toOption = selectorIn l.comment := by
  obtain ⟨_, h2⟩ := leadsTo_lookup (E := E) h r.root (by rw [hr]; rfl) fun x hx => Or.inl ((okL_iff ds).1 ho x hx)
  obtain ⟨b1, _, b3⟩ := fine_block h2
  obtain ⟨g, m, rfl, hg⟩ := filled_dict hf
  obtain ⟨q1, q2⟩ := declared_lines fill path g hy.mapping hg ht
  refine ⟨_, ?_, q2, q1, ?_⟩
  · rw [happ]
    exact getValue_block hr ho hp h (mapping_no_element hy.mapping) (reads_parse (hy.load b1)) hf _
  · intro l hl
    have hk := mapping_known hy.mapping l hl
    obtain ⟨⟨vt, hlead⟩, hsec⟩ := line_leads hy.mapping hy.distinct b3 l hl hk
    have e : prefixOf path ++ absPath [§"requirements", l.name, natStr l.number] = absPath (comps ++ [l.name, natStr l.number]) := by
      have e1 : absPath [§"requirements", l.name, natStr l.number] = §"/requirements" ++ absPath [l.name, natStr l.number] := rfl
      have e2 : absPath (comps ++ [l.name, natStr l.number]) = absPath comps ++ absPath [l.name, natStr l.number] := by
        simp [absPath]
      rw [e1, e2, ← hpre, List.append_assoc]
    rw [e]
    refine selector_item hr ho ?_ (leadsTo_below h hlead)
    intro x hx
    rcases List.mem_append.1 hx with hx | hx
    · exact hp x hx
    · simp only [List.mem_cons, List.not_mem_nil, or_false] at hx
      rcases hx with rfl | rfl
      · exact ⟨by rintro h0; rw [h0] at hsec; revert hsec; decide, hk⟩
      · exact ⟨natStr_ne_nil _, natStr_no_slash _⟩

/-- What is found about a package without requirements. -/
theorem package_nothing {E : Env} {r : Recipe} {comps : List Str} {path : Str} {d : List (Str × PyVal)}
    (fill : Str → Str) (hp : ∀ x ∈ comps, Component x) (hne : comps ≠ []) (h : lookup r.root comps = none) (hy : YamlReads E [] d)
    (happ : Recipe.appendToPath path §"/requirements" = absPath comps) :
    ∃ d1, r.getValue E (Recipe.appendToPath path §"/requirements") (some (.dict [])) true = .ok (.dict d1) ∧ textLists d1 ∧
      declared path d1 = (dependencyLines []).filterMap (lineEntry fill path) ∧
      ∀ l ∈ dependencyLines [],
        (r.getSelectorAtPath (prefixOf path ++ absPath [§"requirements", l.name, natStr l.number])).toOption = selectorIn l.comment := by
  refine ⟨[], ?_, (fun kv hkv => by cases hkv), rfl, fun l hl => by cases hl⟩
  rw [happ]
  exact getValue_absent hne hp h _ _

theorem digits_component {o : Str} (h : isDigitS o = true) : Component o := by
  unfold isDigitS at h
  simp only [Bool.and_eq_true] at h
  constructor
  · rintro rfl; revert h; decide
  · intro hs
    have := List.all_eq_true.1 h.2 _ hs
    exact absurd this (by decide)

theorem requirements_found {E : Env} {r : Recipe} {ds reqs : List Doc} {path : Str} {d : List (Str × PyVal)} {w : PyVal}
    (fill : Str → Str) (hr : r.root = Doc.root ds) (ho : OkL E ds) (h : RequirementsOf ds path reqs) (hy : YamlReads E reqs d)
    (hf : Filled E r.schema r.vars E.recLimit (.dict d) w)
    (ht : ∀ l ∈ dependencyLines reqs, Fills E r.schema r.vars l.text (.str (fill l.text))) :
    ∃ d1, r.getValue E (Recipe.appendToPath path §"/requirements") (some (.dict [])) true = .ok (.dict d1) ∧ textLists d1 ∧
      declared path d1 = (dependencyLines reqs).filterMap (lineEntry fill path) ∧
      ∀ l ∈ dependencyLines reqs,
        (r.getSelectorAtPath (prefixOf path ++ absPath [§"requirements", l.name, natStr l.number])).toOption = selectorIn l.comment := by
  have happ : ∀ o, isDigitS o = true → prefixOf (absPath [§"outputs", o]) ++ §"/requirements" = absPath [§"outputs", o, §"requirements"] ∧
      Recipe.appendToPath (absPath [§"outputs", o]) §"/requirements" = absPath [§"outputs", o, §"requirements"] := by
    intro o h
    have hc := digits_component h
    have h0 : (absPath [§"outputs", o]).getLast? ≠ some '/' := by
      intro hl
      have : absPath [§"outputs", o] = §"/outputs/" ++ o := by simp [absPath]
      rw [this, List.getLast?_append] at hl
      cases hq : o.getLast? with
      | none => exact hc.1 (List.getLast?_eq_none_iff.1 hq)
      | some x =>
        rw [hq] at hl
        simp only [Option.some_or, Option.some.injEq] at hl
        subst hl
        exact hc.2 (List.mem_of_getLast? hq)
    constructor
    · unfold prefixOf
      rw [if_neg]
      · simp [absPath]
      · intro h1; rw [h1] at h0; exact h0 rfl
    · unfold Recipe.appendToPath
      simp only
      rw [if_neg (show ¬ absPath [§"outputs", o] = [] by simp [absPath]), if_pos h0]
      simp [absPath]
  have hcomp : ∀ o, isDigitS o = true → ∀ x ∈ [§"outputs", o, §"requirements"], Component x := by
    intro o h x hx
    simp only [List.mem_cons, List.not_mem_nil, or_false] at hx
    rcases hx with rfl | rfl | rfl
    · decide
    · exact digits_component h
    · decide
  cases h with
  | @top c _ h => exact package_found (comps := [§"requirements"]) fill hr ho (by decide) h hy hf ht (by decide) (by decide)
  | noTop h =>
    exact package_nothing (comps := [§"requirements"]) fill (by decide) (by simp) (lookup_fresh (by rw [hr]; rfl) (by decide) h) hy (by decide)
  | @output o c _ h1 h2 => exact package_found fill hr ho (hcomp o h1) h2 hy hf ht (happ o h1).1 (happ o h1).2
  | @noOutput o first rest h1 h2 h3 =>
    refine package_nothing fill (hcomp o h1) (by simp) ?_ hy (happ o h1).2
    obtain ⟨g1, _⟩ := leadsTo_lookup (E := E) h2 r.root (by rw [hr]; rfl) fun x hx => Or.inl ((okL_iff ds).1 ho x hx)
    have key : ∀ (p : List Str) (n m : Node) (k : Str), lookup n p = some m → lookup n (p ++ [k]) = lookup m [k] := by
      intro p
      induction p with
      | nil => intro n m k h; rw [lookup] at h; injection h with h; subst h; rfl
      | cons a p ih =>
        intro n m k h
        rw [lookup] at h
        rw [List.cons_append, lookup]
        cases hc : child n a with
        | none => rw [hc] at h; cases h
        | some x => rw [hc] at h; exact ih x m k h
    exact (key _ _ _ §"requirements" g1).trans (lookup_fresh rfl (by decide) h3)

theorem dependencies_in_tree (E : Env) (M : Str → Option Str) (ds : List Doc) (r : Recipe)
    (tbl : List (PyVal × Str)) (reqs : Str → List Doc) (d : Str → List (Str × PyVal)) (fill : Str → Str)
    (hroot : r.root = Doc.root ds) (ho : OkL E ds) (ht : r.packageNamesToPath E = .ok tbl)
    (hreq : ∀ e ∈ tbl, RequirementsOf ds e.2 (reqs e.2) ∧ YamlReads E (reqs e.2) (d e.2) ∧
      ∃ w, Filled E r.schema r.vars E.recLimit (.dict (d e.2)) w)
    (hfill : ∀ e ∈ tbl, ∀ l ∈ dependencyLines (reqs e.2), Fills E r.schema r.vars l.text (.str (fill l.text))) :
    r.getAllDependencies E M = .ok (tbl.map fun e => (e.1,
      (dependencyLines (reqs e.2)).filterMap (reportedLine M (decide (r.schema = .v1)) fill e.2 e.1) ++
        if e.2 = §"/" then []
        else (dependencyLines (reqs §"/")).filterMap (reportedLine M (decide (r.schema = .v1)) fill §"/" e.1))) := by
  have hf : ∀ e ∈ tbl, ∃ d1, r.getValue E (Recipe.appendToPath e.2 §"/requirements") (some (.dict [])) true = .ok (.dict d1) ∧ textLists d1 ∧
      declared e.2 d1 = (dependencyLines (reqs e.2)).filterMap (lineEntry fill e.2) ∧
      ∀ l ∈ dependencyLines (reqs e.2),
        (r.getSelectorAtPath (prefixOf e.2 ++ absPath [§"requirements", l.name, natStr l.number])).toOption = selectorIn l.comment := by
    intro e he
    obtain ⟨h1, h2, w, h3⟩ := hreq e he
    exact requirements_found fill hroot ho h1 h2 h3 (hfill e he)
  let d1 : Str → List (Str × PyVal) := fun path =>
    match r.getValue E (Recipe.appendToPath path §"/requirements") (some (.dict [])) true with
    | .ok (.dict d) => d
    | _ => []
  have hd1 : ∀ e ∈ tbl, r.getValue E (Recipe.appendToPath e.2 §"/requirements") (some (.dict [])) true = .ok (.dict (d1 e.2)) ∧
      textLists (d1 e.2) ∧ declared e.2 (d1 e.2) = (dependencyLines (reqs e.2)).filterMap (lineEntry fill e.2) := by
    intro e he
    obtain ⟨x, h1, h2, h3, _⟩ := hf e he
    have : d1 e.2 = x := by simp only [d1, h1]
    rw [this]
    exact ⟨h1, h2, h3⟩
  rw [C36_all_dependencies_partial E M r tbl ht d1 fun e he => ⟨(hd1 e he).1, (hd1 e he).2.1⟩]
  have hrep : ∀ e ∈ tbl, ∀ n, (declared e.2 (d1 e.2)).map (depOf M r n) =
      (dependencyLines (reqs e.2)).filterMap (reportedLine M (decide (r.schema = .v1)) fill e.2 n) := by
    intro e he n
    obtain ⟨_, _, _, _, hsel⟩ := hf e he
    rw [(hd1 e he).2.2, List.map_filterMap]
    refine filterMap_congr_mem _ fun l hl => ?_
    unfold lineEntry reportedLine
    by_cases hb : strip (fill l.text) = []
    · simp [hb]
    · simp only [if_neg hb, Option.map_some, depOf, hsel l hl]
  refine congrArg _ (List.map_congr_left fun e he => ?_)
  rw [hrep e he]
  by_cases hp : e.2 = §"/"
  · rw [if_pos hp, if_pos hp]
  · rw [if_neg hp, if_neg hp]
    obtain ⟨h1, _, _⟩ := (C35_names_to_path E r tbl).1 ht
    obtain ⟨rest, hpaths, _⟩ := packagePaths_shape E r _ h1
    have : §"/" ∈ tbl.map (·.2) := by rw [hpaths]; simp
    obtain ⟨e0, he0, hp0⟩ := List.mem_map.1 this
    have := hrep e0 he0 e.1
    rw [hp0] at this
    rw [this]

/-- C104: `get_all_dependencies` reports, for every package of the file, exactly the lines of the sections of its `requirements`, in the
order of the file: the section, the path of the line, its text with the variables replaced, and the selector written in its comment; and
after them the lines of the top-level `requirements`. -/
theorem C104_dependencies_are_the_lines_partial (E : Env) (M : Str → Option Str) (vars : List (Str × PyVal)) (ds : List Doc) (r : Recipe)
    (tbl : List (PyVal × Str)) (reqs : Str → List Doc) (d : Str → List (Str × PyVal)) (fill : Str → Str)
    (hv : Writable E vars) (hd : Document E ds) (hr : Recipe.ofString E (recipeText vars ds) = .ok r) (hs : r.schema = .v1 → vars = [])
    (ht : r.packageNamesToPath E = .ok tbl)
    (hreq : ∀ e ∈ tbl, RequirementsOf ds e.2 (reqs e.2) ∧ YamlReads E (reqs e.2) (d e.2) ∧
      ∃ w, Filled E r.schema r.vars E.recLimit (.dict (d e.2)) w)
    (hfill : ∀ e ∈ tbl, ∀ l ∈ dependencyLines (reqs e.2), Fills E r.schema r.vars l.text (.str (fill l.text))) :
    r.getAllDependencies E M = .ok (tbl.map fun e => (e.1,
      (dependencyLines (reqs e.2)).filterMap (reportedLine M (decide (r.schema = .v1)) fill e.2 e.1) ++
        if e.2 = §"/" then []
        else (dependencyLines (reqs §"/")).filterMap (reportedLine M (decide (r.schema = .v1)) fill §"/" e.1))) := by
  obtain ⟨_, hroot, _⟩ := C31_text_is_kept_partial E vars ds r hv hd hr hs
  exact dependencies_in_tree E M ds r tbl reqs d fill hroot hd.1 ht hreq hfill

/-! ## The hypotheses can be met

```
{% set ver = "1.2" %}

package:
  name: p

requirements:
  host:
    - h
  run:
    # c
    - a >={{ ver }}  # [osx] why
    - b

outputs:
  - name: q
    requirements:
      run:
        - c 1.*  # [win]
        # d
        - b
```
-/

namespace FileDepsExample

def vars : List (Str × PyVal) := [(§"ver", .str §"1.2")]

def top : List Doc :=
  [ block §"host" [] [item §"h" (.str §"h") []],
    block §"run" [] [comment §"# c", item §"a >={{ ver }}" (.str §"a >={{ ver }}") §"# [osx] why", item §"b" (.str §"b") []] ]

def out : List Doc :=
  [ block §"run" [] [item §"c 1.*" (.str §"c 1.*") §"# [win]", comment §"# d", item §"b" (.str §"b") []] ]

def file : List Doc :=
  [ block §"package" [] [scalar §"name" §"p" (.str §"p") []],
    block §"requirements" [] top,
    block §"outputs" [] [elem (scalar §"name" §"q" (.str §"q") []) [block §"requirements" [] out]] ]

def opened : Recipe :=
  match Recipe.ofString Toy.env (recipeText vars file) with
  | .ok o => o
  | .error _ => ⟨[], {}, .v0, [], [], false⟩

def tbl : List (PyVal × Str) := [(.str §"p", §"/"), (.str §"q", §"/outputs/0")]

def reqs (path : Str) : List Doc := if path = §"/" then top else out

def mapping (path : Str) : List (Str × PyVal) :=
  if path = §"/" then [(§"host", .list [.str §"h"]), (§"run", .list [.str §"a >={{ ver }}", .str §"b"])]
  else [(§"run", .list [.str §"c 1.*", .str §"b"])]

def fill (t : Str) : Str := if t = §"a >={{ ver }}" then §"a >=1.2" else t

theorem writable : Writable Toy.env vars := ⟨by decide +kernel, by decide +kernel, by decide +kernel, by decide +kernel, by decide +kernel⟩
theorem document : Document Toy.env file := documentB_sound (by decide +kernel)
theorem opened_ok : (Recipe.ofString Toy.env (recipeText vars file)).toOption.isSome = true := by decide +kernel
theorem old_format : opened.schema = .v0 := by decide +kernel
theorem opened_eq : Recipe.ofString Toy.env (recipeText vars file) = .ok opened := by
  unfold opened
  have := opened_ok
  cases h : Recipe.ofString Toy.env (recipeText vars file) with
  | error e => rw [h] at this; cases this
  | ok o => rfl
theorem names : opened.packageNamesToPath Toy.env = .ok tbl := by decide +kernel

theorem texts_top : TextList [comment §"# c", item §"a >={{ ver }}" (.str §"a >={{ ver }}") §"# [osx] why", item §"b" (.str §"b") []] := by
  intro d hd
  simp only [List.mem_cons, List.not_mem_nil, or_false] at hd
  rcases hd with rfl | rfl | rfl
  · exact Or.inl rfl
  · exact Or.inr ⟨_, _, _, rfl⟩
  · exact Or.inr ⟨_, _, _, rfl⟩

theorem texts_out : TextList [item §"c 1.*" (.str §"c 1.*") §"# [win]", comment §"# d", item §"b" (.str §"b") []] := by
  intro d hd
  simp only [List.mem_cons, List.not_mem_nil, or_false] at hd
  rcases hd with rfl | rfl | rfl
  · exact Or.inr ⟨_, _, _, rfl⟩
  · exact Or.inl rfl
  · exact Or.inr ⟨_, _, _, rfl⟩

theorem read_top : YamlReads Toy.env top (mapping §"/") :=
  ⟨fun _ => .itself (by decide +kernel),
    .texts _ _ _ (by decide) (by decide) (by intro d hd; simp only [List.mem_singleton] at hd; exact Or.inr ⟨_, _, _, hd⟩)
      (.texts _ _ _ (by decide) (by decide) texts_top .nil), by decide⟩

theorem read_out : YamlReads Toy.env out (mapping §"/outputs/0") :=
  ⟨fun _ => .itself (by decide +kernel), .texts _ _ _ (by decide) (by decide) texts_out .nil, by decide⟩

/-- The variables in a text. -/
theorem filled_text (t : Str) (h : t ∈ [§"h", §"a >={{ ver }}", §"b", §"c 1.*"]) :
    Fills Toy.env opened.schema opened.vars t (.str (fill t)) := by
  have hv : opened.schema = .v0 := by decide +kernel
  rw [hv]
  simp only [List.mem_cons, List.not_mem_nil, or_false] at h
  rcases h with rfl | rfl | rfl | rfl
  · exact fills_plain (by decide) ⟨by decide, by decide, by rintro c ⟨⟩; decide⟩ (by decide +kernel)
  · exact ⟨[.text §"a >=", .hole §" " (.access §"ver" none .none [] []) §" "], rfl, segB_sound (by decide +kernel), .inl ⟨_, _, _, .tail _ (.head _)⟩, by decide +kernel⟩
  · exact fills_plain (by decide) ⟨by decide, by decide, by rintro c ⟨⟩; decide⟩ (by decide +kernel)
  · exact fills_plain (by decide) ⟨by decide, by decide, by rintro c ⟨⟩; decide⟩ (by decide +kernel)

/-- A line with an expression that is not understood keeps the expression, with the dollar sign of the new format in front. -/
example : Fills Toy.env opened.schema opened.vars §"{{ compiler('c') }}" (.str §"${{ compiler('c') }}") := by
  have hv : opened.schema = .v0 := by decide +kernel
  rw [hv]
  exact ⟨[.hole §" " (.other §"compiler('c')") §" "], rfl, segB_sound (by decide +kernel), .inl ⟨_, _, _, .head _⟩, by decide +kernel⟩

theorem filled_value (path : Str) : ∃ w, Filled Toy.env opened.schema opened.vars Toy.env.recLimit (.dict (mapping path)) w := by
  let g : PyVal → PyVal := fun v => match v with | .str t => .str (fill t) | v => v
  let gd : Str × PyVal → PyVal := fun kv => match kv.2 with | .list xs => .list (xs.map g) | v => v
  refine ⟨_, .dict (n := 49) gd ?_⟩
  have ht : ∀ t, t ∈ [§"h", §"a >={{ ver }}", §"b", §"c 1.*"] → ∀ n, Filled Toy.env opened.schema opened.vars (n + 1) (.str t) (g (.str t)) := by
    intro t h n
    exact .text (filled_text t h) trivial
  intro kv hkv
  have hl : ∃ xs, kv.2 = .list xs ∧ ∀ x ∈ xs, ∃ t, x = .str t ∧ t ∈ [§"h", §"a >={{ ver }}", §"b", §"c 1.*"] := by
    unfold mapping at hkv
    split at hkv
    · simp only [List.mem_cons, List.not_mem_nil, or_false] at hkv
      rcases hkv with rfl | rfl
      · exact ⟨_, rfl, by intro x hx; simp only [List.mem_singleton] at hx; exact ⟨_, hx, by decide⟩⟩
      · refine ⟨_, rfl, ?_⟩
        intro x hx
        simp only [List.mem_cons, List.not_mem_nil, or_false] at hx
        rcases hx with rfl | rfl <;> exact ⟨_, rfl, by decide⟩
    · simp only [List.mem_singleton] at hkv
      subst hkv
      refine ⟨_, rfl, ?_⟩
      intro x hx
      simp only [List.mem_cons, List.not_mem_nil, or_false] at hx
      rcases hx with rfl | rfl <;> exact ⟨_, rfl, by decide⟩
  obtain ⟨xs, hx, ht'⟩ := hl
  have : gd kv = .list (xs.map g) := by simp only [gd, hx]
  rw [this, hx]
  refine .list g ?_
  intro x hx
  obtain ⟨t, rfl, ht''⟩ := ht' x hx
  exact ht t ht'' 47

theorem lines_texts (path : Str) (l : DepLine) (hl : l ∈ dependencyLines (reqs path)) : l.text ∈ [§"h", §"a >={{ ver }}", §"b", §"c 1.*"] := by
  unfold reqs at hl
  split at hl
  · have e : dependencyLines top = [⟨.host, §"host", 0, §"h", []⟩, ⟨.run, §"run", 0, §"a >={{ ver }}", §"# [osx] why"⟩, ⟨.run, §"run", 1, §"b", []⟩] := rfl
    rw [e] at hl
    simp only [List.mem_cons, List.not_mem_nil, or_false] at hl
    rcases hl with rfl | rfl | rfl <;> decide
  · have e : dependencyLines out = [⟨.run, §"run", 0, §"c 1.*", §"# [win]"⟩, ⟨.run, §"run", 1, §"b", []⟩] := rfl
    rw [e] at hl
    simp only [List.mem_cons, List.not_mem_nil, or_false] at hl
    rcases hl with rfl | rfl <;> decide

theorem at_top : RequirementsOf file §"/" top :=
  .top (c := []) (.here (pre := [block §"package" [] [scalar §"name" §"p" (.str §"p") []]])
    (post := [block §"outputs" [] [elem (scalar §"name" §"q" (.str §"q") []) [block §"requirements" [] out]]]) (by
      unfold Picks; rw [if_neg (by decide)]; exact ⟨rfl, by simp [Fresh, node]⟩))

theorem at_out : RequirementsOf file §"/outputs/0" out :=
  .output (o := §"0") (c := []) (by decide) (.key (c := []) (pre := [block §"package" [] [scalar §"name" §"p" (.str §"p") []], block §"requirements" [] top]) (post := [])
    (by unfold Picks; rw [if_neg (by decide)]; exact ⟨rfl, by simp [Fresh, node]⟩)
    (.element (pre := []) (post := []) (by unfold Picks; rw [if_pos (by decide)]; exact ⟨rfl, by decide⟩)
      (.here (pre := [scalar §"name" §"q" (.str §"q") []]) (post := []) (by
        unfold Picks; rw [if_neg (by decide)]; exact ⟨rfl, by simp [Fresh, node]⟩))))

/-- What the theorem says about the file above. -/
theorem all_dependencies (M : Str → Option Str) :
    opened.getAllDependencies Toy.env M = .ok [
      (.str §"p", [⟨.str §"p", §"/requirements/host/0", .host, depDataFromStr M §"h", none⟩,
        ⟨.str §"p", §"/requirements/run/0", .run, depDataFromStr M §"a >=1.2", some (SelectorParser.mk' §"[osx]" false)⟩,
        ⟨.str §"p", §"/requirements/run/1", .run, depDataFromStr M §"b", none⟩]),
      (.str §"q", [⟨.str §"q", §"/outputs/0/requirements/run/0", .run, depDataFromStr M §"c 1.*", some (SelectorParser.mk' §"[win]" false)⟩,
        ⟨.str §"q", §"/outputs/0/requirements/run/1", .run, depDataFromStr M §"b", none⟩,
        ⟨.str §"q", §"/requirements/host/0", .host, depDataFromStr M §"h", none⟩,
        ⟨.str §"q", §"/requirements/run/0", .run, depDataFromStr M §"a >=1.2", some (SelectorParser.mk' §"[osx]" false)⟩,
        ⟨.str §"q", §"/requirements/run/1", .run, depDataFromStr M §"b", none⟩])] := by
  rw [C104_dependencies_are_the_lines_partial Toy.env M vars file opened tbl reqs mapping fill writable document opened_eq
    (by rw [old_format]; intro h; cases h) names (by
      intro e he
      simp only [tbl, List.mem_cons, List.not_mem_nil, or_false] at he
      rcases he with rfl | rfl
      · exact ⟨at_top, read_top, filled_value _⟩
      · exact ⟨at_out, read_out, filled_value _⟩) fun e _ l hl => filled_text _ (lines_texts _ l hl), old_format]
  rfl

end FileDepsExample

/-- C36 and C104 fail for a section without entries: the whole call raises. -/
theorem C36_empty_section_violation :
    ((Toy.recipe "package:\n  name: p\nrequirements:\n  host:\n  run:\n    - a\n").getAllDependencies Toy.env some).toOption.isNone
      = true := by
  decide +kernel

end Crm
