import Verif.Spec.FileValue
import Verif.Props.FileDeps

/-! # The value that a file has at a path (C105) -/

namespace Crm
open Spec Spec.Doc

/-- The key that a path ends in. -/
theorem leadsTo_key {path : List Str} {ds : List Doc} {d : Doc} (h : LeadsTo path ds d) {k : Str} (hk : d.keyOf = some k) : k ∈ path := by
  induction h with
  | @here part pre d post hp =>
    unfold Picks at hp
    split at hp
    · have := hp.1
      cases d <;> simp only [Doc.isElement, Bool.false_eq_true] at this <;> cases hk
    · rw [hk] at hp
      simpa using hp.1
  | key _ _ ih => exact List.mem_cons_of_mem _ (ih hk)
  | element _ _ ih => exact List.mem_cons_of_mem _ (ih hk)

theorem linesOf_strs (body : List Str) : linesOf (.list (body.map .str)) = body := by
  unfold linesOf
  simp only
  rw [List.map_map]
  exact (List.map_congr_left fun _ _ => rfl).trans (List.map_id _)

theorem not_root {path : List Str} {ds : List Doc} {d : Doc} (h : LeadsTo path ds d) (hp : ∀ x ∈ path, Component x) {k : Str}
    (hk : d.keyOf = some k) : d.node.isRoot = false := by
  have := hp k (leadsTo_key h hk)
  unfold Node.isRoot
  rw [(keyOf_value hk).1]
  simp only [PyVal.str.injEq, decide_eq_false_iff_not]
  rintro rfl
  exact this.2 (by simp)

/-- `get_value` at the place of an entry. -/
theorem value_in_tree {E : Env} {r : Recipe} {ds : List Doc} {path : List Str} {d : Doc} {w : PyVal} (sub : Bool) (dflt : Option PyVal)
    (hr : r.root = Doc.root ds) (ho : OkL E ds) (hp : ∀ x ∈ path, Component x) (h : LeadsTo path ds d)
    (hw : WrittenValue E (if sub then some r.ctx else none) d w) : r.getValue E (absPath path) dflt sub = .ok w := by
  obtain ⟨h1, h2⟩ := leadsTo_lookup (E := E) h r.root (by rw [hr]; rfl) fun x hx => Or.inl ((okL_iff ds).1 ho x hx)
  have hroot : ∀ {k}, d.keyOf = some k → d.node.isRoot = false := fun hk => not_root h hp hk
  unfold Recipe.getValue getValueIn
  rw [strToStack_absPath path (leadsTo_ne_nil h) hp]
  simp only [bind, Except.bind]
  rw [traverse_lookup, h1]
  simp only
  generalize (if sub = true then some r.ctx else none) = ctx at hw ⊢
  have text_of : ∀ {k c : Str} {cs : List Doc}, d = block k c cs → (∀ vt v c', cs ≠ [item vt v c']) → (block k c cs).node.isSingleKey = false ∧
      (block k c cs).node.isLeaf = false ∧ joinStr §"\n" (renderTree (-1) none (block k c cs).node) = text cs := by
    intro k c cs hd hi
    rw [hd] at h2
    obtain ⟨b1, b2, b3⟩ := fine_block h2
    have hns : (block k c cs).node.isSingleKey = false := by
      cases hs : (block k c cs).node.isSingleKey with
      | false => rfl
      | true => obtain ⟨vt, x, c', he⟩ := (block_single b2 b3 k c).1 hs; exact absurd he (hi vt x c')
    refine ⟨hns, ?_, ?_⟩
    · cases cs with
      | nil => exact absurd rfl b1
      | cons x xs => rfl
    · rw [node] at hns ⊢
      rw [renderTree_not_single _ _ _ _ _ _ _ _ hns]
      simp only [show decide ((-1 : Int) > -1) = false by decide, Bool.false_and, Bool.false_eq_true, if_false, List.nil_append]
      rw [show (-1 : Int) + 1 = 0 by omega, render_documentLines E cs b3 _ (by simp [Node.isCollectionElement])]
      rfl
  cases hw with
  | @scalar k vt _ c hv =>
    have hs : w ≠ .sentinel := by
      rcases h2 with h2 | h2
      · exact h2.2.2.2.2.1
      · exact h2.2.1
    have hsk : (Doc.scalar k vt w c).node.isSingleKey = true := by
      cases w <;> first | exact absurd rfl hs | rfl
    rw [if_pos (by rw [hsk, hroot rfl]; rfl)]
    simp only [node]
    rw [if_neg (by simp)]
  | @scalarText k vt s c w hy =>
    have hsk : (Doc.scalar k vt (.str s) c).node.isSingleKey = true := rfl
    rw [if_pos (by rw [hsk, hroot rfl]; rfl)]
    simp only [node]
    rw [if_neg (by simp)]
    simp only [hy, Bool.and_false, Bool.false_eq_true, if_false]
  | @item vt _ c hv =>
    have hs : w ≠ .sentinel := (fine_element h2 rfl).2.2.2.2.1
    have hl : (Doc.item vt w c).node.isLeaf = true := by
      cases w <;> first | exact absurd rfl hs | rfl
    have hsk : (Doc.item vt w c).node.isSingleKey = false := rfl
    rw [if_neg (by rw [hsk]; simp), if_pos hl]
    simp only [node]
  | @itemText vt s c w hy =>
    have hl : (Doc.item vt (.str s) c).node.isLeaf = true := rfl
    have hsk : (Doc.item vt (.str s) c).node.isSingleKey = false := rfl
    rw [if_neg (by rw [hsk]; simp), if_pos hl]
    simp only [node]
    simp only [hy, Bool.and_false, Bool.false_eq_true, if_false]
  | @multi k m c body w hy hc =>
    have hm : m ≠ .no := by
      rcases h2 with h2 | h2
      · have := h2.2.2.2.1
        rintro rfl
        simp at this
      · exact absurd h2 id
    have hsk : (Doc.multi k m c body).node.isSingleKey = true := rfl
    rw [if_pos (by rw [hsk, hroot rfl]; rfl)]
    simp only [node]
    rw [if_pos hm, hc, normalizeMultiline, if_neg hm, linesOf_strs]
    simp only
    rw [List.append_assoc m.text]
    exact hy
  | @multiFilled k m c body w j hy hc =>
    have hm : m ≠ .no := by
      rcases h2 with h2 | h2
      · have := h2.2.2.2.1
        rintro rfl
        simp at this
      · exact absurd h2 id
    have hsk : (Doc.multi k m c body).node.isSingleKey = true := rfl
    rw [if_pos (by rw [hsk, hroot rfl]; rfl)]
    simp only [node]
    rw [if_pos hm, hc, normalizeMultiline, if_neg hm, linesOf_strs]
    simp only
    rw [List.append_assoc m.text]
    exact hy
  | @single k c vt s c' w hy hw =>
    have hsk : (Doc.block k c [.item vt (.str s) c']).node.isSingleKey = true := rfl
    rw [if_pos (by rw [hsk, hroot rfl]; rfl)]
    simp only [node, nodes]
    rw [if_neg (by simp)]
    simp only [hy, Bool.and_true]
    rw [if_pos]
    cases w <;> first | rfl | exact absurd rfl (hw _)
  | @element k c first rest xs hy =>
    obtain ⟨t1, t2, t3⟩ := text_of rfl (by simp)
    simp only [t1, Bool.false_and, Bool.false_eq_true, if_false, t2, t3]
    rw [hy]
    simp
  | @block k c cs w hi hy =>
    obtain ⟨t1, t2, t3⟩ := text_of rfl (by
      intro vt v c' he
      exact absurd (hi _ he) (by simp [Doc.isElement]))
    have hwrap : (match (Doc.block k c cs).node.children with | [x] => x.listMember | _ => false) = false := by
      rw [node]
      match cs, hi with
      | [], _ => rfl
      | [x], hi =>
        have := hi x rfl
        cases x <;> first | rfl | exact absurd this (by simp [Doc.isElement])
      | _ :: _ :: _, _ => rfl
    simp only [t1, Bool.false_and, Bool.false_eq_true, if_false, t2, t3]
    rw [hy]
    simp only
    rw [if_neg]
    intro hw
    simp only [Bool.and_eq_true] at hw
    exact Bool.false_ne_true (hwrap.symm.trans hw.2)

theorem valueTextsL_mem {ds : List Doc} {d : Doc} (hd : d ∈ ds) : ∀ s ∈ d.valueTexts, s ∈ valueTextsL ds := by
  induction ds with
  | nil => cases hd
  | cons x xs ih =>
    intro s hs
    rw [valueTextsL, List.mem_append]
    rcases List.mem_cons.1 hd with rfl | hd
    · exact Or.inl hs
    · exact Or.inr (ih hd s hs)

/-- The child that a component names is an entry of the document. -/
theorem child_picks {part : Str} {ds : List Doc} {n x : Node} (hn : n.children = nodes ds)
    (hv : part ∉ valueTextsL ds) (h : child n part = some x) : ∃ pre d post, ds = pre ++ d :: post ∧ x = d.node ∧ Picks part pre d := by
  unfold child at h
  rw [hn] at h
  split at h
  · rename_i hd
    rw [Option.filter_eq_some_iff] at h
    obtain ⟨h1, h2⟩ := h
    have key : ∀ (ds : List Doc) (i : Nat), ((nodes ds).filter real)[i]? = some x →
        ∃ pre d post, ds = pre ++ d :: post ∧ x = d.node ∧ i = entryCount pre := by
      intro ds
      induction ds with
      | nil => intro i h; simp [nodes] at h
      | cons d ds ih =>
        intro i h
        rw [nodes, List.filter_cons] at h
        split at h
        · rename_i hr
          cases i with
          | zero => simp at h; exact ⟨[], d, ds, rfl, h.symm, by simp [entryCount]⟩
          | succ i =>
            simp at h
            obtain ⟨pre, e, post, e1, e2, e3⟩ := ih i h
            refine ⟨d :: pre, e, post, by rw [e1]; rfl, e2, ?_⟩
            simp only [entryCount, List.countP_cons, hr, if_true] at e3 ⊢
            omega
        · rename_i hr
          obtain ⟨pre, e, post, e1, e2, e3⟩ := ih i h
          refine ⟨d :: pre, e, post, by rw [e1]; rfl, e2, ?_⟩
          simp only [entryCount, List.countP_cons, hr] at e3 ⊢
          simpa using e3
    obtain ⟨pre, d, post, e1, e2, e3⟩ := key ds _ h1
    refine ⟨pre, d, post, e1, e2, ?_⟩
    unfold Picks
    rw [if_pos hd]
    refine ⟨?_, e3⟩
    rw [e2] at h2
    cases d <;> first | rfl | (simp [node] at h2)
  · rename_i hd
    rw [List.find?_eq_some_iff_append] at h
    obtain ⟨h1, as, bs, h2, h3⟩ := h
    have key : ∀ (ds : List Doc) (as : List Node), nodes ds = as ++ x :: bs → ∃ pre d post, ds = pre ++ d :: post ∧ x = d.node ∧ as = nodes pre := by
      intro ds
      induction ds with
      | nil => intro as h; simp [nodes] at h
      | cons d ds ih =>
        intro as h
        cases as with
        | nil => simp only [nodes, List.nil_append, List.cons.injEq] at h; exact ⟨[], d, ds, rfl, h.1.symm, rfl⟩
        | cons a as =>
          simp only [nodes, List.cons_append, List.cons.injEq] at h
          obtain ⟨pre, e, post, e1, e2, e3⟩ := ih as h.2
          exact ⟨d :: pre, e, post, by rw [e1]; rfl, e2, by rw [nodes, e3, h.1]⟩
    obtain ⟨pre, d, post, e1, e2, e3⟩ := key ds as h2
    refine ⟨pre, d, post, e1, e2, ?_⟩
    unfold Picks
    rw [if_neg hd]
    have hval : d.node.value = .str part := by rw [← e2]; exact pyEq_str.1 h1
    refine ⟨?_, ?_⟩
    · cases d with
      | item vt v c =>
        have : v = .str part := hval
        subst this
        exact absurd (valueTextsL_mem (d := item vt (.str part) c) (by rw [e1]; simp) part (by simp [valueTexts])) hv
      | comment t => cases hval
      | elem a b => cases hval
      | empty k c => injection hval with hval; rw [← hval]; rfl
      | scalar k vt v c => injection hval with hval; rw [← hval]; rfl
      | multi k m c b => injection hval with hval; rw [← hval]; rfl
      | block k c cs => injection hval with hval; rw [← hval]; rfl
    · intro y hy hk
      have := h3 y.node (by rw [e3, nodes_map]; exact List.mem_map_of_mem hy)
      rw [hk] at this
      exact absurd (pyEq_str.2 rfl) (by simpa using this)

theorem lookup_no_way {n : Node} {path : List Str} (hne : path ≠ [])
    (h : ∀ c ∈ n.children, c.listMember = false ∧ ∀ q ∈ path, c.value ≠ .str q) : lookup n path = none := by
  cases path with
  | nil => exact absurd rfl hne
  | cons q qs =>
    rw [lookup]
    have : child n q = none := by
      unfold child
      split
      · cases hg : (n.children.filter real)[natOfStr q]? with
        | none => rfl
        | some c =>
          have hc : c ∈ n.children := (List.mem_filter.1 (List.mem_of_getElem? hg)).1
          simp [Option.filter, (h c hc).1]
      · rw [List.find?_eq_none]
        intro c hc he
        exact (h c hc).2 q (by simp) (pyEq_str.1 he)
    rw [this]
    rfl

/-- What is found at a path is an entry that the path leads to. -/
theorem lookup_leads : ∀ (path : List Str) (ds : List Doc) (n x : Node), path ≠ [] → n.children = nodes ds →
    (∀ part ∈ path, part ∉ valueTextsL ds) → lookup n path = some x → ∃ d, LeadsTo path ds d ∧ x = d.node := by
  intro path
  induction path with
  | nil => intro ds n x h; exact absurd rfl h
  | cons part path ih =>
    intro ds n x _ hn hv h
    rw [lookup] at h
    cases hc : child n part with
    | none => rw [hc] at h; cases h
    | some y =>
      rw [hc] at h
      simp only [Option.bind_some] at h
      obtain ⟨pre, d, post, e1, e2, hp⟩ := child_picks hn (hv part (by simp)) hc
      have hd : d ∈ ds := by rw [e1]; simp
      by_cases hpath : path = []
      · subst hpath
        rw [lookup] at h
        injection h with h
        exact ⟨d, by rw [e1]; exact .here hp, by rw [← h, e2]⟩
      · have hsub : ∀ q ∈ path, q ∉ d.valueTexts := fun q hq hqd => hv q (by simp [hq]) (valueTextsL_mem hd q hqd)
        subst e2
        have dead : (∀ c ∈ d.node.children, c.listMember = false ∧ ∀ q ∈ path, c.value ≠ .str q) → ∃ d, LeadsTo (part :: path) ds d ∧ x = d.node := by
          intro hno
          rw [lookup_no_way hpath hno] at h
          cases h
        cases d with
        | comment t => exact dead (by simp [node])
        | empty k c => exact dead (by simp [node])
        | item vt v c => exact dead (by simp [node])
        | multi k m c b => exact dead (by simp [node])
        | scalar k vt v c =>
          refine dead ?_
          intro y hy
          simp only [node, List.mem_singleton] at hy
          subst hy
          refine ⟨rfl, ?_⟩
          rintro q hq rfl
          exact hsub q hq (by simp [valueTexts])
        | block k c cs =>
          obtain ⟨e, h1, h2⟩ := ih cs _ x hpath rfl (fun q hq hqc => hsub q hq (by rw [valueTexts]; exact hqc)) h
          have hk : part = k := by
            unfold Picks at hp
            split at hp
            · exact absurd hp.1 (by simp [Doc.isElement])
            · exact (Option.some.inj hp.1).symm
          subst hk
          exact ⟨e, by rw [e1]; exact .key hp h1, h2⟩
        | elem first rest =>
          obtain ⟨e, h1, h2⟩ := ih (first :: rest) _ x hpath rfl (fun q hq hqc => hsub q hq (by rw [valueTexts]; exact hqc)) h
          exact ⟨e, by rw [e1]; exact .element hp h1, h2⟩

/-- C105: `get_value` at the path of an entry of the file gives what the file says there, with or without the variables replaced, whatever
the default. -/
theorem C105_value_partial (E : Env) (vars : List (Str × PyVal)) (ds : List Doc) (r : Recipe) (path : List Str) (d : Doc) (w : PyVal)
    (sub : Bool) (dflt : Option PyVal) (hv : Writable E vars) (hd : Document E ds) (hr : Recipe.ofString E (recipeText vars ds) = .ok r)
    (hs : r.schema = .v1 → vars = []) (hp : ∀ x ∈ path, Component x) (h : LeadsTo path ds d)
    (hw : WrittenValue E (if sub then some ⟨r.schema, r.vars⟩ else none) d w) :
    r.getValue E (absPath path) dflt sub = .ok w ∧ r.containsValue (absPath path) = .ok true := by
  obtain ⟨_, hroot, _⟩ := C31_text_is_kept_partial E vars ds r hv hd hr hs
  refine ⟨value_in_tree sub dflt hroot hd.1 hp h hw, ?_⟩
  rw [C04_contains_iff_lookup r path hp (leadsTo_ne_nil h),
    (leadsTo_lookup (E := E) h r.root (by rw [hroot]; rfl) fun x hx => Or.inl ((okL_iff ds).1 hd.1 x hx)).1]
  rfl

/-- C105: where the file has no entry, `contains_value` says so, `get_value` gives the default, and without one it raises a KeyError.
Proved for paths of which no component is a text that the file has as a value. -/
theorem C105_missing_partial (E : Env) (vars : List (Str × PyVal)) (ds : List Doc) (r : Recipe) (path : List Str) (sub : Bool)
    (hv : Writable E vars) (hd : Document E ds) (hr : Recipe.ofString E (recipeText vars ds) = .ok r)
    (hs : r.schema = .v1 → vars = []) (hp : ∀ x ∈ path, Component x) (hne : path ≠ []) (ht : ∀ x ∈ path, x ∉ valueTextsL ds)
    (h : ∀ d, ¬ LeadsTo path ds d) :
    r.containsValue (absPath path) = .ok false ∧ r.getValue E (absPath path) none sub = .error .keyError ∧
      ∀ v, r.getValue E (absPath path) (some v) sub = .ok v := by
  obtain ⟨_, hroot, _⟩ := C31_text_is_kept_partial E vars ds r hv hd hr hs
  have hl : lookup r.root path = none := by
    cases hx : lookup r.root path with
    | none => rfl
    | some x =>
      obtain ⟨d, h1, _⟩ := lookup_leads path ds r.root x hne (by rw [hroot]; rfl) ht hx
      exact absurd h1 (h d)
  refine ⟨by rw [C04_contains_iff_lookup r path hp hne, hl]; rfl, ?_, fun v => getValue_absent hne hp hl v sub⟩
  unfold Recipe.getValue getValueIn
  rw [strToStack_absPath path hne hp]
  simp only [bind, Except.bind]
  rw [traverse_lookup, hl]

/-! ## The hypotheses can be met

The file is the one of `FileDepsExample`. -/

namespace FileDepsExample

theorem at_requirements : LeadsTo [§"requirements"] file (block §"requirements" [] top) :=
  .here (pre := [block §"package" [] [scalar §"name" §"p" (.str §"p") []]])
    (post := [block §"outputs" [] [elem (scalar §"name" §"q" (.str §"q") []) [block §"requirements" [] out]]]) (by
      unfold Picks; rw [if_neg (by decide)]; exact ⟨rfl, by simp [Fresh, node]⟩)

theorem at_line : LeadsTo [§"outputs", §"0", §"requirements", §"run", §"1"] file (item §"b" (.str §"b") []) :=
  .key (c := []) (pre := [block §"package" [] [scalar §"name" §"p" (.str §"p") []], block §"requirements" [] top]) (post := [])
    (by unfold Picks; rw [if_neg (by decide)]; exact ⟨rfl, by simp [Fresh, node]⟩)
    (.element (pre := []) (post := []) (by unfold Picks; rw [if_pos (by decide)]; exact ⟨rfl, by decide⟩)
      (.key (c := []) (pre := [scalar §"name" §"q" (.str §"q") []]) (post := [])
        (by unfold Picks; rw [if_neg (by decide)]; exact ⟨rfl, by simp [Fresh, node]⟩)
        (.key (c := []) (pre := []) (post := []) (by unfold Picks; rw [if_neg (by decide)]; exact ⟨rfl, by simp [Fresh]⟩)
          (.here (pre := [item §"c 1.*" (.str §"c 1.*") §"# [win]", comment §"# d"]) (post := [])
            (by unfold Picks; rw [if_pos (by decide)]; exact ⟨rfl, by decide +kernel⟩)))))

theorem says_requirements : WrittenValue Toy.env (some ⟨opened.schema, opened.vars⟩) (block §"requirements" [] top)
    (.dict [(§"host", .list [.str §"h"]), (§"run", .list [.str §"a >=1.2", .str §"b"])]) :=
  .block (by intro d h; simp [top] at h) (by decide +kernel)

theorem says_line : WrittenValue Toy.env none (item §"b" (.str §"b") []) (.str §"b") := .itemText (by decide +kernel)

/-- The requirements, with the variable replaced. -/
example : opened.getValue Toy.env §"/requirements" none true =
    .ok (.dict [(§"host", .list [.str §"h"]), (§"run", .list [.str §"a >=1.2", .str §"b"])]) :=
  (C105_value_partial Toy.env vars file opened [§"requirements"] _ _ true none writable document opened_eq
    (by rw [old_format]; intro h; cases h) (by decide) at_requirements says_requirements).1

/-- A line behind a comment, in an output. -/
example : opened.getValue Toy.env §"/outputs/0/requirements/run/1" none false = .ok (.str §"b") :=
  (C105_value_partial Toy.env vars file opened [§"outputs", §"0", §"requirements", §"run", §"1"] _ _ false none writable document opened_eq
    (by rw [old_format]; intro h; cases h) (by decide) at_line says_line).1

theorem nothing (d : Doc) : ¬ LeadsTo [§"requirements", §"build"] file d := by
  intro h
  have hl := (leadsTo_lookup (E := Toy.env) h (Doc.root file) rfl fun x hx => Or.inl ((okL_iff file).1 document.1 x hx)).1
  have : (lookup (Doc.root file) [§"requirements", §"build"]).isSome = false := by decide +kernel
  rw [hl] at this
  cases this

/-- A section that is not there. -/
example : opened.getValue Toy.env §"/requirements/build" none true = .error .keyError :=
  (C105_missing_partial Toy.env vars file opened [§"requirements", §"build"] true writable document opened_eq
    (by rw [old_format]; intro h; cases h) (by decide) (by simp) (by decide +kernel) nothing).2.1

end FileDepsExample

/-! ## Where the full statement fails -/

/-- An element of a list is read with its `- ` in front of the first key only: for an element with several keys YAML is given a text that is
no mapping, and an element with one key is read as a list. -/
theorem C105_element_violation (E : Env) (r : Recipe)
    (hr : r.root = Doc.root [block §"outputs" [] [elem (scalar §"name" §"q" (.str §"q") []) [scalar §"x" §"1" (.int 1) []]]]) :
    r.getValue E §"/outputs/0" = parseYaml E §"- name: q\n\nx: 1\n" := by
  have h1 : lookup r.root [§"outputs", §"0"] = some (elem (scalar §"name" §"q" (.str §"q") []) [scalar §"x" §"1" (.int 1) []]).node := by
    rw [hr]; decide +kernel
  have h2 : joinStr §"\n" (renderTree (-1) none (elem (scalar §"name" §"q" (.str §"q") []) [scalar §"x" §"1" (.int 1) []]).node) =
      §"- name: q\n\nx: 1\n" := by decide +kernel
  unfold Recipe.getValue getValueIn
  rw [show §"/outputs/0" = absPath [§"outputs", §"0"] from rfl, strToStack_absPath _ (by simp) (by decide)]
  simp only [bind, Except.bind]
  rw [traverse_lookup, h1]
  simp only [h2]
  rw [if_neg (by decide), if_neg (by decide)]
  simp only [Bool.false_eq_true, if_false, node, nodes, Bool.and_false]
  cases parseYaml E §"- name: q\n\nx: 1\n" <;> rfl

theorem C105_single_key_element_violation :
    (Toy.recipe "outputs:\n  - name: q\n").getValue Toy.env §"/outputs/0" = .ok (.list [.dict [(§"name", .str §"q")]]) := by
  decide +kernel

/-- A value is found as if it were a key. -/
theorem C105_value_as_key_violation :
    (Toy.recipe "package:\n  name: p\n").containsValue §"/package/name/p" = .ok true ∧
    (Toy.recipe "package:\n  name: p\n").getValue Toy.env §"/package/name/p" = .ok (.str §"p") := by
  decide +kernel

/-- A text in quotes that looks like a number is read as a number. -/
theorem C105_quoted_number_violation :
    (Toy.recipe "package:\n  version: \"10\"\n").getValue Toy.env §"/package/version" = .ok (.int 10) := by
  decide +kernel
end Crm
