import Verif.Spec.ConvSection
import Verif.Props.PatchMove
import Verif.Props.Paths
import Verif.Props.PatchValue
import Verif.Lemmas.Convert

/-! # Working on the keys of one section -/

namespace Crm
open Spec Act

/-! ## Trees -/

/-- The tree with other children at one place. -/
def setKids (t : Node) (pos : Pos) (ks : List Node) : Node := updateAt (fun n => { n with children := ks }) pos t

theorem modify_split {α : Type} (f : α → α) (pre post : List α) (c : α) :
    (pre ++ c :: post).modify pre.length f = pre ++ f c :: post := by
  induction pre with
  | nil => rfl
  | cons a as ih => simp [ih]

theorem setKids_const {t m : Node} {pos : Pos} (h : nodeAt t pos = some m) (ks : List Node) :
    setKids t pos ks = updateAt (fun _ => { m with children := ks }) pos t := updateAt_const _ h

theorem setKids_nodeAt {t m : Node} {pos : Pos} (h : nodeAt t pos = some m) (ks : List Node) :
    nodeAt (setKids t pos ks) pos = some { m with children := ks } := nodeAt_updateAt_self pos t m h

theorem setKids_setKids (t : Node) (pos : Pos) (a b : List Node) : setKids (setKids t pos a) pos b = setKids t pos b := by
  unfold setKids
  rw [updateAt_comp]
  rfl

theorem setKids_changed {t m : Node} {pos : Pos} (h : nodeAt t pos = some m) (ks : List Node) :
    ChildrenChanged (Becomes ks) pos t (setKids t pos ks) :=
  childrenChanged_updateAt (fun _ => ks) _ h rfl

theorem changed_setKids {f : List Node → List Node → Prop} {pos : Pos} {t t' : Node} (h : ChildrenChanged f pos t t') :
    ∃ m ks, nodeAt t pos = some m ∧ f m.children ks ∧ t' = setKids t pos ks := by
  induction h with
  | here n cs hf => exact ⟨n, cs, rfl, hf, rfl⟩
  | there n pre c c' post p hn _ ih =>
    obtain ⟨m, ks, h1, h2, h3⟩ := ih
    refine ⟨m, ks, ?_, h2, ?_⟩
    · simp [nodeAt, hn, h1]
    · rw [h3]
      simp only [setKids, updateAt, hn]
      congr 1
      rw [modify_split]

theorem becomes_eq {pos : Pos} {t t' : Node} {ks : List Node} (h : ChildrenChanged (Becomes ks) pos t t') :
    t' = setKids t pos ks := by
  obtain ⟨_, ks', _, h2, rfl⟩ := changed_setKids h
  cases h2
  rfl

theorem setKids_same {t m : Node} {pos : Pos} (h : nodeAt t pos = some m) : setKids t pos m.children = t := by
  induction pos generalizing t with
  | nil => injection h with h; subst h; cases t; rfl
  | cons i p ih =>
    simp only [nodeAt] at h
    cases hc : t.children[i]? with
    | none => rw [hc] at h; cases h
    | some c =>
      rw [hc] at h
      have := ih h
      simp only [setKids, updateAt] at this ⊢
      have h2 : t.children.modify i (updateAt (fun n => { n with children := m.children }) p) = t.children := by
        apply List.ext_getElem?
        intro j
        rw [List.getElem?_modify]
        by_cases hj : i = j
        · subst hj; rw [hc]; simp [this]
        · simp [hj]
      rw [h2]
      cases t; rfl

theorem setKids_nested {t n m : Node} {pos : Pos} {pre post : List Node} (h : nodeAt t pos = some n)
    (hc : n.children = pre ++ m :: post) (ns : List Node) :
    setKids t (pos ++ [pre.length]) ns = setKids t pos (pre ++ { m with children := ns } :: post) := by
  induction pos generalizing t with
  | nil =>
    injection h with h; subst h
    simp only [setKids, List.nil_append, updateAt, hc]
    rw [modify_split]
  | cons i p ih =>
    simp only [nodeAt] at h
    cases hi : t.children[i]? with
    | none => rw [hi] at h; cases h
    | some c =>
      rw [hi] at h
      have h1 := ih h
      simp only [setKids, List.cons_append, updateAt] at h1 ⊢
      congr 1
      apply List.ext_getElem?
      intro j
      rw [List.getElem?_modify, List.getElem?_modify]
      by_cases hj : i = j
      · subst hj; rw [hi]; simp [h1]
      · simp [hj]

/-! ## Sections -/

theorem host_real {comps : List Str} {n : Node} {ks : List Node} (h : Host comps n ks) :
    ({ n with children := ks } : Node).isComment = false := by
  rcases h with ⟨_, h, _⟩ | ⟨_, _, h, _⟩
  · cases hv : n.value <;> first | exact absurd hv h | simp [Node.isComment, Node.isSentinel, hv]
  · simp [Node.isComment, h]

theorem host_place {comps : List Str} {n : Node} {ks : List Node} (h : Host comps n ks) :
    endsInNumber comps = false ∨ ({ n with children := ks } : Node).isCollectionElement = true := by
  rcases h with ⟨_, _, h⟩ | ⟨h1, h2, _, h3⟩
  · exact Or.inl h
  · right
    cases ks with
    | nil => exact absurd rfl h3
    | cons _ _ => simp [Node.isCollectionElement, Node.isSentinel, h1, h2]

theorem host_bare {comps : List Str} {n : Node} {ks : List Node} (h : Host comps n ks) :
    bareValue { n with children := ks } = false := by
  rcases h with ⟨h | h, _⟩ | ⟨_, h, _⟩
  · simp [bareValue, h]
  · cases ks with
    | nil => exact absurd rfl h
    | cons _ _ => simp [bareValue, Node.isLeaf]
  · simp [bareValue, h]

/-- The section after a change. -/
theorem Spec.Section.set {c c' : Conv} {comps : List Str} {pos : Pos} {n : Node} {ks ks' : List Node}
    (h : Section c comps pos n ks) (hh : Host comps n ks') (hr : c'.v1.root = setKids c.v1.root pos ks') :
    Section c' comps pos n ks' := by
  refine ⟨h.path, ?_, ?_, hh⟩
  · rw [hr]
    refine locate_changed_self (setKids_changed h.node ks') ?_ h.place
    intro m m' hm hm'
    rw [h.node] at hm
    injection hm with hm
    rw [setKids_nodeAt h.node] at hm'
    injection hm' with hm'
    rw [← hm, ← hm', host_real h.host]
    exact host_real hh
  · rw [hr, setKids_nodeAt h.node]

/-- Running `a` in the section: it returns `x`, the children go from `ks` to `ks'`, the messages are `says`. -/
def InSection (comps : List Str) (pos : Pos) (n : Node) (ks : List Node) (a : Act α) (x : α) (ks' : List Node)
    (says : List (Category × Str)) : Prop :=
  ∀ c, Section c comps pos n ks → ∃ c', a c = (.ok x, c') ∧ Became c c' pos ks' says ∧ Section c' comps pos n ks'

theorem Spec.Became.refl {c : Conv} {comps : List Str} {pos : Pos} {n : Node} {ks : List Node}
    (h : Section c comps pos n ks) : Became c c pos ks [] := by
  refine ⟨rfl, ?_, ⟨rfl, rfl, rfl⟩, rfl⟩
  have := setKids_changed h.node ks
  rwa [show setKids c.v1.root pos ks = c.v1.root from setKids_same h.node] at this

theorem Spec.Became.trans {a b c : Conv} {pos : Pos} {ks ks' : List Node} {s s' : List (Category × Str)}
    (h1 : Became a b pos ks s) (h2 : Became b c pos ks' s') : Became a c pos ks' (s ++ s') := by
  refine ⟨h2.original.trans h1.original, ?_, ?_, ?_⟩
  · have e1 := becomes_eq h1.tree
    have e2 := becomes_eq h2.tree
    rw [e2, e1, setKids_setKids]
    obtain ⟨m, _, hm, _⟩ := changed_setKids h1.tree
    exact setKids_changed hm ks'
  · obtain ⟨p1, p2, p3⟩ := h1.rest
    obtain ⟨q1, q2, q3⟩ := h2.rest
    exact ⟨q1.trans p1, q2.trans p2, q3.trans p3⟩
  · rw [h2.messages, h1.messages, List.foldl_append]

namespace InSection
variable {comps : List Str} {pos : Pos} {n : Node}

theorem pure {ks : List Node} (x : α) : InSection comps pos n ks (pure x) x ks [] :=
  fun _ h => ⟨_, rfl, .refl h, h⟩

theorem bind {ks ks1 ks2 : List Node} {a : Act α} {f : α → Act β} {x : α} {y : β} {s1 s2 : List (Category × Str)}
    (h1 : InSection comps pos n ks a x ks1 s1) (h2 : InSection comps pos n ks1 (f x) y ks2 s2) :
    InSection comps pos n ks (a >>= f) y ks2 (s1 ++ s2) := by
  intro c hc
  obtain ⟨c1, e1, b1, k1⟩ := h1 c hc
  obtain ⟨c2, e2, b2, k2⟩ := h2 c1 k1
  refine ⟨c2, ?_, b1.trans b2, k2⟩
  simp only [Bind.bind, Act.bind, e1, e2]

/-- A step that changes nothing and says nothing. -/
theorem bind0 {ks ks2 : List Node} {a : Act α} {f : α → Act β} {x : α} {y : β} {s2 : List (Category × Str)}
    (h1 : InSection comps pos n ks a x ks []) (h2 : InSection comps pos n ks (f x) y ks2 s2) :
    InSection comps pos n ks (a >>= f) y ks2 s2 := h1.bind h2

theorem say {ks : List Node} (cat : Category) (m : Str) : InSection comps pos n ks (Act.say cat m) () ks [(cat, m)] := by
  intro c hc
  refine ⟨{ c with msgs := c.msgs.add cat m }, rfl, ⟨rfl, (Became.refl hc).tree, ⟨rfl, rfl, rfl⟩, rfl⟩, ⟨hc.path, hc.place, hc.node, hc.host⟩⟩

theorem askOk {ks : List Node} {f : Recipe → Except PyErr α} {x : α}
    (h : ∀ c, Section c comps pos n ks → f c.v1 = .ok x) : InSection comps pos n ks (ask f) x ks [] := by
  intro c hc
  refine ⟨c, ?_, .refl hc, hc⟩
  simp only [ask, h c hc]

/-- A patch that succeeds. -/
theorem patched {E : Env} {ks ks' : List Node} {p : PyVal} (hh : Host comps n ks')
    (h : ∀ c, Section c comps pos n ks → c.v1.patch E p = (.ok true, edited c.v1 (setKids c.v1.root pos ks'))) :
    InSection comps pos n ks (patchAndLog E p) true ks' [] := by
  intro c hc
  refine ⟨{ c with v1 := edited c.v1 (setKids c.v1.root pos ks') }, ?_, ⟨rfl, setKids_changed hc.node ks', ⟨rfl, rfl, rfl⟩, rfl⟩,
    hc.set hh rfl⟩
  simp only [patchAndLog, Bind.bind, Act.bind, edit, h c hc]
  rfl

/-- A patch that is refused. -/
theorem refused {E : Env} {ks : List Node} {p : PyVal}
    (h : ∀ c, Section c comps pos n ks → c.v1.patch E p = (.ok false, c.v1)) :
    InSection comps pos n ks (patchAndLog E p) false ks [(.error, refusal p)] := by
  intro c hc
  refine ⟨{ c with msgs := c.msgs.add .error (refusal p) }, ?_, ⟨rfl, (Became.refl hc).tree, ⟨rfl, rfl, rfl⟩, rfl⟩,
    ⟨hc.path, hc.place, hc.node, hc.host⟩⟩
  simp only [patchAndLog, Bind.bind, Act.bind, edit, h c hc]
  rfl

end InSection

/-! ## Names -/

section names
variable {c : Conv} {comps : List Str} {pos : Pos} {n : Node} {ks : List Node}

theorem Spec.Section.keyPath (h : Section c comps pos n ks) {x : Str} (hx : KeyName x) : ∀ y ∈ comps ++ [x], Component y := by
  intro y hy
  rcases List.mem_append.1 hy with hy | hy
  · exact h.path y hy
  · rw [List.mem_singleton.1 hy]; exact hx.1

theorem findIdx_first {name : Str} {pre post : List Node} {k : Node} (h : First name pre k) :
    (pre ++ k :: post).findIdx? (fun c => decide (c.value = .str name)) = some pre.length := by
  rw [List.findIdx?_append]
  have : pre.findIdx? (fun c => decide (c.value = .str name)) = none := by
    rw [List.findIdx?_eq_none_iff]
    intro x hx
    simpa using h.first x hx
  rw [this]
  simp [List.findIdx?_cons, h.named]

theorem findIdx_absent {name : Str} (h : Absent name ks) :
    ks.findIdx? (fun c => decide (c.value = .str name)) = none := by
  rw [List.findIdx?_eq_none_iff]
  intro x hx
  simpa using h x hx

theorem Spec.Section.locateName (h : Section c comps pos n ks) {x : Str} (hx : KeyName x) :
    locate c.v1.root (comps ++ [x]) =
      (ks.findIdx? (fun c => decide (c.value = .str x))).map fun i => pos ++ [i] := by
  rw [locate_concat, h.place]
  simp only [Option.bind_some, h.node, childIdx, hx.2.1, Bool.false_eq_true, if_false]

theorem Spec.Section.locateFirst (h : Section c comps pos n ks) {x : Str} (hx : KeyName x) {pre post : List Node} {k : Node}
    (hk : ks = pre ++ k :: post) (hf : First x pre k) :
    locate c.v1.root (comps ++ [x]) = some (pos ++ [pre.length]) ∧ nodeAt c.v1.root (pos ++ [pre.length]) = some k := by
  refine ⟨?_, ?_⟩
  · rw [h.locateName hx, hk, findIdx_first hf]; rfl
  · rw [nodeAt_append, h.node]
    simp [nodeAt, hk]

theorem Spec.Section.locateAbsent (h : Section c comps pos n ks) {x : Str} (hx : KeyName x) (ha : Absent x ks) :
    locate c.v1.root (comps ++ [x]) = none := by
  rw [h.locateName hx, findIdx_absent ha]; rfl

theorem Spec.Section.contains (h : Section c comps pos n ks) {x : Str} (hx : KeyName x) :
    c.v1.containsValue (absPath (comps ++ [x])) = .ok (ks.any fun k => decide (k.value = .str x)) := by
  unfold Recipe.containsValue
  simp only [strToStack_absPath (comps ++ [x]) (by simp) (h.keyPath hx), Bind.bind, Except.bind, traverse_locate,
    h.locateName hx, Option.isSome_map]
  rw [List.findIdx?_isSome]

theorem any_first {name : Str} {pre post : List Node} {k : Node} (h : First name pre k) :
    (pre ++ k :: post).any (fun c => decide (c.value = .str name)) = true := by
  simp [h.named]

theorem any_absent {name : Str} (h : Absent name ks) : ks.any (fun c => decide (c.value = .str name)) = false := by
  rw [List.any_eq_false]
  intro x hx
  simpa using h x hx

/-- Every name is absent or has a first child. -/
theorem absent_or_first (name : Str) : ∀ ks : List Node, Absent name ks ∨ ∃ pre k post, ks = pre ++ k :: post ∧ First name pre k
  | [] => Or.inl fun _ h => by cases h
  | a :: as => by
    by_cases h : a.value = .str name
    · exact Or.inr ⟨[], a, as, rfl, h, fun _ h => by cases h⟩
    · rcases absent_or_first name as with ha | ⟨pre, k, post, rfl, hf⟩
      · left
        intro k hk
        rcases List.mem_cons.1 hk with rfl | hk
        · exact h
        · exact ha k hk
      · refine Or.inr ⟨a :: pre, k, post, rfl, hf.named, ?_⟩
        intro x hx
        rcases List.mem_cons.1 hx with rfl | hx
        · exact h
        · exact hf.first x hx

/-! ## Values -/

theorem getValueIn_node {E : Env} {t t' : Node} {q q' : List Str} (hq : q ≠ []) (hc : ∀ c ∈ q, Component c)
    (hq' : q' ≠ []) (hc' : ∀ c ∈ q', Component c) {k : Node} (h : lookup t q = some k) (h' : lookup t' q' = some k)
    (d d' : Option PyVal) (ctx : Option JinjaCtx) :
    getValueIn E t (absPath q) d ctx = getValueIn E t' (absPath q') d' ctx := by
  unfold getValueIn
  simp only [strToStack_absPath q hq hc, strToStack_absPath q' hq' hc', Bind.bind, Except.bind, traverse_locate,
    locate_lookup, h, h']

theorem Spec.Section.value (h : Section c comps pos n ks) (E : Env) {x : Str} (hx : KeyName x) {pre post : List Node} {k : Node}
    (hk : ks = pre ++ k :: post) (hf : First x pre k) (d : Option PyVal) :
    c.v1.getValue E (absPath (comps ++ [x])) d = keyValue E x k := by
  obtain ⟨h1, h2⟩ := h.locateFirst hx hk hf
  refine getValueIn_node (by simp) (h.keyPath hx) (by simp) (by simpa using hx.1) (k := k) ?_ ?_ d none none
  · rw [← locate_lookup, h1]; exact h2
  · simp only [lookup, child, hx.2.1, Bool.false_eq_true, if_false, List.find?_cons]
    have : pyEq k.value (.str x) = true := pyEq_str.2 hf.named
    rw [this]
    rfl

theorem Spec.Section.valueAbsent (h : Section c comps pos n ks) (E : Env) {x : Str} (hx : KeyName x) (ha : Absent x ks)
    (d : PyVal) : c.v1.getValue E (absPath (comps ++ [x])) (some d) = .ok d := by
  unfold Recipe.getValue getValueIn
  simp only [strToStack_absPath (comps ++ [x]) (by simp) (h.keyPath hx), Bind.bind, Except.bind, traverse_locate,
    h.locateAbsent hx ha, Option.bind_none]

/-! ## Patches -/

theorem isPatch_addOp {path : Str} {v : PyVal} (hp : path ≠ []) (hv : v ≠ .sentinel) : IsPatch (addOp path v) §"add" path := by
  refine ⟨(schemaValid_iff _).1 ?_, rfl, rfl⟩
  cases path with
  | nil => exact absurd rfl hp
  | cons c cs => cases v <;> first | exact absurd rfl hv | simp [schemaValid, addOp, lookupD, patchOps]

theorem isPatch_replaceOp {path : Str} {v : PyVal} (hp : path ≠ []) (hv : v ≠ .sentinel) :
    IsPatch (replaceOp path v) §"replace" path := by
  refine ⟨(schemaValid_iff _).1 ?_, rfl, rfl⟩
  cases path with
  | nil => exact absurd rfl hp
  | cons c cs => cases v <;> first | exact absurd rfl hv | simp [schemaValid, replaceOp, lookupD, patchOps]

theorem isPatch_removeOp {path : Str} (hp : path ≠ []) : IsPatch (removeOp path) §"remove" path := by
  refine ⟨(schemaValid_iff _).1 ?_, rfl, rfl⟩
  cases path with
  | nil => exact absurd rfl hp
  | cons c cs => simp [schemaValid, removeOp, lookupD, patchOps]

theorem isPatch_moveOp {old path : Str} (hp : path ≠ []) : IsPatch (moveOp old path) §"move" path := by
  refine ⟨(schemaValid_iff _).1 ?_, rfl, rfl⟩
  cases path with
  | nil => exact absurd rfl hp
  | cons c cs => simp [schemaValid, moveOp, lookupD, patchOps]

theorem without_split {i : Nat} {pre post ks : List Node} {k : Node} (h : Without i (pre ++ k :: post) ks)
    (hi : i = pre.length) : ks = pre ++ post := by
  obtain ⟨a, x, b, h1, h2, rfl⟩ := h
  have := List.append_inj h1 (by rw [← hi, h2])
  obtain ⟨rfl, h3⟩ := this
  injection h3 with _ h3
  rw [h3]

theorem absPath_snoc_ne (comps : List Str) (x : Str) : absPath (comps ++ [x]) ≠ [] := by simp [absPath]

theorem Spec.Section.remove (h : Section c comps pos n ks) (E : Env) {x : Str} (hx : KeyName x) {pre post : List Node} {k : Node}
    (hk : ks = pre ++ k :: post) (hf : First x pre k) :
    c.v1.patch E (removeOp (absPath (comps ++ [x]))) =
      if bareValue k then (.ok false, c.v1) else (.ok true, edited c.v1 (setKids c.v1.root pos (pre ++ post))) := by
  obtain ⟨h1, h2⟩ := h.locateFirst hx hk hf
  have := (C09_remove E c.v1 _ comps x (h.keyPath hx) (isPatch_removeOp (absPath_snoc_ne _ _))).2 pos _ k h1 h2
  split
  · rename_i hb; rw [if_pos hb] at this; exact this
  · rename_i hb
    rw [if_neg hb] at this
    obtain ⟨root', h3, h4⟩ := this
    obtain ⟨m, ks', hm, hw, rfl⟩ := changed_setKids h4
    rw [h.node] at hm
    injection hm with hm
    subst hm
    rw [hk] at hw
    rw [h3, without_split hw rfl]

theorem Spec.Section.addNew (h : Section c comps pos n ks) (E : Env) {x : Str} (hx : KeyName x) (ha : Absent x ks) {v : PyVal}
    (hv : v ≠ .sentinel) {ns : List Node} (hn : newNodes E (.dict [(x, v)]) = .ok ns) :
    c.v1.patch E (addOp (absPath (comps ++ [x])) v) = (.ok true, edited c.v1 (setKids c.v1.root pos (ks ++ ns))) := by
  have := C10_new_key E c.v1 (addOp (absPath (comps ++ [x])) v) v comps x pos _ (h.keyPath hx)
    (isPatch_addOp (absPath_snoc_ne _ _) hv) rfl hx.2.1 hx.2.2 (h.locateAbsent hx ha) h.place h.node
    (host_place h.host) (host_bare h.host)
  rw [hn] at this
  obtain ⟨root', h3, h4⟩ := this
  obtain ⟨m, ks', hm, hw, rfl⟩ := changed_setKids h4
  rw [h.node] at hm
  injection hm with hm
  subst hm
  rw [h3, hw]

theorem Spec.Section.keyPlace {x : Str} (hx : KeyName x) : endsInNumber (comps ++ [x]) = false := by
  rw [endsInNumber_concat]; exact hx.2.1

theorem Spec.Section.addExisting (h : Section c comps pos n ks) (E : Env) {x : Str} (hx : KeyName x) {pre post : List Node}
    {k : Node} (hk : ks = pre ++ k :: post) (hf : First x pre k) (hb : bareValue k = false) {v : PyVal}
    (hv : v ≠ .sentinel) {ns : List Node} (hn : newNodes E v = .ok ns) :
    c.v1.patch E (addOp (absPath (comps ++ [x])) v) =
      (.ok true, edited c.v1 (setKids c.v1.root pos (pre ++ { k with children := ns } :: post))) := by
  obtain ⟨h1, h2⟩ := h.locateFirst hx hk hf
  have := C10_existing E c.v1 (addOp (absPath (comps ++ [x])) v) v (comps ++ [x]) _ k (by simp) (h.keyPath hx)
    (isPatch_addOp (absPath_snoc_ne _ _) hv) rfl (by simpa using hx.2.2) h1 h2 (Or.inl (Section.keyPlace hx))
  rw [hb, hn] at this
  obtain ⟨root', h3, h4⟩ := this
  rw [h3, becomes_eq h4, setKids_nested h.node hk]

theorem Spec.Section.replace (h : Section c comps pos n ks) (E : Env) {x : Str} (hx : KeyName x) {pre post : List Node}
    {k : Node} (hk : ks = pre ++ k :: post) (hf : First x pre k) (hb : bareValue k = false) {v : PyVal}
    (hv : v ≠ .sentinel) {ns : List Node} (hn : newNodes E v = .ok ns) :
    c.v1.patch E (replaceOp (absPath (comps ++ [x])) v) =
      (.ok true, edited c.v1 (setKids c.v1.root pos (pre ++ { k with children := ns } :: post))) := by
  obtain ⟨h1, h2⟩ := h.locateFirst hx hk hf
  have := C12_replace E c.v1 (replaceOp (absPath (comps ++ [x])) v) v (comps ++ [x]) _ k (by simp) (h.keyPath hx)
    (isPatch_replaceOp (absPath_snoc_ne _ _) hv) rfl h1 h2 (Or.inl (Section.keyPlace hx))
  rw [hb, hn] at this
  obtain ⟨root', h3, h4⟩ := this
  rw [h3, becomes_eq h4, setKids_nested h.node hk]

/-! ## Moving a key -/

/-- A key of the section is a section itself. -/
theorem Spec.Section.sub (h : Section c comps pos n ks) {x : Str} (hx : KeyName x) {pre post : List Node} {k : Node}
    (hk : ks = pre ++ k :: post) (hf : First x pre k) (hkey : k.key = true) :
    Section c (comps ++ [x]) (pos ++ [pre.length]) k k.children := by
  obtain ⟨h1, h2⟩ := h.locateFirst hx hk hf
  refine ⟨h.keyPath hx, h1, ?_, Or.inl ⟨Or.inl hkey, ?_, Section.keyPlace hx⟩⟩
  · rw [h2]; cases k; rfl
  · rw [hf.named]; simp

theorem absPath_inj_last {comps : List Str} {x y : Str} (h : absPath (comps ++ [x]) = absPath (comps ++ [y])) : x = y := by
  simpa [absPath] using h

/-- Taking a key out does not change which key is the first of another name. -/
theorem first_through {x y : Str} {pre post a b : List Node} {k m : Node} (hxy : x ≠ y) (hk : k.value = .str x)
    (hs : pre ++ post = a ++ m :: b) (hf : First y a m) : ∃ a' b', pre ++ k :: post = a' ++ m :: b' ∧ First y a' m := by
  rcases List.append_eq_append_iff.1 hs with ⟨a', rfl, h2⟩ | ⟨c', h1, h2⟩
  · refine ⟨pre ++ k :: a', b, by rw [h2]; simp, hf.named, ?_⟩
    intro z hz
    rcases List.mem_append.1 hz with hz | hz
    · exact hf.first z (by simp [hz])
    · rcases List.mem_cons.1 hz with rfl | hz
      · rw [hk]; intro he; injection he with he; exact hxy he
      · exact hf.first z (by simp [hz])
  · cases c' with
    | nil =>
      simp only [List.nil_append] at h2
      refine ⟨pre ++ [k], b, by rw [← h2]; simp, hf.named, ?_⟩
      intro z hz
      rcases List.mem_append.1 hz with hz | hz
      · exact hf.first z (by rw [h1] at hz; simpa using hz)
      · rw [List.mem_singleton.1 hz, hk]; intro he; injection he with he; exact hxy he
    | cons d ds =>
      simp only [List.cons_append, List.cons.injEq] at h2
      obtain ⟨rfl, rfl⟩ := h2
      exact ⟨a, ds ++ k :: post, by rw [h1]; simp, hf⟩

theorem Spec.Section.put (h : Section c comps pos n ks) (E : Env) {x : Str} (hx : KeyName x) {v : PyVal}
    (hvs : v ≠ .sentinel) {ks' : List Node} (hp : Put E x v ks ks') :
    c.v1.patch E (addOp (absPath (comps ++ [x])) v) = (.ok true, edited c.v1 (setKids c.v1.root pos ks')) := by
  cases hp with
  | append ha hn => exact h.addNew E hx ha hvs hn
  | into hk hf hb hn => exact h.addExisting E hx hk hf hb hvs hn

/-- What can be written after taking out another key can be written before. -/
theorem put_through {E : Env} {x y : Str} {v : PyVal} {pre post ks' : List Node} {k : Node} (hxy : x ≠ y)
    (hk : k.value = .str x) (hp : Put E y v (pre ++ post) ks') : ∃ ks'', Put E y v (pre ++ k :: post) ks'' := by
  cases hp with
  | append ha hn =>
    refine ⟨_, .append ?_ hn⟩
    intro z hz
    rcases List.mem_append.1 hz with hz | hz
    · exact ha z (by simp [hz])
    · rcases List.mem_cons.1 hz with rfl | hz
      · rw [hk]; intro he; injection he with he; exact hxy he
      · exact ha z (by simp [hz])
  | into hm hf hb hn =>
    obtain ⟨a', b', hs', hf'⟩ := first_through hxy hk hm hf
    exact ⟨_, .into hs' hf' hb hn⟩

theorem Spec.Section.moveTo (h : Section c comps pos n ks) (E : Env) {x : Str} (hx : KeyName x) {ks1 : List Node}
    {v : PyVal} (ht : Taken E x v ks ks1) {target : Str} (htn : target ≠ [])
    (hne : absPath (comps ++ [x]) ≠ target) {r1 : Recipe} (h1 : c.v1.patch E (addOp target v) = (.ok true, r1)) {root : Node}
    (h3 : (edited c.v1 (setKids c.v1.root pos ks1)).patch E (addOp target v) =
      (.ok true, edited (edited c.v1 (setKids c.v1.root pos ks1)) root)) :
    c.v1.patch E (moveOp (absPath (comps ++ [x])) target) = (.ok true, edited c.v1 root) := by
  cases ht with
  | mk hk hf hb hv hvs =>
    have h2 := h.remove E hx hk hf
    rw [hb] at h2
    exact C13_move_succeeds E c.v1 r1 _ _ _ v target (absPath (comps ++ [x])) (isPatch_moveOp htn) rfl hne
      ((h.value E hx hk hf none).trans hv) hvs h1 h2 h3

theorem Spec.Taken.value_ok {E : Env} {x : Str} {v : PyVal} {ks ks1 : List Node} (h : Taken E x v ks ks1) : v ≠ .sentinel := by
  cases h with
  | mk _ _ _ _ hvs => exact hvs

theorem Spec.Taken.split {E : Env} {x : Str} {v : PyVal} {ks ks1 : List Node} (h : Taken E x v ks ks1) :
    ∃ pre k post, ks = pre ++ k :: post ∧ First x pre k := by
  cases h with
  | mk hk hf _ _ _ => exact ⟨_, _, _, hk, hf⟩

theorem Spec.Section.move (h : Section c comps pos n ks) (E : Env) {x y : Str} (hx : KeyName x) (hy : KeyName y)
    (hxy : x ≠ y) {v : PyVal} {ks1 ks2 : List Node} (ht : Taken E x v ks ks1) (hp : Put E y v ks1 ks2)
    (hh : Host comps n ks1) :
    c.v1.patch E (moveOp (absPath (comps ++ [x])) (absPath (comps ++ [y]))) =
      (.ok true, edited c.v1 (setKids c.v1.root pos ks2)) := by
  have hs : Section { c with v1 := edited c.v1 (setKids c.v1.root pos ks1) } comps pos n ks1 := h.set hh rfl
  have h1 : ∃ ks'', Put E y v ks ks'' := by
    cases ht with
    | mk hk hf hb hv hvs => subst hk; exact put_through hxy hf.named hp
  obtain ⟨ks'', h1⟩ := h1
  refine h.moveTo E hx ht (absPath_snoc_ne _ _) (fun he => hxy (absPath_inj_last he)) (h.put E hy ht.value_ok h1) ?_
  rw [hs.put E hy ht.value_ok hp]
  simp only [edited, setKids_setKids]

theorem absPath_ne_deeper (comps : List Str) (x y z : Str) (hx : Component x) :
    absPath (comps ++ [x]) ≠ absPath (comps ++ [y] ++ [z]) := by
  intro h
  have h' : x = y ++ '/' :: z := by simpa [absPath] using h
  exact hx.2 (by rw [h']; simp)

theorem Spec.Section.moveBelow (h : Section c comps pos n ks) (E : Env) {x y z : Str} (hx : KeyName x) (hy : KeyName y)
    (hz : KeyName z) (hxy : x ≠ y) {a b cs : List Node} {m : Node} {v : PyVal} (ht : Taken E x v ks (a ++ m :: b))
    (hfm : First y a m) (hkey : m.key = true) (hp : Put E z v m.children cs) (hh : Host comps n (a ++ m :: b)) :
    c.v1.patch E (moveOp (absPath (comps ++ [x])) (absPath (comps ++ [y] ++ [z]))) =
      (.ok true, edited c.v1 (setKids c.v1.root pos (a ++ { m with children := cs } :: b))) := by
  have hvs := ht.value_ok
  have hs : Section { c with v1 := edited c.v1 (setKids c.v1.root pos (a ++ m :: b)) } comps pos n (a ++ m :: b) :=
    h.set hh rfl
  have h1 : ∃ p, Section c (comps ++ [y]) p m m.children := by
    generalize hq : a ++ m :: b = q at ht
    cases ht with
    | mk hk hf hb hv hvs =>
      obtain ⟨a', b', hs', hf'⟩ := first_through hxy hf.named hq.symm hfm
      exact ⟨_, h.sub hy (hk.trans hs') hf' hkey⟩
  obtain ⟨p, h1⟩ := h1
  have h3 := (hs.sub hy rfl hfm hkey).put E hz hvs hp
  refine h.moveTo E hx ht (absPath_snoc_ne _ _) (absPath_ne_deeper comps x y z hx.1) (h1.put E hz hvs hp) ?_
  rw [h3]
  simp only [edited]
  rw [setKids_nested (setKids_nodeAt h.node (a ++ m :: b)) rfl, setKids_setKids]

end names

/-! ## The utilities of the converter -/

section steps
variable {E : Env} {comps : List Str} {pos : Pos} {n : Node} {ks : List Node}

theorem path_key {base ext : Str} {x : Str} (hc : ∀ c ∈ comps, Component c) (hx : Component x)
    (hb : base = absPath comps ∨ base = absPath comps ++ §"/") (he : ext = '/' :: x ∨ ext = x) :
    Recipe.appendToPath base ext = absPath (comps ++ [x]) := by
  refine (C02_append_walks {} comps [x] hc (by simpa using hx) (by simp) base ext hb ?_).1
  rcases he with rfl | rfl
  · left; simp [absPath]
  · right; simp [absPath]

theorem InSection.hasKey {x : Str} (hx : KeyName x) :
    InSection comps pos n ks (hasPath (absPath (comps ++ [x]))) (ks.any fun k => decide (k.value = .str x)) ks [] :=
  InSection.askOk fun _ h => h.contains hx

theorem InSection.key {x : Str} {pre post : List Node} {k : Node} (hx : KeyName x) (hk : ks = pre ++ k :: post)
    (hf : First x pre k) : InSection comps pos n ks (hasPath (absPath (comps ++ [x]))) true ks [] := by
  have := InSection.hasKey (comps := comps) (pos := pos) (n := n) (ks := ks) hx
  rw [hk, any_first hf] at this
  rwa [hk]

theorem InSection.noKey {x : Str} (hx : KeyName x) (ha : Absent x ks) :
    InSection comps pos n ks (hasPath (absPath (comps ++ [x]))) false ks [] := by
  have := InSection.hasKey (comps := comps) (pos := pos) (n := n) (ks := ks) hx
  rwa [any_absent ha] at this

theorem InSection.value {x : Str} {pre post : List Node} {k : Node} (hx : KeyName x) (hk : ks = pre ++ k :: post)
    (hf : First x pre k) {v : PyVal} (hv : keyValue E x k = .ok v) (d : Option PyVal) :
    InSection comps pos n ks (valueAt E (absPath (comps ++ [x])) d) v ks [] :=
  InSection.askOk fun _ h => (h.value E hx hk hf d).trans hv

theorem InSection.valueAbsent {x : Str} (hx : KeyName x) (ha : Absent x ks) (d : PyVal) :
    InSection comps pos n ks (valueAt E (absPath (comps ++ [x])) (some d)) d ks [] :=
  InSection.askOk fun _ h => h.valueAbsent E hx ha d

theorem host_key {comps : List Str} {n : Node} (h : n.key = true ∧ n.value ≠ .sentinel ∧ endsInNumber comps = false)
    (ks : List Node) : Host comps n ks := Or.inl ⟨Or.inl h.1, h.2⟩

theorem InSection.remove {x : Str} {pre post : List Node} {k : Node} (hx : KeyName x) (hk : ks = pre ++ k :: post)
    (hf : First x pre k) (hb : bareValue k = false) (hh : Host comps n (pre ++ post)) :
    InSection comps pos n ks (patchAndLog E (removeOp (absPath (comps ++ [x])))) true (pre ++ post) [] :=
  InSection.patched hh fun c hc => by rw [hc.remove E hx hk hf, hb]; rfl

theorem InSection.replace {x : Str} {pre post : List Node} {k : Node} (hx : KeyName x) (hk : ks = pre ++ k :: post)
    (hf : First x pre k) (hb : bareValue k = false) {v : PyVal} (hvs : v ≠ .sentinel) {ns : List Node}
    (hn : newNodes E v = .ok ns) (hh : Host comps n (pre ++ { k with children := ns } :: post)) :
    InSection comps pos n ks (patchAndLog E (replaceOp (absPath (comps ++ [x])) v)) true
      (pre ++ { k with children := ns } :: post) [] :=
  InSection.patched hh fun _ hc => hc.replace E hx hk hf hb hvs hn

theorem InSection.addNew {x : Str} (hx : KeyName x) (ha : Absent x ks) {v : PyVal} (hvs : v ≠ .sentinel) {ns : List Node}
    (hn : newNodes E (.dict [(x, v)]) = .ok ns) (hh : Host comps n (ks ++ ns)) :
    InSection comps pos n ks (patchAndLog E (addOp (absPath (comps ++ [x])) v)) true (ks ++ ns) [] :=
  InSection.patched hh fun _ hc => hc.addNew E hx ha hvs hn

theorem InSection.addExisting {x : Str} {pre post : List Node} {k : Node} (hx : KeyName x) (hk : ks = pre ++ k :: post)
    (hf : First x pre k) (hb : bareValue k = false) {v : PyVal} (hvs : v ≠ .sentinel) {ns : List Node}
    (hn : newNodes E v = .ok ns) (hh : Host comps n (pre ++ { k with children := ns } :: post)) :
    InSection comps pos n ks (patchAndLog E (addOp (absPath (comps ++ [x])) v)) true
      (pre ++ { k with children := ns } :: post) [] :=
  InSection.patched hh fun _ hc => hc.addExisting E hx hk hf hb hvs hn

theorem InSection.each_nil (f : α → Act Unit) : InSection comps pos n ks (each f []) () ks [] := InSection.pure ()

theorem InSection.each_cons {f : α → Act Unit} {x : α} {xs : List α} {ks1 ks2 : List Node} {s1 s2 : List (Category × Str)}
    (h1 : InSection comps pos n ks (f x) () ks1 s1) (h2 : InSection comps pos n ks1 (each f xs) () ks2 s2) :
    InSection comps pos n ks (each f (x :: xs)) () ks2 (s1 ++ s2) := InSection.bind h1 h2

theorem InSection.ite_true {b : Prop} [Decidable b] {a a' : Act α} {x : α} {ks' : List Node} {s : List (Category × Str)}
    (hb : b) (h : InSection comps pos n ks a x ks' s) : InSection comps pos n ks (if b then a else a') x ks' s := by
  rwa [if_pos hb]

theorem InSection.ite_false {b : Prop} [Decidable b] {a a' : Act α} {x : α} {ks' : List Node} {s : List (Category × Str)}
    (hb : ¬ b) (h : InSection comps pos n ks a' x ks' s) : InSection comps pos n ks (if b then a else a') x ks' s := by
  rwa [if_neg hb]

theorem InSection.each_one {f : α → Act Unit} {x : α} {ks' : List Node} {s : List (Category × Str)}
    (h : InSection comps pos n ks (f x) () ks' s) : InSection comps pos n ks (each f [x]) () ks' s := by
  have := InSection.each_cons h (InSection.each_nil f)
  rwa [List.append_nil] at this

/-- `let _ ← x; pure ()` -/
theorem InSection.void {a : Act α} {x : α} {ks' : List Node} {s : List (Category × Str)}
    (h : InSection comps pos n ks a x ks' s) : InSection comps pos n ks (do let _ ← a; Pure.pure PUnit.unit) () ks' s := by
  have := InSection.bind (f := fun _ => Pure.pure ()) h (InSection.pure (comps := comps) (pos := pos) (n := n) (ks := ks') ())
  rwa [List.append_nil] at this

theorem rename_in_section {base old new oldExt newExt : Str} (hold : KeyName old) (hnew : KeyName new) (hne : old ≠ new)
    (hb : base = absPath comps ∨ base = absPath comps ++ §"/") (he : oldExt = '/' :: old ∨ oldExt = old)
    (he' : newExt = '/' :: new ∨ newExt = new) {ks' : List Node}
    (hr : Renamed E (Host comps n) old new ks ks') (hc : ∀ c ∈ comps, Component c) :
    InSection comps pos n ks (patchMoveBase E base oldExt newExt) () ks' [] := by
  unfold patchMoveBase
  rw [path_key hc hold.1 hb he, path_key hc hnew.1 hb he']
  cases hr with
  | absent ha => exact InSection.bind0 (InSection.noKey hold ha) (InSection.pure ())
  | moved ht hp h1 h2 =>
    obtain ⟨pre, k, post, hk, hf⟩ := ht.split
    exact InSection.bind0 (InSection.key hold hk hf)
      (InSection.patched h2 fun c hc => hc.move E hold hnew hne ht hp h1).void

theorem Spec.Renamed.mono {ok ok' : List Node → Prop} (h : ∀ ks, ok' ks) {old new : Str} {ks ks' : List Node}
    (hr : Renamed E ok old new ks ks') : Renamed E ok' old new ks ks' := by
  cases hr with
  | absent ha => exact .absent ha
  | moved h1 h2 _ _ => exact .moved h1 h2 (h _) (h _)

theorem Spec.RenamedAll.mono {ok ok' : List Node → Prop} (h : ∀ ks, ok' ks) {os : List (Str × Str)} {ks ks' : List Node}
    (hr : RenamedAll E ok os ks ks') : RenamedAll E ok' os ks ks' := by
  induction hr with
  | nil => exact .nil _
  | cons h1 _ ih => exact .cons (h1.mono h) ih

theorem Spec.Renamed.weaken {ok ok' : List Node → Prop} (h : ∀ ks, ok ks → ok' ks) {old new : Str} {ks ks' : List Node}
    (hr : Renamed E ok old new ks ks') : Renamed E ok' old new ks ks' := by
  cases hr with
  | absent ha => exact .absent ha
  | moved h1 h2 h3 h4 => exact .moved h1 h2 (h _ h3) (h _ h4)

theorem Spec.RenamedAll.weaken {ok ok' : List Node → Prop} (h : ∀ ks, ok ks → ok' ks) {os : List (Str × Str)} {ks ks' : List Node}
    (hr : RenamedAll E ok os ks ks') : RenamedAll E ok' os ks ks' := by
  induction hr with
  | nil => exact .nil _
  | cons h1 _ ih => exact .cons (h1.weaken h) ih

theorem Spec.Ensured.mono {ok ok' : List Node → Prop} (h : ∀ ks, ok' ks) {g : Str} {ks ks' : List Node}
    (hr : Ensured E ok g ks ks') : Ensured E ok' g ks ks' := by
  cases hr with
  | there ha => exact .there ha
  | added h1 h2 _ => exact .added h1 h2 (h _)

theorem Spec.MovedBelow.mono {ok ok' : List Node → Prop} (h : ∀ ks, ok' ks) {old g new : Str} {ks ks' : List Node}
    (hr : MovedBelow E ok old g new ks ks') : MovedBelow E ok' old g new ks ks' := by
  cases hr with
  | absent ha => exact .absent ha
  | moved h1 h2 h3 h4 h5 h6 _ _ => exact .moved h1 (h2.mono h) h3 h4 h5 h6 (h _) (h _)

theorem ensure_in_section {base ext g : Str} (hg : KeyName g) (hb : base = absPath comps ∨ base = absPath comps ++ §"/")
    (he : ext = '/' :: g ∨ ext = g) (hc : ∀ c ∈ comps, Component c) {ks' : List Node}
    (hr : Ensured E (Host comps n) g ks ks') : InSection comps pos n ks (patchAddMissing E base ext) () ks' [] := by
  unfold patchAddMissing
  rw [path_key hc hg.1 hb he]
  cases hr with
  | there ha =>
    rcases absent_or_first g ks with h | ⟨pre, k, post, hk, hf⟩
    · exact absurd h ha
    · exact InSection.bind0 (InSection.key hg hk hf) (InSection.pure ())
  | added ha hp hh =>
    exact InSection.bind0 (InSection.noKey hg ha)
      (InSection.patched hh fun c hc => hc.put E hg (by simp) hp).void

theorem moveBelow_in_section {base oldExt gExt newExt old g new : Str} (hold : KeyName old) (hg : KeyName g)
    (hnew : KeyName new) (hne : old ≠ g) (hb : base = absPath comps ∨ base = absPath comps ++ §"/")
    (he : oldExt = '/' :: old) (heg : gExt = '/' :: g) (hen : newExt = '/' :: new) (hc : ∀ c ∈ comps, Component c)
    {ks' : List Node} (hr : MovedBelow E (Host comps n) old g new ks ks') :
    InSection comps pos n ks (patchMoveNew E base oldExt gExt (some newExt)) () ks' [] := by
  have hpath : Recipe.appendToPath gExt newExt = '/' :: g ++ '/' :: new := by
    subst heg hen
    have := (C02_append_walks {} [g] [new] (by simpa using hg.1) (by simpa using hnew.1) (by simp) _ _
      (Or.inl rfl) (Or.inl rfl)).1
    simpa [absPath] using this
  have hdeep : Recipe.appendToPath base (Recipe.appendToPath gExt newExt) = absPath (comps ++ [g] ++ [new]) := by
    rw [hpath]
    have := (C02_append_walks {} comps [g, new] hc (by simpa using ⟨hg.1, hnew.1⟩) (by simp) base ('/' :: g ++ '/' :: new) hb
      (Or.inl (by simp [absPath]))).1
    simpa using this
  unfold patchMoveNew patchMoveBase
  simp only [Option.getD_some, hdeep]
  rw [path_key hc hold.1 hb (Or.inl he)]
  cases hr with
  | absent ha =>
    refine InSection.bind0 (InSection.noKey hold ha) ?_
    exact InSection.bind0 (InSection.noKey hold ha) (InSection.pure ())
  | moved ha hen ht hfm hkey hp h1 h2 =>
    rcases absent_or_first old ks with h | ⟨pre, k, post, hk, hf⟩
    · exact absurd h ha
    obtain ⟨pre', k', post', hk', hf'⟩ := ht.split
    refine InSection.bind0 (InSection.key hold hk hf) ?_
    refine InSection.bind (s1 := []) (ensure_in_section hg hb (Or.inl heg) hc hen) ?_
    exact InSection.bind0 (InSection.key hold hk' hf')
      (InSection.patched h2 fun c hc => hc.moveBelow E hold hg hnew hne ht hfm hkey hp h1).void

/-- The loop over a table of renamings; the extensions may be written with a slash in front. -/
theorem renames_in_section {base : Str} (pre : Str → Str) (hpre : ∀ x, pre x = x ∨ pre x = '/' :: x)
    (hb : base = absPath comps ∨ base = absPath comps ++ §"/") (hc : ∀ c ∈ comps, Component c) :
    ∀ (os : List (Str × Str)) (ks ks' : List Node), (∀ o ∈ os, KeyName o.1 ∧ KeyName o.2 ∧ o.1 ≠ o.2) →
      RenamedAll E (Host comps n) os ks ks' →
      InSection comps pos n ks (each (fun (o : Str × Str) => patchMoveBase E base o.1 o.2)
        (os.map fun o => (pre o.1, pre o.2))) () ks' []
  | [], ks, ks', _, h => by cases h; exact InSection.each_nil _
  | (old, new) :: os, ks, ks', ho, h => by
    cases h with
    | cons h1 h2 =>
      obtain ⟨k1, k2, k3⟩ := ho (old, new) (by simp)
      refine InSection.each_cons (s1 := []) (rename_in_section k1 k2 k3 hb (hpre old).symm (hpre new).symm h1 hc) ?_
      exact renames_in_section pre hpre hb hc os _ _ (fun o h => ho o (by simp [h])) h2

theorem without_first {name : Str} {pre post : List Node} {k : Node} (h : First name pre k) :
    without name (pre ++ k :: post) = pre ++ post := by
  unfold without
  rw [List.eraseP_append_right _ (by intro x hx; simpa using h.first x hx)]
  simp [h.named]

theorem dropField_in_section {base f : Str} (hf : KeyName f) (hb : base = absPath comps ∨ base = absPath comps ++ §"/")
    (hc : ∀ c ∈ comps, Component c) (hn : ∀ ks, Host comps n ks) (hk : ∀ k ∈ ks, bareValue k = false) :
    InSection comps pos n ks (patchDeprecatedField E base f) () (if Absent f ks then ks else without f ks)
      (if Absent f ks then [] else [unsupported comps f]) := by
  unfold patchDeprecatedField
  rw [path_key hc hf.1 hb (Or.inr rfl)]
  rcases absent_or_first f ks with ha | ⟨pre, k, post, rfl, hfk⟩
  · rw [if_pos ha, if_pos ha]
    exact InSection.bind0 (InSection.noKey hf ha) (InSection.pure ())
  · have ha : ¬ Absent f (pre ++ k :: post) := fun h => h k (by simp) hfk.named
    rw [if_neg ha, if_neg ha, without_first hfk]
    exact InSection.bind0 (InSection.key hf rfl hfk)
      (InSection.bind (s1 := []) (InSection.remove hf rfl hfk (hk k (by simp)) (hn _)) (InSection.say _ _))

theorem dropFields_in_section {base : Str} (hb : base = absPath comps ∨ base = absPath comps ++ §"/")
    (hc : ∀ c ∈ comps, Component c) (hn : ∀ ks, Host comps n ks) : ∀ (fs : List Str) (ks : List Node),
    (∀ f ∈ fs, KeyName f) → (∀ k ∈ ks, bareValue k = false) →
    InSection comps pos n ks (patchDeprecated E base fs) () (dropFields fs ks).1
      ((dropFields fs ks).2.map (unsupported comps))
  | [], ks, _, _ => InSection.each_nil _
  | f :: fs, ks, hf, hk => by
    have h1 := dropField_in_section (E := E) (pos := pos) (hf f (by simp)) hb hc hn hk
    have ih := fun ks hk => dropFields_in_section hb hc hn fs ks (fun f h => hf f (by simp [h])) hk
    simp only [dropFields]
    by_cases ha : Absent f ks
    · rw [if_pos ha] at h1 ⊢
      rw [if_pos ha] at h1
      exact InSection.each_cons (s1 := []) h1 (ih ks hk)
    · rw [if_neg ha] at h1 ⊢
      rw [if_neg ha] at h1
      refine InSection.each_cons h1 (ih _ fun k h => hk k ?_)
      exact List.mem_of_mem_eraseP h

end steps

end Crm
