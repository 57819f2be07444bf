import Verif.Lemmas.Text
import Verif.Props.PatchCalls

/-!
# What a successful patch changes (C09-C12)

Paths are given by their components: `absPath ["a", "0"]` is `/a/0`.  `Spec.locate` says which place the components
lead to (a list of child positions, comment lines included), `Spec.ChildrenChanged f pos t t'` that `t'` differs from
`t` only in the children of the node at `pos`, which went from `a` to `b` with `f a b`; `Spec.edited r t` is the recipe
with tree `t`, its selector index, marked as modified.
-/

namespace Crm
open Spec

/-! ## Connecting `patch` to the operations -/

private theorem patch_remove {E : Env} {p : PyVal} {comps : List Str} (hne : comps ≠ []) (hc : ∀ c ∈ comps, Component c)
    (hp : IsPatch p §"remove" (absPath comps)) (r : Recipe) :
    r.patch E p = match patchRemove r.root (rootValue :: comps) with
      | none => (.ok false, r)
      | some root' => (.ok true, edited r root') := by
  obtain ⟨d, rfl, h⟩ := patch_eq' (E := E) hp (by decide) r
  rw [h, call_remove (strToStack_absPath comps hne hc), finish_outcome (by decide)]
  cases patchRemove r.root (rootValue :: comps) <;> rfl

private theorem patch_add {E : Env} {p v : PyVal} {comps : List Str} (hne : comps ≠ []) (hc : ∀ c ∈ comps, Component c)
    (hp : IsPatch p §"add" (absPath comps)) (hv : field p §"value" = some v) (r : Recipe) :
    r.patch E p = match patchAdd E r.root (rootValue :: comps) v with
      | .error e => (.error e, r)
      | .ok none => (.ok false, r)
      | .ok (some root') => (.ok true, edited r root') := by
  obtain ⟨d, rfl, h⟩ := patch_eq' (E := E) hp (by decide) r
  rw [h, call_add (strToStack_absPath comps hne hc) hv, finish_outcome (by decide)]
  rcases patchAdd E r.root (rootValue :: comps) v with e | _ | r' <;> rfl

private theorem patch_replace {E : Env} {p v : PyVal} {comps : List Str} (hne : comps ≠ [])
    (hc : ∀ c ∈ comps, Component c) (hp : IsPatch p §"replace" (absPath comps)) (hv : field p §"value" = some v)
    (r : Recipe) :
    r.patch E p = match patchReplace E r.root (rootValue :: comps) v with
      | .error e => (.error e, r)
      | .ok none => (.ok false, r)
      | .ok (some root') => (.ok true, edited r root') := by
  obtain ⟨d, rfl, h⟩ := patch_eq' (E := E) hp (by decide) r
  rw [h, call_replace (strToStack_absPath comps hne hc) hv, finish_outcome (by decide)]
  rcases patchReplace E r.root (rootValue :: comps) v with e | _ | r' <;> rfl

private theorem value_ne_sentinel {p v : PyVal} {name target : Str} (hp : IsPatch p name target)
    (hv : field p §"value" = some v) : v ≠ .sentinel := by
  rintro rfl; exact hp.json hv

/-! ## C09: remove -/

/-- C09: what `remove` does, for every path.  If the path leads nowhere, or to a bare value (the `1` of `a: 1`), it
answers `False` and changes nothing.  Otherwise it answers `True` and takes exactly the addressed child, with
everything below it, out of its parent; the other children, their comments and their order stay. -/
theorem C09_remove (E : Env) (r : Recipe) (p : PyVal) (init : List Str) (last : Str)
    (hc : ∀ c ∈ init ++ [last], Component c) (hp : IsPatch p §"remove" (absPath (init ++ [last]))) :
    (locate r.root (init ++ [last]) = none → r.patch E p = (.ok false, r)) ∧
    (∀ pos i c, locate r.root (init ++ [last]) = some (pos ++ [i]) → nodeAt r.root (pos ++ [i]) = some c →
      if bareValue c then r.patch E p = (.ok false, r)
      else ∃ root', r.patch E p = (.ok true, edited r root') ∧ ChildrenChanged (Without i) pos r.root root') := by
  have he := patch_remove (E := E) (by simp) hc hp r
  refine ⟨fun h => by rw [he, patchRemove_none h], ?_⟩
  intro pos i c hl hn
  obtain ⟨m, hi, hm, hx, hcm⟩ := locate_last hl hn
  have hr := patchRemove_some hi hm hx hcm
  rw [he, hr]
  by_cases hb : bareValue c = true
  · rw [if_pos hb, if_pos hb]
  · rw [if_neg hb, if_neg hb]
    exact ⟨_, rfl, childrenChanged_updateAt (fun cs => cs.eraseIdx i) _ hm (without_eraseIdx hcm)⟩

/-- The path `/` itself cannot be removed. -/
theorem C09_remove_root (E : Env) (r : Recipe) (p : PyVal) (hp : IsPatch p §"remove" §"/") :
    (r.patch E p).1 = .ok false ∧ (r.patch E p).2 = r := by
  obtain ⟨d, rfl, h⟩ := patch_eq' (E := E) hp (by decide) r
  have hst : strToStack §"/" = .ok [rootValue] := by decide
  have : patchRemove r.root [rootValue] = none := by
    simp only [patchRemove, List.getLast?_singleton, traverse, if_true]
    have hd : isDigitS rootValue = false := by decide
    simp only [Option.bind_some, nodeAt, List.dropLast_singleton, traverse]
    split <;> rfl
  rw [h, call_remove hst, finish_outcome (by decide), this]
  exact ⟨rfl, rfl⟩

example : let p := mkPatch §"remove" §"/l/0"
    locate exPatch.root [§"l", §"0"] = some [1, 0] ∧ IsPatch p §"remove" (absPath [§"l", §"0"]) :=
  ⟨by decide +kernel, ⟨(schemaValid_iff _).1 (by decide), by decide, by decide⟩⟩
example : let p := mkPatch §"remove" §"/l/0"
    (exPatch.patch Toy.env p).1 = .ok true ∧ (exPatch.patch Toy.env p).2.render = §"a:\n  x: 1\n\nl:\n  - q\n" := by
  decide +kernel
example : (exPatch.patch Toy.env (mkPatch §"remove" §"/a/x/1")).1 = .ok false := by decide +kernel

/-! ## C10: adding a key -/

/-- C10: adding below an existing parent under a name that is not there yet puts exactly the nodes of the new entry
behind all children of the parent, and changes nothing else.  The parent must be able to have keys: not a bare value,
and, if it is a list element given by number, one that has keys already (`C10_below_list_value_violation`). -/
theorem C10_new_key (E : Env) (r : Recipe) (p v : PyVal) (init : List Str) (last : Str) (pos : Pos) (m : Node)
    (hc : ∀ c ∈ init ++ [last], Component c) (hp : IsPatch p §"add" (absPath (init ++ [last])))
    (hv : field p §"value" = some v) (hname : isDigitS last = false) (hdash : last ≠ §"-")
    (hnew : locate r.root (init ++ [last]) = none) (hpar : locate r.root init = some pos)
    (hm : nodeAt r.root pos = some m) (hplace : endsInNumber init = false ∨ m.isCollectionElement = true)
    (hbare : bareValue m = false) :
    match newNodes E (.dict [(last, v)]) with
    | .error e => r.patch E p = (.error e, r)
    | .ok new => ∃ root', r.patch E p = (.ok true, edited r root') ∧ ChildrenChanged (Appended new) pos r.root root' := by
  have he := patch_add (E := E) (by simp) hc hp hv r
  have ht := target_new hnew hpar hm hplace hname hdash
  have hl : last ≠ [] := (hc last (by simp)).1
  have hadd : patchAdd E r.root (rootValue :: (init ++ [last])) v =
      (newNodes E (.dict [(last, v)])).map fun new =>
        some (updateAt (fun n => { n with children := n.children ++ new }) pos r.root) := by
    unfold patchAdd
    simp only [generateSubtree_eq, ht, bind, Except.bind, hm, valid_none, hbare]
    simp only [Bool.not_false, Bool.not_true, Bool.false_eq_true, if_false, ne_eq, hl, not_false_iff, if_true,
      Option.isSome_none, Bool.or_self, or_true]
    cases newNodes E (.dict [(last, v)]) <;> rfl
  rw [he, hadd]
  cases newNodes E (.dict [(last, v)]) with
  | error e => rfl
  | ok new => exact ⟨_, rfl, childrenChanged_updateAt (fun cs => cs ++ new) _ hm rfl⟩

/-- C10: if the parent is missing, nothing is created. -/
theorem C10_missing_parent (E : Env) (r : Recipe) (p v : PyVal) (init : List Str) (last : Str)
    (hc : ∀ c ∈ init ++ [last], Component c) (hp : IsPatch p §"add" (absPath (init ++ [last])))
    (hv : field p §"value" = some v) (hdash : last ≠ §"-") (hpar : locate r.root init = none)
    (hn : endsInNumber init = false) : r.patch E p = (.ok false, r) := by
  have he := patch_add (E := E) (by simp) hc hp hv r
  obtain ⟨_, ht⟩ := target_missing (last := last) hpar hn hdash
  rw [he]
  unfold patchAdd
  simp only [generateSubtree_eq, ht, bind, Except.bind]

/-- C10: adding at a name (or a list element with keys) that is already there replaces its content; a bare value is
refused. -/
theorem C10_existing (E : Env) (r : Recipe) (p v : PyVal) (comps : List Str) (pos : Pos) (m : Node)
    (hne : comps ≠ []) (hc : ∀ c ∈ comps, Component c) (hp : IsPatch p §"add" (absPath comps))
    (hv : field p §"value" = some v) (hdash : comps.getLast? ≠ some §"-") (hl : locate r.root comps = some pos)
    (hm : nodeAt r.root pos = some m) (hplace : endsInNumber comps = false ∨ m.isCollectionElement = true) :
    if bareValue m then r.patch E p = (.ok false, r)
    else match newNodes E v with
      | .error e => r.patch E p = (.error e, r)
      | .ok new => ∃ root', r.patch E p = (.ok true, edited r root') ∧ ChildrenChanged (Becomes new) pos r.root root' := by
  have he := patch_add (E := E) hne hc hp hv r
  have ht := target_existing hl hm hplace hne hdash
  by_cases hb : bareValue m = true
  · rw [if_pos hb, he]
    unfold patchAdd
    simp only [generateSubtree_eq, ht, bind, Except.bind, hm, valid_none, hb]
    rfl
  · rw [if_neg hb, he]
    have hadd : patchAdd E r.root (rootValue :: comps) v = (newNodes E v).map fun new =>
        some (updateAt (fun n => { n with children := new }) pos r.root) := by
      unfold patchAdd
      simp only [generateSubtree_eq, ht, bind, Except.bind, hm, valid_none, hb]
      simp only [Bool.not_false, Bool.not_true, Bool.false_eq_true, if_false, ne_eq, not_true_eq_false,
        Option.isSome_none, Bool.or_self, or_self]
      cases newNodes E v <;> rfl
    rw [hadd]
    cases newNodes E v with
    | error e => rfl
    | ok new => exact ⟨_, rfl, childrenChanged_updateAt (fun _ => new) _ hm rfl⟩

example : let p := mkPatch §"add" §"/a/y" [(§"value", .int 2)]
    IsPatch p §"add" (absPath [§"a", §"y"]) ∧ locate exPatch.root [§"a", §"y"] = none ∧
    locate exPatch.root [§"a"] = some [0] ∧ ((nodeAt exPatch.root [0]).map bareValue) = some false :=
  ⟨⟨(schemaValid_iff _).1 (by decide), by decide, by decide⟩, by decide +kernel, by decide +kernel, by decide +kernel⟩
example : let p := mkPatch §"add" §"/a/y" [(§"value", .int 2)]
    (exPatch.patch Toy.env p).1 = .ok true ∧
      (exPatch.patch Toy.env p).2.render = §"a:\n  x: 1\n  y: 2\n\nl:\n  - p\n  - q\n" := by decide +kernel
example : exPatch.patch Toy.env (mkPatch §"add" §"/b/y" [(§"value", .int 2)]) = (.ok false, exPatch) := by
  decide +kernel

/-- The restriction on the parent in `C10_new_key` is needed: adding a key below a scalar list element, a place that
cannot have keys, is not refused but puts a new element in front of it. -/
theorem C10_below_list_value_violation :
    let out := exPatch.patch Toy.env (mkPatch §"add" §"/l/1/y" [(§"value", .int 2)])
    out.1 = .ok true ∧ out.2.render = §"a:\n  x: 1\n\nl:\n  - p\n  - y: 2\n  - q\n" ∧
      out.2.containsValue §"/l/1/y" = .ok true ∧ exPatch.getValue Toy.env §"/l/1" = .ok (.str §"q") := by
  decide +kernel

/-! ## C11: adding to a list -/

/-- C11: the index `-` puts the new element behind all children of the list. -/
theorem C11_append (E : Env) (r : Recipe) (p v : PyVal) (init : List Str) (pos : Pos) (m : Node)
    (hc : ∀ c ∈ init, Component c) (hp : IsPatch p §"add" (absPath (init ++ [§"-"])))
    (hv : field p §"value" = some v) (hl : locate r.root init = some pos) (hm : nodeAt r.root pos = some m)
    (hplace : endsInNumber init = false ∨ m.isCollectionElement = true) :
    if bareValue m then r.patch E p = (.ok false, r)
    else match newNodes E v with
      | .error e => r.patch E p = (.error e, r)
      | .ok new => ∃ root', r.patch E p = (.ok true, edited r root') ∧
          ChildrenChanged (Appended (asElement v new)) pos r.root root' := by
  have hc' : ∀ c ∈ init ++ [§"-"], Component c := by
    intro c hcm
    rcases List.mem_append.1 hcm with h | h
    · exact hc c h
    · simp only [List.mem_singleton] at h; subst h; decide
  have he := patch_add (E := E) (by simp) hc' hp hv r
  have ht := target_append hl hm hplace
  by_cases hb : bareValue m = true
  · rw [if_pos hb, he]
    unfold patchAdd
    simp only [generateSubtree_eq, ht, bind, Except.bind, hm, valid_none, hb]
    rfl
  · rw [if_neg hb, he]
    have hadd : patchAdd E r.root (rootValue :: (init ++ [§"-"])) v = (newNodes E v).map fun new =>
        some (updateAt (fun n => { n with children := n.children ++ asElement v new }) pos r.root) := by
      unfold patchAdd
      simp only [generateSubtree_eq, ht, bind, Except.bind, hm, valid_none, hb]
      simp only [Bool.not_false, Bool.not_true, Bool.false_eq_true, if_false, ne_eq, not_true_eq_false,
        Option.isSome_none, Bool.or_false, or_false, if_true]
      cases newNodes E v with
      | error e => rfl
      | ok new => simp only [asListMembers_eq v (value_ne_sentinel hp hv)]; rfl
    rw [hadd]
    cases newNodes E v with
    | error e => rfl
    | ok new => exact ⟨_, rfl, childrenChanged_updateAt (fun cs => cs ++ asElement v new) _ hm rfl⟩

/-- C11: adding at a number that names a list element without keys inserts the new element in front of it. -/
theorem C11_insert (E : Env) (r : Recipe) (p v : PyVal) (init : List Str) (last : Str) (pos : Pos) (i : Nat) (c : Node)
    (hc : ∀ c ∈ init ++ [last], Component c) (hp : IsPatch p §"add" (absPath (init ++ [last])))
    (hv : field p §"value" = some v) (hnum : isDigitS last = true)
    (hl : locate r.root (init ++ [last]) = some (pos ++ [i])) (hcn : nodeAt r.root (pos ++ [i]) = some c)
    (hcol : c.isCollectionElement = false) :
    match newNodes E v with
    | .error e => r.patch E p = (.error e, r)
    | .ok new => ∃ root', r.patch E p = (.ok true, edited r root') ∧
        ChildrenChanged (Inserted i (asElement v new)) pos r.root root' := by
  have he := patch_add (E := E) (by simp) hc hp hv r
  obtain ⟨m, hi, hm, hx, hcm⟩ := locate_last hl hcn
  obtain ⟨hvp, c', hc', hlm⟩ := (childIdx_digit hnum i).1 hx
  rw [hcm] at hc'; injection hc' with hc'; subst hc'
  have ht := target_element hnum hi hm hvp hcm hcol
  have hadd : patchAdd E r.root (rootValue :: (init ++ [last])) v = (newNodes E v).map fun new =>
      some (updateAt (fun n => { n with children := insertAll n.children i (asElement v new) }) pos r.root) := by
    unfold patchAdd
    simp only [generateSubtree_eq, ht, bind, Except.bind, hm, valid_some hvp hcm, hlm]
    simp only [Bool.not_true, Bool.false_eq_true, if_false, ne_eq, not_true_eq_false, Option.isSome_some,
      Bool.or_true, if_true]
    cases newNodes E v with
    | error e => rfl
    | ok new => simp only [asListMembers_eq v (value_ne_sentinel hp hv)]; rfl
  rw [he, hadd]
  cases newNodes E v with
  | error e => rfl
  | ok new =>
    exact ⟨_, rfl, childrenChanged_updateAt (fun cs => insertAll cs i (asElement v new)) _ hm
      (inserted_insertAll (Nat.le_of_lt (List.getElem?_eq_some_iff.1 hcm).1))⟩

/-- C11: an index beyond the last element is not refused with `False`: `IndexError` escapes. -/
theorem C11_out_of_range (E : Env) (r : Recipe) (p v : PyVal) (init : List Str) (last : Str) (pos : Pos) (m : Node)
    (hc : ∀ c ∈ init ++ [last], Component c) (hp : IsPatch p §"add" (absPath (init ++ [last])))
    (hv : field p §"value" = some v) (hnum : isDigitS last = true) (hl : locate r.root init = some pos)
    (hm : nodeAt r.root pos = some m) (hr : m.children.countP real ≤ natOfStr last) :
    r.patch E p = (.error .indexError, r) := by
  have he := patch_add (E := E) (by simp) hc hp hv r
  rw [he]
  unfold patchAdd
  simp only [target_range hnum hl hm hr, bind, Except.bind]

/-- C11 for elements with keys is `C10_existing`: their content is overwritten, nothing is inserted. -/
theorem C11_collection_overwritten :
    let r := Toy.recipe "l:\n  - x: 1\n  - y: 2\n"
    let out := r.patch Toy.env (mkPatch §"add" §"/l/1" [(§"value", .dict [(§"z", .int 3)])])
    out.1 = .ok true ∧ out.2.render = §"l:\n  - x: 1\n  - z: 3\n" := by decide +kernel

example : let p := mkPatch §"add" §"/l/1" [(§"value", .str §"n")]
    IsPatch p §"add" (absPath [§"l", §"1"]) ∧ locate exPatch.root [§"l", §"1"] = some [1, 1] ∧
      (nodeAt exPatch.root [1, 1]).map (·.isCollectionElement) = some false :=
  ⟨⟨(schemaValid_iff _).1 (by decide), by decide, by decide⟩, by decide +kernel, by decide +kernel⟩
example : let out := exPatch.patch Toy.env (mkPatch §"add" §"/l/1" [(§"value", .str §"n")])
    out.1 = .ok true ∧ out.2.render = §"a:\n  x: 1\n\nl:\n  - p\n  - n\n  - q\n" := by decide +kernel
example : let out := exPatch.patch Toy.env (mkPatch §"add" §"/l/-" [(§"value", .str §"n")])
    out.1 = .ok true ∧ out.2.render = §"a:\n  x: 1\n\nl:\n  - p\n  - q\n  - n\n" := by decide +kernel
example : (exPatch.patch Toy.env (mkPatch §"add" §"/l/2" [(§"value", .str §"n")])).1 = .error .indexError := by
  decide +kernel

/-! ## C12: replace -/

/-- C12: replacing at a name, or at a list element with keys, substitutes the content and keeps the place itself; a
bare value is refused; a missing place gives `False`. -/
theorem C12_replace (E : Env) (r : Recipe) (p v : PyVal) (comps : List Str) (pos : Pos) (m : Node)
    (hne : comps ≠ []) (hc : ∀ c ∈ comps, Component c) (hp : IsPatch p §"replace" (absPath comps))
    (hv : field p §"value" = some v) (hl : locate r.root comps = some pos)
    (hm : nodeAt r.root pos = some m) (hplace : endsInNumber comps = false ∨ m.isCollectionElement = true) :
    if bareValue m then r.patch E p = (.ok false, r)
    else match newNodes E v with
      | .error e => r.patch E p = (.error e, r)
      | .ok new => ∃ root', r.patch E p = (.ok true, edited r root') ∧ ChildrenChanged (Becomes new) pos r.root root' := by
  have he := patch_replace (E := E) hne hc hp hv r
  have ht := twi_place hl hm hplace
  by_cases hb : bareValue m = true
  · rw [if_pos hb, he]
    unfold patchReplace
    simp only [generateSubtree_eq, ht, bind, Except.bind, hm, valid_none, hb]
    rfl
  · rw [if_neg hb, he]
    have hadd : patchReplace E r.root (rootValue :: comps) v = (newNodes E v).map fun new =>
        some (updateAt (fun n => { n with children := new }) pos r.root) := by
      unfold patchReplace
      simp only [generateSubtree_eq, ht, bind, Except.bind, hm, valid_none, hb]
      simp only [Bool.not_false, Bool.not_true, Bool.false_eq_true, if_false]
      cases newNodes E v <;> rfl
    rw [hadd]
    cases newNodes E v with
    | error e => rfl
    | ok new => exact ⟨_, rfl, childrenChanged_updateAt (fun _ => new) _ hm rfl⟩

/-- C12: replacing a list element without keys swaps exactly this element. -/
theorem C12_replace_element (E : Env) (r : Recipe) (p v : PyVal) (init : List Str) (last : Str) (pos : Pos) (i : Nat)
    (c : Node) (hc : ∀ c ∈ init ++ [last], Component c) (hp : IsPatch p §"replace" (absPath (init ++ [last])))
    (hv : field p §"value" = some v) (hnum : isDigitS last = true)
    (hl : locate r.root (init ++ [last]) = some (pos ++ [i])) (hcn : nodeAt r.root (pos ++ [i]) = some c)
    (hcol : c.isCollectionElement = false) :
    match newNodes E v with
    | .error e => r.patch E p = (.error e, r)
    | .ok new => ∃ root', r.patch E p = (.ok true, edited r root') ∧
        ChildrenChanged (Swapped i (asElement v new)) pos r.root root' := by
  have he := patch_replace (E := E) (by simp) hc hp hv r
  obtain ⟨m, hi, hm, hx, hcm⟩ := locate_last hl hcn
  obtain ⟨hvp, c', hc', hlm⟩ := (childIdx_digit hnum i).1 hx
  rw [hcm] at hc'; injection hc' with hc'; subst hc'
  have ht := twi_digit_found hnum hi hm hvp hcm
  rw [hcol] at ht
  have hadd : patchReplace E r.root (rootValue :: (init ++ [last])) v = (newNodes E v).map fun new =>
      some (updateAt (fun n => { n with children :=
        (insertAll n.children i (asElement v new)).eraseIdx (i + (asElement v new).length) }) pos r.root) := by
    unfold patchReplace
    simp only [generateSubtree_eq, ht, bind, Except.bind, Bool.false_eq_true, if_false, hm, valid_some hvp hcm, hlm, Bool.not_true]
    cases newNodes E v with
    | error e => rfl
    | ok new => simp only [asListMembers_eq v (value_ne_sentinel hp hv)]; rfl
  rw [he, hadd]
  cases newNodes E v with
  | error e => rfl
  | ok new =>
    exact ⟨_, rfl, childrenChanged_updateAt
      (fun cs => (insertAll cs i (asElement v new)).eraseIdx (i + (asElement v new).length)) _ hm
      (swapped_insertAll hcm)⟩

/-- C12: an index beyond the last element is not refused with `False`: `IndexError` escapes. -/
theorem C12_out_of_range (E : Env) (r : Recipe) (p v : PyVal) (init : List Str) (last : Str) (pos : Pos) (m : Node)
    (hc : ∀ c ∈ init ++ [last], Component c) (hp : IsPatch p §"replace" (absPath (init ++ [last])))
    (hv : field p §"value" = some v) (hnum : isDigitS last = true) (hl : locate r.root init = some pos)
    (hm : nodeAt r.root pos = some m) (hr : m.children.countP real ≤ natOfStr last) :
    r.patch E p = (.error .indexError, r) := by
  rw [patch_replace (E := E) (by simp) hc hp hv r]
  unfold patchReplace
  rw [twi_digit_range hnum hl hm hr]; rfl

/-- C12: a missing place is refused; an index out of range raises instead. -/
theorem C12_missing (E : Env) (r : Recipe) (p v : PyVal) (comps : List Str)
    (hne : comps ≠ []) (hc : ∀ c ∈ comps, Component c) (hp : IsPatch p §"replace" (absPath comps))
    (hv : field p §"value" = some v) (hl : locate r.root comps = none) :
    r.patch E p = (.ok false, r) ∨
    (r.patch E p = (.error .indexError, r) ∧ ∃ init last pos m, comps = init ++ [last] ∧ isDigitS last = true ∧
      locate r.root init = some pos ∧ nodeAt r.root pos = some m ∧ m.children.countP real ≤ natOfStr last) := by
  have he := patch_replace (E := E) hne hc hp hv r
  by_cases hn : endsInNumber comps = true
  · rcases List.eq_nil_or_concat comps with rfl | ⟨init, last, rfl⟩
    · exact absurd rfl hne
    · rw [List.concat_eq_append] at *
      rw [endsInNumber_concat] at hn
      cases hi : locate r.root init with
      | none =>
        left
        rw [he]; unfold patchReplace
        rw [twi_digit _ _ _ hn, hi]; rfl
      | some pos =>
        obtain ⟨m, hm⟩ := locate_valid hi
        by_cases hr : m.children.countP real ≤ natOfStr last
        · right
          refine ⟨?_, init, last, pos, m, rfl, hn, hi, hm, hr⟩
          rw [he]; unfold patchReplace
          rw [twi_digit_range hn hi hm hr]; rfl
        · left
          obtain ⟨i, hvp⟩ : ∃ i, (virtToPhys m.children)[natOfStr last]? = some i := by
            have : natOfStr last < (virtToPhys m.children).length := by rw [virtToPhys_length]; omega
            exact ⟨_, List.getElem?_eq_getElem this⟩
          obtain ⟨⟨c, hcm, _⟩, _⟩ := (virtToPhys_getElem? _ _ _).1 hvp
          have hlm : c.listMember = false := by
            cases hlm : c.listMember with
            | false => rfl
            | true =>
              have := (childIdx_digit (n := m) hn i).2 ⟨hvp, c, hcm, hlm⟩
              rw [locate_concat, hi] at hl
              simp [hm, this] at hl
          have hcol : c.isCollectionElement = false := by
            simp [Node.isCollectionElement, hlm]
          have ht := twi_digit_found hn hi hm hvp hcm
          rw [hcol] at ht
          rw [he]; unfold patchReplace
          simp only [generateSubtree_eq, ht, bind, Except.bind, Bool.false_eq_true, if_false, hm, valid_some hvp hcm, hlm,
            Bool.not_false, if_true]
  · left
    rw [he]; unfold patchReplace
    rw [twi_missing hl (by simpa using hn)]; rfl

example : let p := mkPatch §"replace" §"/l/1" [(§"value", .str §"n")]
    IsPatch p §"replace" (absPath [§"l", §"1"]) ∧ locate exPatch.root [§"l", §"1"] = some [1, 1] ∧
      (nodeAt exPatch.root [1, 1]).map (·.isCollectionElement) = some false :=
  ⟨⟨(schemaValid_iff _).1 (by decide), by decide, by decide⟩, by decide +kernel, by decide +kernel⟩
example : let out := exPatch.patch Toy.env (mkPatch §"replace" §"/l/1" [(§"value", .str §"n")])
    out.1 = .ok true ∧ out.2.render = §"a:\n  x: 1\n\nl:\n  - p\n  - n\n" := by decide +kernel
example : let out := exPatch.patch Toy.env (mkPatch §"replace" §"/a/x" [(§"value", .int 5)])
    out.1 = .ok true ∧ out.2.render = §"a:\n  x: 5\n\nl:\n  - p\n  - q\n" := by decide +kernel
example : exPatch.patch Toy.env (mkPatch §"replace" §"/a/y" [(§"value", .int 5)]) = (.ok false, exPatch) ∧
    exPatch.patch Toy.env (mkPatch §"replace" §"/l/2" [(§"value", .int 5)]) = (.error .indexError, exPatch) := by
  decide +kernel

end Crm
