import Verif.Spec.Commute
import Verif.Lemmas.DocEdit
import Verif.Lemmas.PatchFrame
import Verif.Lemmas.ConvSelectors
import Verif.Lemmas.Update
import Verif.Props.BumpOrder

/-! # Edits below a place only depend on what is there -/

namespace Crm
open Spec

/-! ## Traversal below a place -/

section below
variable {root m : Node} {b : List Str} {p : Pos}

theorem locate_below (hp : locate root b = some p) (hm : nodeAt root p = some m) (rest : List Str) :
    locate root (b ++ rest) = (locate m rest).map (p ++ ·) := by
  rw [locate_append, hp]; simp [hm]

theorem node_below (hm : nodeAt root p = some m) (q : Pos) : nodeAt root (p ++ q) = nodeAt m q := by
  rw [nodeAt_append, hm]; rfl

theorem update_below (hm : nodeAt root p = some m) (f : Node → Node) (q : Pos) :
    updateAt f (p ++ q) root = updateAt (fun _ => updateAt f q m) p root := by
  rw [updateAt_append, updateAt_const _ hm]

theorem twi_below (hp : locate root b = some p) (hm : nodeAt root p = some m)
    (h : endsInNumber b = false ∨ m.isCollectionElement = true) (rest : List Str) :
    traverseWithIndex root (rootValue :: (b ++ rest)) =
      (traverseWithIndex m (rootValue :: rest)).map fun x => (x.1.map (p ++ ·), x.2.1, x.2.2) := by
  rcases List.eq_nil_or_concat rest with rfl | ⟨init, last, rfl⟩
  · rw [List.append_nil, twi_place hp hm h, twi_name m [] (by simp)]
    simp [Except.map, locate]
  · rw [List.concat_eq_append, ← List.append_assoc]
    cases hd : isDigitS last with
    | false =>
      rw [twi_name _ _ (by intro l hl; simp at hl; subst hl; exact hd), twi_name _ _ (by intro l hl; simp at hl; subst hl; exact hd),
        List.append_assoc, locate_below hp hm]
      rfl
    | true =>
      rw [twi_digit _ _ _ hd, twi_digit _ _ _ hd, locate_below hp hm]
      cases hi : locate m init with
      | none => rfl
      | some q =>
        simp only [Option.map_some, node_below hm]
        cases (virtToPhys (((nodeAt m q).map (·.children)).getD []))[natOfStr last]? with
        | none => rfl
        | some j =>
          simp only
          cases (((nodeAt m q).map (·.children)).getD [])[j]? with
          | none => rfl
          | some c =>
            simp only
            split <;> simp [Except.map]

theorem getLast?_below (b : List Str) {rest : List Str} (hr : rest ≠ []) :
    (rootValue :: (b ++ rest)).getLast? = (rootValue :: rest).getLast? := by
  rcases List.eq_nil_or_concat rest with rfl | ⟨init, last, rfl⟩
  · exact absurd rfl hr
  · rw [List.concat_eq_append, ← List.append_assoc, getLast?_stack, getLast?_stack]

theorem dropLast_below (b : List Str) {rest : List Str} (hr : rest ≠ []) :
    (rootValue :: (b ++ rest)).dropLast = rootValue :: (b ++ rest.dropLast) := by
  rcases List.eq_nil_or_concat rest with rfl | ⟨init, last, rfl⟩
  · exact absurd rfl hr
  · rw [List.concat_eq_append, ← List.append_assoc, dropLast_stack, List.dropLast_concat]

theorem dropLast_self {rest : List Str} (hr : rest ≠ []) : (rootValue :: rest).dropLast = rootValue :: rest.dropLast := by
  simpa using dropLast_below [] hr

theorem target_below (hp : locate root b = some p) (hm : nodeAt root p = some m)
    (h : endsInNumber b = false ∨ m.isCollectionElement = true) {rest : List Str} (hr : rest ≠ []) :
    patchAddFindTarget root (rootValue :: (b ++ rest)) =
      (patchAddFindTarget m (rootValue :: rest)).map fun t => { t with node := t.node.map (p ++ ·) } := by
  unfold patchAddFindTarget
  rw [getLast?_below b hr]
  cases (rootValue :: rest).getLast? with
  | none => rfl
  | some last =>
    simp only [bind, Except.bind]
    by_cases hl : last = §"-"
    · simp only [hl, decide_true, if_true, dropLast_below b hr, dropLast_self hr, twi_below hp hm h]
      cases traverseWithIndex m (rootValue :: rest.dropLast) with
      | error e => rfl
      | ok x =>
        simp [Except.map]
    · simp only [hl, decide_false, Bool.false_eq_true, if_false, dropLast_below b hr, dropLast_self hr, twi_below hp hm h,
        getLast?_below b hr]
      cases traverseWithIndex m (rootValue :: rest) with
      | error e => rfl
      | ok x =>
        obtain ⟨node, v, i⟩ := x
        cases node with
        | some q => simp [Except.map]
        | none =>
          simp only [Except.map, Option.map_none, Option.isNone_none, Bool.not_false, Bool.and_true, if_true]
          cases traverseWithIndex m (rootValue :: rest.dropLast) with
          | error e => rfl
          | ok x => rfl

/-- Put `m'` in the place of what is at `p`. -/
abbrev putAt (root : Node) (p : Pos) (m' : Node) : Node := updateAt (fun _ => m') p root

theorem patchAdd_below (hp : locate root b = some p) (hm : nodeAt root p = some m)
    (h : endsInNumber b = false ∨ m.isCollectionElement = true) {rest : List Str} (hr : rest ≠ []) (E : Env) (v : PyVal) :
    patchAdd E root (rootValue :: (b ++ rest)) v = (patchAdd E m (rootValue :: rest) v).map fun o => o.map (putAt root p) := by
  unfold patchAdd
  rw [target_below hp hm h hr]
  cases patchAddFindTarget m (rootValue :: rest) with
  | error e => rfl
  | ok t =>
    obtain ⟨node, virt, phys, create, app⟩ := t
    simp only [Except.map, bind, Except.bind]
    cases node with
    | none => rfl
    | some q =>
      simp only [Option.map_some, node_below hm, update_below hm]
      split
      · rfl
      · split
        · rfl
        · cases phys with
          | some i => rfl
          | none =>
            simp only
            split <;> rfl

theorem patchReplace_below (hp : locate root b = some p) (hm : nodeAt root p = some m)
    (h : endsInNumber b = false ∨ m.isCollectionElement = true) (rest : List Str) (E : Env) (v : PyVal) :
    patchReplace E root (rootValue :: (b ++ rest)) v = (patchReplace E m (rootValue :: rest) v).map fun o => o.map (putAt root p) := by
  unfold patchReplace
  rw [twi_below hp hm h]
  cases traverseWithIndex m (rootValue :: rest) with
  | error e => rfl
  | ok t =>
    obtain ⟨node, virt, phys⟩ := t
    simp only [Except.map, bind, Except.bind]
    cases node with
    | none => rfl
    | some q =>
      simp only [Option.map_some, node_below hm, update_below hm]
      split
      · rfl
      · cases generateSubtree E v with
        | error e => rfl
        | ok new => cases phys <;> rfl

theorem patchRemove_below (hp : locate root b = some p) (hm : nodeAt root p = some m) {rest : List Str} (hr : rest ≠ []) :
    patchRemove root (rootValue :: (b ++ rest)) = (patchRemove m (rootValue :: rest)).map (putAt root p) := by
  unfold patchRemove
  rw [getLast?_below b hr, dropLast_below b hr, dropLast_self hr]
  simp only [traverse_locate, locate_below hp hm]
  cases (rootValue :: rest).getLast? with
  | none => rfl
  | some last =>
    simp only
    cases locate m rest with
    | none => rfl
    | some q =>
      simp only [Option.map_some, Option.bind_some, node_below hm]
      cases nodeAt m q with
      | none => rfl
      | some x =>
        simp only
        split
        · rfl
        · cases locate m rest.dropLast with
          | none => rfl
          | some q' =>
            simp only [Option.map_some, node_below hm]
            cases nodeAt m q' with
            | none => rfl
            | some n =>
              simp only [update_below hm]
              cases isDigitS last with
              | true =>
                simp only [if_true]
                cases isValidPatchNode (some n) (some (natOfStr last)) with
                | false => rfl
                | true =>
                  simp only [Bool.not_true, Bool.false_eq_true, if_false]
                  cases (virtToPhys n.children)[natOfStr last]? <;> rfl
              | false =>
                simp only [Bool.false_eq_true, if_false]
                cases isValidPatchNode (some n) none with
                | false => rfl
                | true =>
                  simp only [Bool.not_true, Bool.false_eq_true, if_false]
                  cases n.children.findIdx? (fun c => c.pyEq x) <;> rfl

/-! ## Below a key that is not there -/

theorem locate_gone (hp : locate root b = none) (rest : List Str) : locate root (b ++ rest) = none := by
  rw [locate_append, hp]; rfl

theorem twi_gone (hp : locate root b = none) (h : endsInNumber b = false) (rest : List Str) :
    ∃ v, traverseWithIndex root (rootValue :: (b ++ rest)) = .ok (none, v, none) := by
  rcases List.eq_nil_or_concat rest with rfl | ⟨init, last, rfl⟩
  · rw [List.append_nil, twi_missing hp h]; exact ⟨_, rfl⟩
  · rw [List.concat_eq_append, ← List.append_assoc]
    cases hd : isDigitS last with
    | false => rw [twi_name _ _ (by intro l hl; simp at hl; subst hl; exact hd), List.append_assoc, locate_gone hp]; exact ⟨_, rfl⟩
    | true => rw [twi_digit _ _ _ hd, locate_gone hp]; exact ⟨_, rfl⟩

theorem patchAdd_gone (hp : locate root b = none) (h : endsInNumber b = false) {rest : List Str} (hr : rest ≠ []) (E : Env)
    (v : PyVal) : patchAdd E root (rootValue :: (b ++ rest)) v = .ok none := by
  have : ∃ t, patchAddFindTarget root (rootValue :: (b ++ rest)) = .ok t ∧ t.node = none := by
    unfold patchAddFindTarget
    rw [getLast?_below b hr]
    cases (rootValue :: rest).getLast? with
    | none => exact ⟨_, rfl, rfl⟩
    | some last =>
      obtain ⟨v1, h1⟩ := twi_gone hp h rest
      obtain ⟨v2, h2⟩ := twi_gone hp h rest.dropLast
      simp only [bind, Except.bind]
      by_cases hl : last = §"-"
      · simp only [hl, decide_true, if_true, dropLast_below b hr, h2]
        exact ⟨_, rfl, rfl⟩
      · simp only [hl, decide_false, Bool.false_eq_true, if_false, dropLast_below b hr, h1, h2]
        exact ⟨_, rfl, rfl⟩
  obtain ⟨t, h1, h2⟩ := this
  simp [patchAdd, h1, h2, bind, Except.bind]

theorem patchReplace_gone (hp : locate root b = none) (h : endsInNumber b = false) (rest : List Str) (E : Env) (v : PyVal) :
    patchReplace E root (rootValue :: (b ++ rest)) v = .ok none := by
  obtain ⟨x, hx⟩ := twi_gone hp h rest
  simp [patchReplace, hx, bind, Except.bind]

end below

/-! ## Edits as functions of the tree -/

/-- The answer of an edit, and the tree if it is a new one. -/
def treeEdit (E : Env) (root : Node) (comps : List Str) : Edit → Except PyErr Answer × Option Node
  | .add v => if v = .sentinel then (.error .jsonPatchValidation, none) else
    match patchAdd E root (rootValue :: comps) v with
    | .error e => (.error e, none)
    | .ok o => (.ok (.success o.isSome), o)
  | .remove => let o := patchRemove root (rootValue :: comps); (.ok (.success o.isSome), o)
  | .replace v => if v = .sentinel then (.error .jsonPatchValidation, none) else
    match patchReplace E root (rootValue :: comps) v with
    | .error e => (.error e, none)
    | .ok o => (.ok (.success o.isSome), o)
  | .test v => if v = .sentinel then (.error .jsonPatchValidation, none) else
    ((patchTest E root (absPath comps) v).map .success, none)
  | .addSelector s mode => match locate root comps with
    | none => (.error .keyError, none)
    | some pos =>
      if (Regex.selector.matchStart s).isNone then (.error .valueError, none)
      else (.ok .nothing,
        some (updateAt (setLineComment (addSelectorComment (((nodeAt root pos).map (·.comment)).getD []) s mode)) pos root))
  | .removeSelector => match locate root comps with
    | none => (.error .keyError, none)
    | some pos =>
      match Regex.selector.search (((nodeAt root pos).map (·.comment)).getD []) with
      | none => (.ok (.removed none), none)
      | some m => (.ok (.removed (some m.text)),
        some (updateAt (setLineComment (Recipe.removeSelectorComment (((nodeAt root pos).map (·.comment)).getD []) m.text)) pos root))
  | .addComment text =>
    if strip text = [] then (.error .valueError, none)
    else if (Regex.selector.matchStart (strip text)).isSome then (.error .valueError, none)
    else match locate root comps with
      | none => (.error .keyError, none)
      | some pos => (.ok .nothing,
        some (updateAt (setLineComment (Recipe.addCommentText (((nodeAt root pos).map (·.comment)).getD []) (strip text))) pos root))

/-- A patch with a value. -/
theorem patchWith_is {op path : Str} {v : PyVal} (hop : op ∈ [§"add", §"replace", §"test"]) (hp : path ≠ []) (hv : v ≠ .sentinel) :
    IsPatch (patchWith op path v) op path := by
  have h1 : field (patchWith op path v) §"op" = some (.str op) := rfl
  have h2 : field (patchWith op path v) §"path" = some (.str path) := rfl
  have h3 : field (patchWith op path v) §"value" = some v := rfl
  have h4 : field (patchWith op path v) §"from" = none := rfl
  refine ⟨⟨⟨_, rfl, by simp⟩, ⟨op, ?_, h1⟩, ⟨path, hp, h2⟩, fun _ _ _ => by rw [h3]; rfl, ?_, fun w hw => (by rw [h4] at hw; cases hw), ?_⟩,
    h1, h2⟩
  · simp only [List.mem_cons, List.not_mem_nil, or_false] at hop ⊢
    rcases hop with h | h | h <;> simp [h]
  · intro o ho h5
    rw [h1] at h5
    injection h5 with h5; injection h5 with h5
    subst h5
    simp only [List.mem_cons, List.not_mem_nil, or_false] at hop ho
    rcases hop with rfl | rfl | rfl <;> rcases ho with h | h <;> exact absurd h (by decide)
  · rw [h3]; intro h; injection h with h; exact hv h

theorem sentinel_invalid (op path : Str) : schemaValid (patchWith op path .sentinel) = false := by
  cases h : schemaValid (patchWith op path .sentinel) with
  | false => rfl
  | true => exact absurd rfl ((schemaValid_iff _).1 h).json

theorem removePatch_is {path : Str} (hp : path ≠ []) :
    IsPatch (.dict [(§"op", .str §"remove"), (§"path", .str path)]) §"remove" path := by
  refine ⟨⟨⟨_, rfl, by simp⟩, ⟨§"remove", by decide, rfl⟩, ⟨path, hp, rfl⟩, ?_, ?_, ?_, ?_⟩, rfl, rfl⟩
  · intro o ho h
    have h : some (PyVal.str §"remove") = some (.str o) := h
    injection h with h; injection h with h; subst h; exact absurd ho (by decide)
  · intro o ho h
    have h : some (PyVal.str §"remove") = some (.str o) := h
    injection h with h; injection h with h; subst h; exact absurd ho (by decide)
  · intro w hw
    have : (none : Option PyVal) = some w := hw
    cases this
  · intro h
    have : (none : Option PyVal) = some .sentinel := h
    cases this

/-- What a call does to a recipe, from what the edit does to the tree. -/
structure Does (r : Recipe) (out : Except PyErr Answer × Recipe) (tree : Except PyErr Answer × Option Node) : Prop where
  answer : out.1 = tree.1
  root : out.2.root = tree.2.getD r.root
  vars : out.2.vars = r.vars
  schema : out.2.schema = r.schema

theorem does_outcome {r : Recipe} {op : Str} (hop : op ≠ §"test") (x : Except PyErr (Option Node)) :
    Does r (let out := finishPatch r op (opOutcome r.root x); (out.1.map .success, out.2))
      (match x with | .error e => (.error e, none) | .ok o => (.ok (.success o.isSome), o)) := by
  rw [finish_outcome hop]
  rcases x with e | (_ | root') <;> exact ⟨rfl, rfl, rfl, rfl⟩

theorem does_invalid {E : Env} {r : Recipe} {p : PyVal} (h : schemaValid p = false) :
    Does r (let out := r.patch E p; (out.1.map .success, out.2)) (.error .jsonPatchValidation, none) := by
  have : r.patch E p = (.error .jsonPatchValidation, r) := by simp [Recipe.patch, h]
  rw [this]
  exact ⟨rfl, rfl, rfl, rfl⟩

theorem call_does (E : Env) (r : Recipe) {comps : List Str} (hne : comps ≠ []) (hc : ∀ c ∈ comps, Component c) (e : Edit) :
    Does r (e.call E (absPath comps) r) (treeEdit E r.root comps e) := by
  have hst := strToStack_absPath comps hne hc
  have hpn := absPath_ne_nil comps hne
  cases e with
  | add v =>
    by_cases hv : v = .sentinel
    · subst hv
      simpa [Edit.call, treeEdit] using does_invalid (E := E) (r := r) (sentinel_invalid §"add" (absPath comps))
    · obtain ⟨d, hd, he⟩ := patch_eq' (E := E) (patchWith_is (v := v) (by decide) hpn hv) (by decide) r (op := §"add")
      injection hd with hd; subst hd
      simp only [Edit.call, treeEdit, if_neg hv, he]
      rw [call_add hst rfl]
      exact does_outcome (by decide) _
  | remove =>
    obtain ⟨d, hd, he⟩ := patch_eq' (E := E) (removePatch_is hpn) (by decide) r
    injection hd with hd; subst hd
    simp only [Edit.call, treeEdit, he]
    rw [call_remove hst]
    exact does_outcome (by decide) _
  | replace v =>
    by_cases hv : v = .sentinel
    · subst hv
      simpa [Edit.call, treeEdit] using does_invalid (E := E) (r := r) (sentinel_invalid §"replace" (absPath comps))
    · obtain ⟨d, hd, he⟩ := patch_eq' (E := E) (patchWith_is (v := v) (by decide) hpn hv) (by decide) r (op := §"replace")
      injection hd with hd; subst hd
      simp only [Edit.call, treeEdit, if_neg hv, he]
      rw [call_replace hst rfl]
      exact does_outcome (by decide) _
  | test v =>
    by_cases hv : v = .sentinel
    · subst hv
      simpa [Edit.call, treeEdit] using does_invalid (E := E) (r := r) (sentinel_invalid §"test" (absPath comps))
    · obtain ⟨d, hd, he⟩ := patch_eq' (E := E) (patchWith_is (v := v) (by decide) hpn hv) (by decide) r (op := §"test")
      injection hd with hd; subst hd
      simp only [Edit.call, treeEdit, if_neg hv, he]
      rw [call_test hst rfl]
      rcases patchTest E r.root (absPath comps) v with e | (_ | _) <;> exact ⟨rfl, rfl, rfl, rfl⟩
  | addSelector s mode =>
    simp only [Edit.call, treeEdit, Recipe.addSelector, hst, traverse_locate]
    cases locate r.root comps with
    | none => exact ⟨rfl, rfl, rfl, rfl⟩
    | some pos =>
      simp only
      split <;> exact ⟨rfl, rfl, rfl, rfl⟩
  | removeSelector =>
    simp only [Edit.call, treeEdit, Recipe.removeSelector, hst, traverse_locate]
    cases locate r.root comps with
    | none => exact ⟨rfl, rfl, rfl, rfl⟩
    | some pos =>
      simp only
      cases Regex.selector.search (((nodeAt r.root pos).map (·.comment)).getD []) <;> exact ⟨rfl, rfl, rfl, rfl⟩
  | addComment text =>
    simp only [Edit.call, treeEdit, Recipe.addComment, hst, traverse_locate]
    split
    · exact ⟨rfl, rfl, rfl, rfl⟩
    · split
      · exact ⟨rfl, rfl, rfl, rfl⟩
      · cases locate r.root comps <;> exact ⟨rfl, rfl, rfl, rfl⟩

/-! ## Edits below a place -/

/-- What an edit below a node leaves of it. -/
structure Keeps (m m' : Node) : Prop where
  value : m'.value = m.value
  listMember : m'.listMember = m.listMember
  comment : m.isCollectionElement = true → m.comment = [] → m'.isComment = false

theorem keeps_changed {f : List Node → List Node → Prop} {pos : Pos} {m m' : Node} (h : ChildrenChanged f pos m m') : Keeps m m' := by
  have := changed_fields h
  refine ⟨by rw [this], by rw [this], fun _ hc => ?_⟩
  rw [this]
  simp [Node.isComment, hc]

theorem keeps_lineComment (c : Str) (m : Node) : Keeps m (setLineComment c m) := by
  refine ⟨rfl, rfl, fun h _ => ?_⟩
  simp only [Node.isCollectionElement, Bool.and_eq_true, Bool.not_eq_true'] at h
  simp only [setLineComment, Node.isComment]
  split <;> simp [h.2]

theorem keeps_updateAt (c : Str) : ∀ (q : Pos) (m : Node), Keeps m (updateAt (setLineComment c) q m)
  | [], m => keeps_lineComment c m
  | i :: q, m => by
    refine ⟨rfl, rfl, fun _ hc => ?_⟩
    simp [updateAt, Node.isComment, hc]

/-- The same edit at a place that holds the same in two trees. -/
structure Local (root root' : Node) (p p' : Pos) (m : Node) (x x' : Except PyErr Answer × Option Node) : Prop where
  answer : x.1 = x'.1
  tree : (x.2 = none ∧ x'.2 = none) ∨ ∃ m', Keeps m m' ∧ x.2 = some (putAt root p m') ∧ x'.2 = some (putAt root' p' m')

theorem local_of {root root' : Node} {p p' : Pos} {m : Node} {x x' y : Except PyErr Answer × Option Node}
    (h : x = (y.1, y.2.map (putAt root p))) (h' : x' = (y.1, y.2.map (putAt root' p'))) (hk : ∀ m', y.2 = some m' → Keeps m m') :
    Local root root' p p' m x x' := by
  subst h h'
  refine ⟨rfl, ?_⟩
  obtain ⟨a, o⟩ := y
  cases o with
  | none => exact Or.inl ⟨rfl, rfl⟩
  | some m' => exact Or.inr ⟨m', hk m' rfl, rfl, rfl⟩

theorem treeEdit_local (E : Env) {root root' m : Node} {b : List Str} {p p' : Pos} (hp : locate root b = some p)
    (hm : nodeAt root p = some m) (hp' : locate root' b = some p') (hm' : nodeAt root' p' = some m)
    (h : endsInNumber b = false ∨ m.isCollectionElement = true) (hb : b ≠ []) {rest : List Str} (hc : ∀ c ∈ b ++ rest, Component c)
    {e : Edit} (he : e.Within rest) :
    Local root root' p p' m (treeEdit E root (b ++ rest) e) (treeEdit E root' (b ++ rest) e) := by
  cases e with
  | add v =>
    refine local_of (y := treeEdit E m rest (.add v)) ?_ ?_ ?_
    · simp only [treeEdit]
      split
      · rfl
      · rw [patchAdd_below hp hm h he]
        rcases patchAdd E m (rootValue :: rest) v with e | (_ | _) <;> rfl
    · simp only [treeEdit]
      split
      · rfl
      · rw [patchAdd_below hp' hm' h he]
        rcases patchAdd E m (rootValue :: rest) v with e | (_ | _) <;> rfl
    · intro m1 h1
      simp only [treeEdit] at h1
      split at h1
      · cases h1
      · cases hx : patchAdd E m (rootValue :: rest) v with
        | error e => rw [hx] at h1; cases h1
        | ok o =>
          rw [hx] at h1
          simp only at h1
          subst h1
          obtain ⟨pos, _, _, _, _, hch⟩ := patchAdd_changed hx
          exact keeps_changed hch
  | remove =>
    refine local_of (y := treeEdit E m rest .remove) ?_ ?_ ?_
    · simp only [treeEdit]
      rw [patchRemove_below hp hm he]
      cases patchRemove m (rootValue :: rest) <;> rfl
    · simp only [treeEdit]
      rw [patchRemove_below hp' hm' he]
      cases patchRemove m (rootValue :: rest) <;> rfl
    · intro m1 h1
      simp only [treeEdit] at h1
      obtain ⟨pos, _, _, _, _, hch⟩ := patchRemove_changed h1
      exact keeps_changed hch
  | replace v =>
    refine local_of (y := treeEdit E m rest (.replace v)) ?_ ?_ ?_
    · simp only [treeEdit]
      split
      · rfl
      · rw [patchReplace_below hp hm h]
        rcases patchReplace E m (rootValue :: rest) v with e | (_ | _) <;> rfl
    · simp only [treeEdit]
      split
      · rfl
      · rw [patchReplace_below hp' hm' h]
        rcases patchReplace E m (rootValue :: rest) v with e | (_ | _) <;> rfl
    · intro m1 h1
      simp only [treeEdit] at h1
      split at h1
      · cases h1
      · cases hx : patchReplace E m (rootValue :: rest) v with
        | error e => rw [hx] at h1; cases h1
        | ok o =>
          rw [hx] at h1
          simp only at h1
          subst h1
          obtain ⟨pos, _, _, _, _, hch⟩ := patchReplace_changed hx
          exact keeps_changed hch
  | test v =>
    have hl : lookup root (b ++ rest) = lookup root' (b ++ rest) := by
      rw [← locate_lookup, ← locate_lookup, locate_below hp hm, locate_below hp' hm']
      cases locate m rest with
      | none => rfl
      | some q => simp only [Option.map_some, Option.bind_some, node_below hm, node_below hm']
    have : getValueIn E root (absPath (b ++ rest)) = getValueIn E root' (absPath (b ++ rest)) :=
      getValueIn_lookup (by simp [hb]) hc hl none none
    refine ⟨?_, Or.inl ?_⟩
    · simp only [treeEdit, patchTest, this]
    · simp only [treeEdit]
      split <;> exact ⟨rfl, rfl⟩
  | addSelector s mode =>
    refine local_of (y := treeEdit E m rest (.addSelector s mode)) ?_ ?_ ?_
    · simp only [treeEdit, locate_below hp hm]
      cases locate m rest with
      | none => rfl
      | some q =>
        simp only [Option.map_some, node_below hm, update_below hm]
        split <;> rfl
    · simp only [treeEdit, locate_below hp' hm']
      cases locate m rest with
      | none => rfl
      | some q =>
        simp only [Option.map_some, node_below hm', update_below hm']
        split <;> rfl
    · intro m1 h1
      simp only [treeEdit] at h1
      split at h1
      · cases h1
      · split at h1
        · cases h1
        · injection h1 with h1; subst h1; exact keeps_updateAt _ _ _
  | removeSelector =>
    refine local_of (y := treeEdit E m rest .removeSelector) ?_ ?_ ?_
    · simp only [treeEdit, locate_below hp hm]
      cases locate m rest with
      | none => rfl
      | some q =>
        simp only [Option.map_some, node_below hm, update_below hm]
        cases Regex.selector.search (((nodeAt m q).map (·.comment)).getD []) <;> rfl
    · simp only [treeEdit, locate_below hp' hm']
      cases locate m rest with
      | none => rfl
      | some q =>
        simp only [Option.map_some, node_below hm', update_below hm']
        cases Regex.selector.search (((nodeAt m q).map (·.comment)).getD []) <;> rfl
    · intro m1 h1
      simp only [treeEdit] at h1
      split at h1
      · cases h1
      · split at h1
        · cases h1
        · injection h1 with h1; subst h1; exact keeps_updateAt _ _ _
  | addComment text =>
    refine local_of (y := treeEdit E m rest (.addComment text)) ?_ ?_ ?_
    · simp only [treeEdit, locate_below hp hm]
      split
      · rfl
      · split
        · rfl
        · cases locate m rest with
          | none => rfl
          | some q => simp only [Option.map_some, node_below hm, update_below hm]
    · simp only [treeEdit, locate_below hp' hm']
      split
      · rfl
      · split
        · rfl
        · cases locate m rest with
          | none => rfl
          | some q => simp only [Option.map_some, node_below hm', update_below hm']
    · intro m1 h1
      simp only [treeEdit] at h1
      split at h1
      · cases h1
      · split at h1
        · cases h1
        · split at h1
          · cases h1
          · injection h1 with h1; subst h1; exact keeps_updateAt _ _ _

/-- An edit below a key that is not there changes nothing and answers the same in any tree without it. -/
theorem treeEdit_gone (E : Env) {root root' : Node} {b : List Str} (hp : locate root b = none) (hp' : locate root' b = none)
    (h : endsInNumber b = false) (hb : b ≠ []) {rest : List Str} (hc : ∀ c ∈ b ++ rest, Component c) {e : Edit} (he : e.Within rest) :
    (treeEdit E root (b ++ rest) e).1 = (treeEdit E root' (b ++ rest) e).1 ∧ (treeEdit E root (b ++ rest) e).2 = none ∧
      (treeEdit E root' (b ++ rest) e).2 = none := by
  cases e with
  | add v =>
    simp only [treeEdit, patchAdd_gone hp h he, patchAdd_gone hp' h he]
    split <;> simp
  | remove =>
    simp only [treeEdit, patchRemove_none (locate_gone hp rest), patchRemove_none (locate_gone hp' rest), and_self]
  | replace v =>
    simp only [treeEdit, patchReplace_gone hp h, patchReplace_gone hp' h]
    split <;> simp
  | test v =>
    have hl : lookup root (b ++ rest) = lookup root' (b ++ rest) := by
      rw [← locate_lookup, ← locate_lookup, locate_gone hp, locate_gone hp']; rfl
    have : getValueIn E root (absPath (b ++ rest)) = getValueIn E root' (absPath (b ++ rest)) :=
      getValueIn_lookup (by simp [hb]) hc hl none none
    simp only [treeEdit, patchTest, this]
    split <;> simp
  | addSelector s mode =>
    simp [treeEdit, locate_gone hp, locate_gone hp']
  | removeSelector =>
    simp [treeEdit, locate_gone hp, locate_gone hp']
  | addComment text =>
    simp only [treeEdit, locate_gone hp, locate_gone hp']
    split
    · simp
    · split <;> simp

end Crm
