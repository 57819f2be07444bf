import Verif.Spec.Patch
import Verif.Lemmas.Edit
import Verif.Lemmas.Dict

/-! # Lemmas about the patch operations -/

namespace Crm
open Spec

theorem asListMembers_eq (v : PyVal) (hv : v ≠ .sentinel) (new : List Node) :
    asListMembers v new = asElement v new := by
  cases v <;> simp_all [asListMembers, asElement, PyVal.isPrimitive]

/-! ## The schema -/

theorem schemaValid_iff (p : PyVal) : schemaValid p = true ↔ RfcPatch p := by
  constructor
  · intro h
    cases p with
    | dict d =>
      simp only [schemaValid, Bool.and_eq_true] at h
      obtain ⟨⟨⟨⟨⟨⟨⟨⟨⟨⟨⟨h1, h2⟩, h3⟩, h4⟩, h5⟩, h6⟩, h7⟩, h8⟩, h9⟩, h10⟩, h11⟩, h12⟩ := h
      obtain ⟨o, ho⟩ := Option.isSome_iff_exists.1 h5
      obtain ⟨q, hq⟩ := Option.isSome_iff_exists.1 h6
      rw [ho] at h1 h7 h8 h9 h10 h11
      rw [hq] at h2
      simp only [List.any_eq_true, decide_eq_true_eq] at h1
      obtain ⟨o', ho', rfl⟩ := h1
      refine ⟨⟨d, rfl, ?_⟩, ⟨o', ho', ho⟩, ?_, ?_, ?_, ?_, ?_⟩
      · intro kv hkv
        have := List.all_eq_true.1 h12 kv hkv
        simpa using this
      · cases q <;> simp_all [field]
        intro he; rw [he] at h2; simp at h2
      · intro o2 ho2 he
        simp only [field] at he ⊢
        rw [ho] at he; injection he with he; injection he with he; subst he
        simp only [List.mem_cons, List.not_mem_nil, or_false] at ho2
        rcases ho2 with rfl | rfl | rfl
        · simpa using h7
        · simpa using h8
        · simpa using h9
      · intro o2 ho2 he
        simp only [field] at he ⊢
        rw [ho] at he; injection he with he; injection he with he; subst he
        simp only [List.mem_cons, List.not_mem_nil, or_false] at ho2
        rcases ho2 with rfl | rfl
        · simpa using h10
        · simpa using h11
      · intro v hv
        simp only [field] at hv
        rw [hv] at h3
        cases v <;> simp_all
      · intro hv
        simp only [field] at hv
        rw [hv] at h4
        cases h4
    | _ => cases h
  · rintro ⟨⟨d, rfl, hk⟩, ⟨o, ho, hop⟩, ⟨s, hs, hpath⟩, hval, hsrc, hst, hj⟩
    simp only [field] at *
    simp only [schemaValid, hop, hpath, Bool.and_eq_true]
    refine ⟨⟨⟨⟨⟨⟨⟨⟨⟨⟨⟨?_, ?_⟩, ?_⟩, ?_⟩, rfl⟩, rfl⟩, ?_⟩, ?_⟩, ?_⟩, ?_⟩, ?_⟩, ?_⟩
    · exact List.any_eq_true.2 ⟨o, ho, by simp⟩
    · simp only [decide_eq_true_eq]
      cases s with
      | nil => exact absurd rfl hs
      | cons => simp
    · cases hf : lookupD §"from" d with
      | none => rfl
      | some v => obtain ⟨t, rfl⟩ := hst v hf; simp
    · cases hv : lookupD §"value" d with
      | none => trivial
      | some v => cases v <;> first | exact absurd hv hj | simp
    · have := hval §"add" (by simp)
      by_cases he : o = §"add"
      · subst he; simp [this hop]
      · simp [he]
    · have := hval §"replace" (by simp)
      by_cases he : o = §"replace"
      · subst he; simp [this hop]
      · simp [he]
    · have := hval §"test" (by simp)
      by_cases he : o = §"test"
      · subst he; simp [this hop]
      · simp [he]
    · have := hsrc §"move" (by simp)
      by_cases he : o = §"move"
      · subst he; simp [this hop]
      · simp [he]
    · have := hsrc §"copy" (by simp)
      by_cases he : o = §"copy"
      · subst he; simp [this hop]
      · simp [he]
    · refine List.all_eq_true.2 fun kv hkv => ?_
      have := hk kv hkv
      simpa using this

/-- What `patch` does with the outcome of the operation. -/
def finishPatch (r : Recipe) (op : Str) (out : Except PyErr Bool × Node) : Outcome Bool :=
  match out with
  | (.ok true, root) => if op ≠ §"test" then (.ok true, edited r root) else (.ok true, { r with root := root })
  | (res, root) => (res, { r with root := root })

theorem patch_eq {E : Env} {p : PyVal} {op path : Str} (h : IsPatch p op path) (r : Recipe) :
    ∃ d, p = .dict d ∧ r.patch E p =
      if op = §"move" ∧ field p §"from" = some (.str path) then (.ok true, r)
      else finishPatch r op (callPatchOp E r.root op path d) := by
  obtain ⟨d, rfl, _⟩ := h.object
  refine ⟨d, rfl, ?_⟩
  have hv := (schemaValid_iff _).2 h.toRfcPatch
  have h1 : patchStr d §"op" = op := by have := h.isOp; simp only [field] at this; simp [patchStr, this]
  have h2 : patchStr d §"path" = path := by have := h.isPath; simp only [field] at this; simp [patchStr, this]
  simp only [Recipe.patch, hv, Bool.not_true, Bool.false_eq_true, if_false, h1, h2]
  by_cases hm : op = §"move" ∧ lookupD §"from" d = some (.str path)
  · have hm' : op = §"move" ∧ field (.dict d) §"from" = some (.str path) := hm
    rw [if_pos hm, if_pos hm']
  · have hm' : ¬ (op = §"move" ∧ field (.dict d) §"from" = some (.str path)) := hm
    rw [if_neg hm, if_neg hm']
    unfold finishPatch
    cases hc : callPatchOp E r.root op path d with
    | mk res root =>
      cases res with
      | error e => rfl
      | ok b => cases b <;> rfl

theorem call_remove {E : Env} {root : Node} {path : Str} {st : List Str} {d : List (Str × PyVal)}
    (hst : strToStack path = .ok st) :
    callPatchOp E root §"remove" path d = opOutcome root (.ok (patchRemove root st)) := by
  simp [callPatchOp, hst]

theorem call_add {E : Env} {root : Node} {path : Str} {st : List Str} {d : List (Str × PyVal)} {v : PyVal}
    (hst : strToStack path = .ok st) (hv : lookupD §"value" d = some v) :
    callPatchOp E root §"add" path d = opOutcome root (patchAdd E root st v) := by
  simp [callPatchOp, hst, hv]

theorem call_replace {E : Env} {root : Node} {path : Str} {st : List Str} {d : List (Str × PyVal)} {v : PyVal}
    (hst : strToStack path = .ok st) (hv : lookupD §"value" d = some v) :
    callPatchOp E root §"replace" path d = opOutcome root (patchReplace E root st v) := by
  simp [callPatchOp, hst, hv]

theorem call_test {E : Env} {root : Node} {path : Str} {st : List Str} {d : List (Str × PyVal)} {v : PyVal}
    (hst : strToStack path = .ok st) (hv : lookupD §"value" d = some v) :
    callPatchOp E root §"test" path d = (patchTest E root path v, root) := by
  simp [callPatchOp, hst, hv]

theorem call_move {E : Env} {root : Node} {path src : Str} {st : List Str} {d : List (Str × PyVal)}
    (hst : strToStack path = .ok st) (hv : lookupD §"from" d = some (.str src)) :
    callPatchOp E root §"move" path d = patchMove E root st src := by
  simp [callPatchOp, hst, hv, pyStr]

theorem call_copy {E : Env} {root : Node} {path src : Str} {st : List Str} {d : List (Str × PyVal)}
    (hst : strToStack path = .ok st) (hv : lookupD §"from" d = some (.str src)) :
    callPatchOp E root §"copy" path d = opOutcome root (patchCopy E root st src) := by
  simp [callPatchOp, hst, hv, pyStr]

theorem strToStack_ok {path : Str} (h : path ≠ []) : ∃ st, strToStack path = .ok st := by
  simp [strToStack, h]

theorem isPatch_path_ne {p : PyVal} {op path : Str} (h : IsPatch p op path) : path ≠ [] := by
  obtain ⟨s, hs, he⟩ := h.path
  rw [h.isPath] at he; injection he with he; injection he with he; subst he; exact hs

/-- `patch` for an operation other than `move`. -/
theorem patch_eq' {E : Env} {p : PyVal} {op path : Str} (h : IsPatch p op path) (hop : op ≠ §"move") (r : Recipe) :
    ∃ d, p = .dict d ∧ r.patch E p = finishPatch r op (callPatchOp E r.root op path d) := by
  obtain ⟨d, hd, he⟩ := patch_eq (E := E) h r
  exact ⟨d, hd, by rw [he, if_neg (fun hc => hop hc.1)]⟩

/-- Effect of an operation that only changes the tree on success. -/
theorem finish_outcome {r : Recipe} {op : Str} (hop : op ≠ §"test") (x : Except PyErr (Option Node)) :
    finishPatch r op (opOutcome r.root x) = match x with
      | .error e => (.error e, r)
      | .ok none => (.ok false, r)
      | .ok (some root') => (.ok true, edited r root') := by
  cases x with
  | error e => rfl
  | ok o =>
    cases o with
    | none => rfl
    | some root' => simp only [opOutcome, finishPatch, if_pos hop]

theorem recipe_root_self (r : Recipe) : { r with root := r.root } = r := rfl

/-! ## Traversal with an index -/

theorem getLast?_stack (init : List Str) (last : Str) : (rootValue :: (init ++ [last])).getLast? = some last := by
  rw [← List.cons_append, List.getLast?_concat]

theorem dropLast_stack (init : List Str) (last : Str) : (rootValue :: (init ++ [last])).dropLast = rootValue :: init := by
  rw [← List.cons_append, List.dropLast_concat]

theorem twi_name (root : Node) (comps : List Str) (h : ∀ l, comps.getLast? = some l → isDigitS l = false) :
    traverseWithIndex root (rootValue :: comps) = .ok (locate root comps, none, none) := by
  have key : ∀ l, (rootValue :: comps).getLast? = some l → isDigitS l = false := by
    intro l hl
    cases comps with
    | nil => simp at hl; subst hl; decide
    | cons c cs => exact h l (by simpa using hl)
  unfold traverseWithIndex
  cases hl : (rootValue :: comps).getLast? with
  | none => simp at hl
  | some l =>
    simp only [key l hl, Bool.false_eq_true, if_false, traverse_locate]
    cases locate root comps <;> rfl

theorem twi_digit (root : Node) (init : List Str) (last : Str) (h : isDigitS last = true) :
    traverseWithIndex root (rootValue :: (init ++ [last])) =
      match locate root init with
      | none => .ok (none, some (natOfStr last), none)
      | some pos =>
        let children := ((nodeAt root pos).map (·.children)).getD []
        match (virtToPhys children)[natOfStr last]? with
        | none => .error .indexError
        | some phys => match children[phys]? with
          | none => .error .indexError
          | some c => if c.isCollectionElement then .ok (some (pos ++ [phys]), none, none)
            else .ok (some pos, some (natOfStr last), some phys) := by
  unfold traverseWithIndex
  rw [getLast?_stack]
  simp only [h, if_true, dropLast_stack, traverse_locate]
  cases locate root init <;> rfl

/-- The child with a given number, whether or not it is a list element. -/
theorem twi_digit_found {root : Node} {init : List Str} {last : Str} (h : isDigitS last = true) {pos : Pos} {m c : Node}
    {i : Nat} (hp : locate root init = some pos) (hm : nodeAt root pos = some m)
    (hv : (virtToPhys m.children)[natOfStr last]? = some i) (hc : m.children[i]? = some c) :
    traverseWithIndex root (rootValue :: (init ++ [last])) =
      if c.isCollectionElement then .ok (some (pos ++ [i]), none, none)
      else .ok (some pos, some (natOfStr last), some i) := by
  rw [twi_digit root init last h, hp]
  simp only [hm, Option.map_some, Option.getD_some, hv, hc]

theorem twi_digit_range {root : Node} {init : List Str} {last : Str} (h : isDigitS last = true) {pos : Pos} {m : Node}
    (hp : locate root init = some pos) (hm : nodeAt root pos = some m)
    (hv : m.children.countP real ≤ natOfStr last) :
    traverseWithIndex root (rootValue :: (init ++ [last])) = .error .indexError := by
  rw [twi_digit root init last h, hp]
  have : (virtToPhys m.children)[natOfStr last]? = none := by
    rw [List.getElem?_eq_none_iff, virtToPhys_length]; exact hv
  simp only [hm, Option.map_some, Option.getD_some, this]

/-! ## Remove -/

theorem valid_none (n : Node) : isValidPatchNode (some n) none = !bareValue n := by
  simp only [isValidPatchNode, bareValue]
  cases (!n.listMember && !n.key && n.isLeaf) <;> simp

theorem not_bare_of_child {m c : Node} {i : Nat} (h : m.children[i]? = some c) : bareValue m = false := by
  have : m.children ≠ [] := by intro he; rw [he] at h; simp at h
  simp [bareValue, Node.isLeaf, this]

theorem valid_some {m c : Node} {i v : Nat} (hv : (virtToPhys m.children)[v]? = some i) (hc : m.children[i]? = some c) :
    isValidPatchNode (some m) (some v) = c.listMember := by
  have hb := not_bare_of_child hc
  simp only [bareValue] at hb
  simp [isValidPatchNode, hb, hv, hc]

theorem patchRemove_none {root : Node} {comps : List Str} (h : locate root comps = none) :
    patchRemove root (rootValue :: comps) = none := by
  unfold patchRemove
  rw [traverse_locate, h]
  cases (rootValue :: comps).getLast? <;> rfl

theorem patchRemove_some {root : Node} {init : List Str} {last : Str} {pos : Pos} {m c : Node} {i : Nat}
    (hp : locate root init = some pos) (hm : nodeAt root pos = some m) (hi : childIdx m last = some i)
    (hc : m.children[i]? = some c) :
    patchRemove root (rootValue :: (init ++ [last])) =
      if bareValue c then none
      else some (updateAt (fun n => { n with children := n.children.eraseIdx i }) pos root) := by
  have hl : locate root (init ++ [last]) = some (pos ++ [i]) := by
    rw [locate_concat, hp]; simp [hm, hi]
  have hn : nodeAt root (pos ++ [i]) = some c := by
    rw [nodeAt_append, hm]; simp [nodeAt, hc]
  unfold patchRemove
  rw [getLast?_stack, dropLast_stack]
  simp only [traverse_locate, hl, hp, Option.bind_some, hn, hm, valid_none, Bool.not_not]
  by_cases hb : bareValue c
  · simp [hb]
  · simp only [hb, Bool.false_eq_true, if_false]
    cases hd : isDigitS last with
    | true =>
      obtain ⟨hv, c', hc', hlm⟩ := (childIdx_digit hd i).1 hi
      rw [hc] at hc'; injection hc' with hc'; subst hc'
      simp only [if_true, valid_some hv hc, hlm, hv, Bool.not_true, Bool.false_eq_true, if_false]
    | false =>
      simp only [Bool.false_eq_true, if_false, valid_none, not_bare_of_child hc, Bool.not_false, Bool.not_true]
      rw [childIdx_name hd, List.findIdx?_eq_some_iff_getElem] at hi
      obtain ⟨hil, hpi, hlt⟩ := hi
      have hci : m.children[i] = c := by
        rw [List.getElem?_eq_getElem hil] at hc; injection hc
      have hcv : c.value = .str last := by rw [hci] at hpi; exact pyEq_str.1 hpi
      have : m.children.findIdx? (fun x => x.pyEq c) = some i := by
        rw [List.findIdx?_eq_some_iff_getElem]
        refine ⟨hil, by rw [hci]; exact Node.pyEq_refl c, fun j hj hpj => ?_⟩
        have := Node.pyEq_value hpj
        rw [hcv] at this
        exact hlt j hj this
      simp only [this]

theorem without_eraseIdx {a : List Node} {i : Nat} {c : Node} (h : a[i]? = some c) : Without i a (a.eraseIdx i) := by
  obtain ⟨hi, rfl⟩ := List.getElem?_eq_some_iff.1 h
  refine ⟨a.take i, a[i], a.drop (i + 1), ?_, by simp; omega, ?_⟩
  · rw [← List.drop_eq_getElem_cons hi, List.take_append_drop]
  · rw [List.eraseIdx_eq_take_drop_succ]

/-! ## Add and replace -/

theorem inserted_insertAll {a new : List Node} {i : Nat} (h : i ≤ a.length) : Inserted i new a (insertAll a i new) :=
  ⟨a.take i, a.drop i, (List.take_append_drop i a).symm, by simp; omega, rfl⟩

theorem swapped_insertAll {a new : List Node} {i : Nat} {c : Node} (h : a[i]? = some c) :
    Swapped i new a ((insertAll a i new).eraseIdx (i + new.length)) := by
  obtain ⟨hi, rfl⟩ := List.getElem?_eq_some_iff.1 h
  refine ⟨a.take i, a[i], a.drop (i + 1), ?_, by simp; omega, ?_⟩
  · rw [← List.drop_eq_getElem_cons hi, List.take_append_drop]
  · have hl : (a.take i ++ new).length = i + new.length := by simp; omega
    unfold insertAll
    rw [List.drop_eq_getElem_cons hi, List.eraseIdx_append_of_length_le (by omega), hl, Nat.sub_self]
    rfl

theorem endsInNumber_concat (init : List Str) (last : Str) : endsInNumber (init ++ [last]) = isDigitS last := by
  simp [endsInNumber]

theorem collection_listMember {c : Node} (h : c.isCollectionElement = true) : c.listMember = true := by
  simp only [Node.isCollectionElement, Bool.and_eq_true] at h; exact h.1.2

/-- A path that does not end in a number, or leads to a list element with keys of its own, is taken as it is. -/
theorem twi_place {root : Node} {comps : List Str} {pos : Pos} {m : Node} (hp : locate root comps = some pos)
    (hm : nodeAt root pos = some m) (h : endsInNumber comps = false ∨ m.isCollectionElement = true) :
    traverseWithIndex root (rootValue :: comps) = .ok (some pos, none, none) := by
  by_cases hn : endsInNumber comps = true
  · have hcol : m.isCollectionElement = true := by
      rcases h with h | h
      · rw [hn] at h; cases h
      · exact h
    rcases List.eq_nil_or_concat comps with rfl | ⟨init, last, rfl⟩
    · simp [endsInNumber] at hn
    · rw [List.concat_eq_append] at *
      rw [endsInNumber_concat] at hn
      rw [locate_concat] at hp
      cases hi : locate root init with
      | none => rw [hi] at hp; cases hp
      | some q =>
        obtain ⟨n, hq⟩ := locate_valid hi
        rw [hi] at hp
        simp only [Option.bind_some, hq] at hp
        cases hx : childIdx n last with
        | none => rw [hx] at hp; cases hp
        | some i =>
          rw [hx] at hp
          simp only [Option.map_some, Option.some.injEq] at hp
          subst hp
          obtain ⟨hv, c, hc, _⟩ := (childIdx_digit hn i).1 hx
          rw [nodeAt_append, hq] at hm
          simp only [Option.bind_some, nodeAt, hc, Option.some.injEq] at hm
          subst hm
          rw [twi_digit_found hn hi hq hv hc, if_pos hcol]
  · rw [twi_name root comps, hp]
    intro l hl
    simp only [endsInNumber, hl] at hn
    simpa using hn

theorem twi_missing {root : Node} {comps : List Str} (hp : locate root comps = none) (h : endsInNumber comps = false) :
    traverseWithIndex root (rootValue :: comps) = .ok (none, none, none) := by
  rw [twi_name root comps, hp]
  intro l hl
  simp only [endsInNumber, hl] at h
  exact h

theorem target_append {root : Node} {init : List Str} {pos : Pos} {m : Node} (hp : locate root init = some pos)
    (hm : nodeAt root pos = some m) (h : endsInNumber init = false ∨ m.isCollectionElement = true) :
    patchAddFindTarget root (rootValue :: (init ++ [§"-"])) = .ok ⟨some pos, none, none, [], true⟩ := by
  unfold patchAddFindTarget
  rw [getLast?_stack]
  simp only [decide_true, if_true, dropLast_stack, twi_place hp hm h, bind, Except.bind]
  rfl

theorem target_existing {root : Node} {comps : List Str} {pos : Pos} {m : Node} (hp : locate root comps = some pos)
    (hm : nodeAt root pos = some m) (h : endsInNumber comps = false ∨ m.isCollectionElement = true)
    (hne : comps ≠ []) (hd : comps.getLast? ≠ some §"-") :
    patchAddFindTarget root (rootValue :: comps) = .ok ⟨some pos, none, none, [], false⟩ := by
  have hl : ∃ l, (rootValue :: comps).getLast? = some l ∧ l ≠ §"-" := by
    cases comps with
    | nil => exact absurd rfl hne
    | cons c cs =>
      refine ⟨(c :: cs).getLast (by simp), by simp [List.getLast?_eq_some_getLast], ?_⟩
      rintro he
      exact hd (by rw [List.getLast?_eq_some_getLast (by simp), he])
  obtain ⟨l, hl1, hl2⟩ := hl
  unfold patchAddFindTarget
  simp only [hl1, hl2, decide_false, Bool.false_eq_true, if_false, twi_place hp hm h, bind, Except.bind]
  rfl

theorem target_new {root : Node} {init : List Str} {last : Str} {pos : Pos} {m : Node}
    (hmiss : locate root (init ++ [last]) = none) (hp : locate root init = some pos) (hm : nodeAt root pos = some m)
    (h : endsInNumber init = false ∨ m.isCollectionElement = true) (hl : isDigitS last = false) (hd : last ≠ §"-") :
    patchAddFindTarget root (rootValue :: (init ++ [last])) = .ok ⟨some pos, none, none, last, false⟩ := by
  unfold patchAddFindTarget
  rw [getLast?_stack]
  simp only [hd, decide_false, Bool.false_eq_true, if_false, dropLast_stack, getLast?_stack,
    twi_missing hmiss (by rw [endsInNumber_concat]; exact hl), twi_place hp hm h, bind, Except.bind]
  rfl

theorem target_missing {root : Node} {init : List Str} {last : Str} (hp : locate root init = none)
    (h : endsInNumber init = false) (hd : last ≠ §"-") :
    ∃ v, patchAddFindTarget root (rootValue :: (init ++ [last])) = .ok ⟨none, v, none, last, false⟩ := by
  have hmiss : locate root (init ++ [last]) = none := by rw [locate_concat, hp]; rfl
  unfold patchAddFindTarget
  rw [getLast?_stack]
  simp only [hd, decide_false, Bool.false_eq_true, if_false, dropLast_stack, getLast?_stack, bind, Except.bind]
  cases hl : isDigitS last with
  | false =>
    rw [twi_missing hmiss (by rw [endsInNumber_concat]; exact hl)]
    simp only [twi_missing hp h]
    exact ⟨_, rfl⟩
  | true =>
    rw [twi_digit root init last hl, hp]
    simp only [twi_missing hp h]
    exact ⟨_, rfl⟩

theorem digit_ne_dash {last : Str} (h : isDigitS last = true) : last ≠ §"-" := by
  rintro rfl; revert h; decide

/-- The numbered child exists and is a single value. -/
theorem target_element {root : Node} {init : List Str} {last : Str} (hl : isDigitS last = true) {pos : Pos}
    {m c : Node} {i : Nat} (hp : locate root init = some pos) (hm : nodeAt root pos = some m)
    (hv : (virtToPhys m.children)[natOfStr last]? = some i) (hc : m.children[i]? = some c)
    (hcol : c.isCollectionElement = false) :
    patchAddFindTarget root (rootValue :: (init ++ [last])) = .ok ⟨some pos, some (natOfStr last), some i, [], false⟩ := by
  unfold patchAddFindTarget
  rw [getLast?_stack]
  simp only [digit_ne_dash hl, decide_false, Bool.false_eq_true, if_false, bind, Except.bind]
  rw [twi_digit_found hl hp hm hv hc]
  simp [hcol]

theorem target_range {root : Node} {init : List Str} {last : Str} (hl : isDigitS last = true) {pos : Pos}
    {m : Node} (hp : locate root init = some pos) (hm : nodeAt root pos = some m)
    (hv : m.children.countP real ≤ natOfStr last) :
    patchAddFindTarget root (rootValue :: (init ++ [last])) = .error .indexError := by
  unfold patchAddFindTarget
  rw [getLast?_stack]
  simp only [digit_ne_dash hl, decide_false, Bool.false_eq_true, if_false, bind, Except.bind]
  rw [twi_digit_range hl hp hm hv]

/-- A located place with at least one component: parent, index and child. -/
theorem locate_last {root c : Node} {init : List Str} {last : Str} {pos : Pos} {i : Nat}
    (hl : locate root (init ++ [last]) = some (pos ++ [i])) (hn : nodeAt root (pos ++ [i]) = some c) :
    ∃ m, locate root init = some pos ∧ nodeAt root pos = some m ∧ childIdx m last = some i ∧
      m.children[i]? = some c := by
  rw [locate_concat] at hl
  cases hi : locate root init with
  | none => rw [hi] at hl; cases hl
  | some q =>
    obtain ⟨m, hm⟩ := locate_valid hi
    rw [hi] at hl
    simp only [Option.bind_some, hm] at hl
    cases hx : childIdx m last with
    | none => rw [hx] at hl; cases hl
    | some j =>
      rw [hx] at hl
      simp only [Option.map_some, Option.some.injEq] at hl
      obtain ⟨rfl, hij⟩ := List.append_inj' hl rfl
      injection hij with hij; subst hij
      rw [nodeAt_append, hm] at hn
      simp only [Option.bind_some] at hn
      refine ⟨m, rfl, hm, hx, ?_⟩
      simp only [nodeAt] at hn
      split at hn
      · cases hn
      · rename_i x hx'; rw [hx', ← hn]

end Crm
