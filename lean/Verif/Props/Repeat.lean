import Verif.Spec.Repeat
import Verif.Props.Commute
import Verif.Props.Session

/-!
# C116: An edit can be repeated

An edit that puts something in a place leaves the same recipe when it is made again; what was taken away is not taken away twice.
-/

namespace Crm
open Spec

/-! ## Lemmas -/

theorem repeatable_of (E : Env) (r : Recipe) {comps : List Str} (hne : comps ≠ []) (hc : ∀ c ∈ comps, Component c) (e : Edit)
    (h : ∀ root', (treeEdit E r.root comps e).2 = some root' →
      (treeEdit E root' comps e).1 = (treeEdit E r.root comps e).1 ∧ treeAfter root' (treeEdit E root' comps e) = root') :
    Repeatable E r (absPath comps) e := by
  have d := call_does E r hne hc e
  have d' := call_does E (e.call E (absPath comps) r).2 hne hc e
  have hroot : (e.call E (absPath comps) r).2.root = treeAfter r.root (treeEdit E r.root comps e) := d.root
  rw [hroot] at d'
  cases ht : (treeEdit E r.root comps e).2 with
  | none =>
    have e1 : treeAfter r.root (treeEdit E r.root comps e) = r.root := after_none ht
    rw [e1] at d' hroot
    refine ⟨d'.answer.trans d.answer.symm, restored_of ?_ d'.vars d'.schema⟩
    rw [d'.root, hroot, ht]; rfl
  | some root' =>
    have e1 : treeAfter r.root (treeEdit E r.root comps e) = root' := after_some ht
    rw [e1] at d' hroot
    obtain ⟨h1, h2⟩ := h root' ht
    refine ⟨d'.answer.trans (h1.trans d.answer.symm), restored_of ?_ d'.vars d'.schema⟩
    rw [d'.root, hroot]; exact h2

theorem collection_children {n : Node} (h : n.isCollectionElement = true) : n.children ≠ [] := by
  simp only [Node.isCollectionElement, Bool.and_eq_true, Bool.not_eq_true'] at h
  exact List.isEmpty_eq_false_iff.1 h.2

/-- A place is still there when it has other children. -/
theorem kids_stay {root n : Node} {a : List Str} {q : Pos} {ks : List Node} (hq : locate root a = some q) (hn : nodeAt root q = some n)
    (h : endsInNumber a = false ∨ n.children ≠ [] ∧ ks ≠ []) :
    locate (withKids root q ks) a = some q ∧ nodeAt (withKids root q ks) q = some { n with children := ks } := by
  rcases h with h | ⟨h, hks⟩
  · exact withKids_place h hq hn ks
  · have hn' : nodeAt (withKids root q ks) q = some { n with children := ks } := by
      unfold withKids; rw [nodeAt_updateAt_self _ _ _ hn]
    refine ⟨locate_changed_self (childrenChanged_updateAt (fun _ => ks) AnyChange hn trivial) ?_ hq, hn'⟩
    intro x y hx hy
    rw [hn] at hx
    have hy : nodeAt (withKids root q ks) q = some y := hy
    rw [hn'] at hy
    injection hx with hx; injection hy with hy
    subst hx hy
    simp [Node.isComment, List.isEmpty_eq_false_iff.2 h, List.isEmpty_eq_false_iff.2 hks]

theorem withKids_twice (root : Node) (q : Pos) (ks ks' : List Node) : withKids (withKids root q ks) q ks' = withKids root q ks' := by
  unfold withKids
  rw [updateAt_comp]
  rfl

theorem withKids_self {root n : Node} {q : Pos} (hn : nodeAt root q = some n) : withKids root q n.children = root := by
  unfold withKids
  exact updateAt_same _ _ _ hn (by cases n; rfl)

theorem replace_place (E : Env) {root m : Node} {comps : List Str} {pos : Pos} (v : PyVal) (hl : locate root comps = some pos)
    (hm : nodeAt root pos = some m) (h : endsInNumber comps = false ∨ m.isCollectionElement = true) :
    patchReplace E root (rootValue :: comps) v =
      if bareValue m then .ok none else (newNodes E v).map fun new => some (withKids root pos new) := by
  unfold patchReplace
  simp only [generateSubtree_eq, twi_place hl hm h, bind, Except.bind, hm, valid_none]
  cases bareValue m with
  | true => rfl
  | false =>
    simp only [Bool.not_false, Bool.not_true, Bool.false_eq_true, if_false]
    cases newNodes E v <;> rfl

theorem replace_item (E : Env) {root m c : Node} {init : List Str} {last : Str} {pos : Pos} {i : Nat} (v : PyVal)
    (hnum : isDigitS last = true) (hi : locate root init = some pos) (hm : nodeAt root pos = some m)
    (hvp : (virtToPhys m.children)[natOfStr last]? = some i) (hcm : m.children[i]? = some c) (hcol : c.isCollectionElement = false) :
    patchReplace E root (rootValue :: (init ++ [last])) v =
      if c.listMember then (newNodes E v).map fun new =>
        some (withKids root pos ((insertAll m.children i (asListMembers v new)).eraseIdx (i + (asListMembers v new).length)))
      else .ok none := by
  have ht := twi_digit_found hnum hi hm hvp hcm
  rw [hcol] at ht
  unfold patchReplace
  simp only [generateSubtree_eq, ht, bind, Except.bind, Bool.false_eq_true, if_false, hm, valid_some hvp hcm]
  cases c.listMember with
  | false => rfl
  | true =>
    simp only [Bool.not_true, Bool.false_eq_true, if_false, if_true]
    cases newNodes E v with
    | error e => rfl
    | ok new =>
      simp only [Except.map]
      unfold withKids
      rw [updateAt_const _ hm, updateAt_const (fun x => { x with children := _ }) hm]

/-! ## Replacing -/

theorem repeat_place (E : Env) {root m : Node} {comps : List Str} {pos : Pos} {v : PyVal} (hv : OneEntry E v)
    (hl : locate root comps = some pos) (hm : nodeAt root pos = some m) (h : endsInNumber comps = false ∨ m.isCollectionElement = true)
    {root' : Node} (hr : (treeEdit E root comps (.replace v)).2 = some root') :
    (treeEdit E root' comps (.replace v)).1 = (treeEdit E root comps (.replace v)).1 ∧
      treeAfter root' (treeEdit E root' comps (.replace v)) = root' := by
  by_cases hs : v = .sentinel
  · simp [treeEdit, hs] at hr
  · simp only [treeEdit, if_neg hs, replace_place E v hl hm h] at hr ⊢
    cases hb : bareValue m with
    | true => simp [hb] at hr
    | false =>
      simp only [hb, Bool.false_eq_true, if_false] at hr ⊢
      cases hn : newNodes E v with
      | error e => simp [hn, Except.map] at hr
      | ok new =>
        simp only [hn, Except.map, Option.some.injEq] at hr ⊢
        have hne := (hv new hn).1
        obtain ⟨p1, p2⟩ := kids_stay (ks := new) hl hm (h.imp id fun h => ⟨collection_children h, hne⟩)
        rw [hr] at p1 p2
        have h' : endsInNumber comps = false ∨ ({ m with children := new } : Node).isCollectionElement = true := by
          refine h.imp id fun h => ?_
          simp only [Node.isCollectionElement, Bool.and_eq_true, Bool.not_eq_true'] at h
          simp [Node.isCollectionElement, Node.isSentinel, h.1.2, hne]
          simpa [Node.isSentinel] using h.1.1
        have hb' : bareValue { m with children := new } = false := by
          simp [bareValue, Node.isLeaf, hne]
        rw [replace_place E v p1 p2 h', hb']
        simp only [Bool.false_eq_true, if_false, hn, Except.map]
        refine ⟨rfl, ?_⟩
        show withKids root' pos new = root'
        rw [← hr, withKids_twice]

theorem swap_one {l : List Node} {i : Nat} {c : Node} (h : l[i]? = some c) (x : Node) :
    (insertAll l i [x]).eraseIdx (i + 1) = l.take i ++ x :: l.drop (i + 1) := by
  obtain ⟨pre, y, post, h1, h2, h3⟩ := swapped_insertAll (new := [x]) h
  have h3 : (insertAll l i [x]).eraseIdx (i + 1) = pre ++ [x] ++ post := h3
  rw [h3, h1, ← h2]
  simp

theorem repeat_item (E : Env) {root m c : Node} {init : List Str} {last : Str} {pos : Pos} {i : Nat} {v : PyVal} (hv : OneEntry E v)
    (hnum : isDigitS last = true) (hi : locate root init = some pos) (hm : nodeAt root pos = some m)
    (hvp : (virtToPhys m.children)[natOfStr last]? = some i) (hcm : m.children[i]? = some c) (hcol : c.isCollectionElement = false)
    {root' : Node} (hr : (treeEdit E root (init ++ [last]) (.replace v)).2 = some root') :
    (treeEdit E root' (init ++ [last]) (.replace v)).1 = (treeEdit E root (init ++ [last]) (.replace v)).1 ∧
      treeAfter root' (treeEdit E root' (init ++ [last]) (.replace v)) = root' := by
  by_cases hs : v = .sentinel
  · simp [treeEdit, hs] at hr
  · simp only [treeEdit, if_neg hs, replace_item E v hnum hi hm hvp hcm hcol] at hr ⊢
    cases hl : c.listMember with
    | false => simp [hl] at hr
    | true =>
      simp only [hl, if_true] at hr ⊢
      cases hn : newNodes E v with
      | error e => simp [hn, Except.map] at hr
      | ok new =>
        simp only [hn, Except.map, Option.some.injEq] at hr ⊢
        obtain ⟨hne, hprim⟩ := hv new hn
        obtain ⟨x, hx, hxc, hxl, hxk⟩ : ∃ x, asListMembers v new = [x] ∧ x.isComment = false ∧ x.listMember = true ∧
            (x.isCollectionElement = true → x.children = new) := by
          cases hp : v.isPrimitive with
          | false => exact ⟨_, by simp [asListMembers, hp]; rfl, by simp [Node.isComment], rfl, fun _ => rfl⟩
          | true =>
            obtain ⟨d, rfl, hd1, hd2⟩ := hprim hp
            refine ⟨{ d with listMember := true }, by simp [asListMembers, hp], ?_, rfl, ?_⟩
            · simp [Node.isComment, Node.isSentinel]
            · simp [Node.isCollectionElement, hd1]
        rw [hx] at hr
        simp only [List.length_singleton] at hr
        rw [swap_one hcm] at hr
        generalize hks : m.children.take i ++ x :: m.children.drop (i + 1) = ks at hr
        have hlen : (m.children.take i).length = i := (split_at hcm).2
        have hkx : ks[i]? = some x := by
          rw [← hks, List.getElem?_append_right (by omega), hlen]; simp
        have hkt : ks.take i = m.children.take i := by
          rw [← hks, List.take_append_of_le_length (by omega), List.take_of_length_le (by omega)]
        have hkd : ks.drop (i + 1) = m.children.drop (i + 1) := by
          rw [← hks, List.drop_append, hlen]
          simp [List.drop_eq_nil_of_le, hlen]
        have hmc : m.children ≠ [] := by intro h0; rw [h0] at hcm; simp at hcm
        have hk0 : ks ≠ [] := by rw [← hks]; simp
        obtain ⟨p1, p2⟩ := kids_stay (ks := ks) hi hm (Or.inr ⟨hmc, hk0⟩)
        rw [hr] at p1 p2
        have hvp' : (virtToPhys ks)[natOfStr last]? = some i := by
          rw [virtToPhys_getElem?]
          refine ⟨⟨x, hkx, by simp [real, hxc]⟩, ?_⟩
          rw [hkt]
          exact ((virtToPhys_getElem? _ _ _).1 hvp).2
        cases hxcol : x.isCollectionElement with
        | true =>
          have hci : childIdx { m with children := ks } last = some i := (childIdx_digit hnum i).2 ⟨hvp', x, hkx, hxl⟩
          have hloc : locate root' (init ++ [last]) = some (pos ++ [i]) := by rw [locate_concat, p1]; simp [p2, hci]
          have hnode : nodeAt root' (pos ++ [i]) = some x := by rw [nodeAt_append, p2]; simp [nodeAt, hkx]
          have hb : bareValue x = false := by simp [bareValue, hxl]
          rw [replace_place E v hloc hnode (Or.inr hxcol), hb]
          simp only [Bool.false_eq_true, if_false, hn, Except.map]
          refine ⟨rfl, ?_⟩
          show withKids root' (pos ++ [i]) new = root'
          rw [← hxk hxcol, withKids_self hnode]
        | false =>
          rw [replace_item E v hnum p1 p2 hvp' hkx hxcol, hxl]
          simp only [if_true, hn, Except.map]
          refine ⟨rfl, ?_⟩
          show withKids root' pos _ = root'
          rw [hx, List.length_singleton, swap_one hkx, hkt, hkd, hks]
          exact withKids_self (n := { m with children := ks }) p2

theorem repeat_replace (E : Env) {root : Node} {comps : List Str} {v : PyVal} (hv : OneEntry E v)
    {root' : Node} (hr : (treeEdit E root comps (.replace v)).2 = some root') :
    (treeEdit E root' comps (.replace v)).1 = (treeEdit E root comps (.replace v)).1 ∧
      treeAfter root' (treeEdit E root' comps (.replace v)) = root' := by
  have gone : endsInNumber comps = false → locate root comps = none → False := by
    intro h hl
    have := patchReplace_gone hl h [] E v
    rw [List.append_nil] at this
    simp only [treeEdit, this] at hr
    split at hr <;> cases hr
  cases he : endsInNumber comps with
  | false =>
    cases hl : locate root comps with
    | none => exact absurd hl (fun h => gone he h)
    | some pos =>
      obtain ⟨m, hm⟩ := locate_valid hl
      exact repeat_place E hv hl hm (Or.inl he) hr
  | true =>
    rcases List.eq_nil_or_concat comps with rfl | ⟨init, last, rfl⟩
    · cases he
    · rw [List.concat_eq_append] at *
      rw [endsInNumber_concat] at he
      have nothing : ∀ x, patchReplace E root (rootValue :: (init ++ [last])) v = x → x ≠ .ok none ∧ (∀ e, x ≠ .error e) := by
        intro x hx
        simp only [treeEdit, hx] at hr
        split at hr
        · cases hr
        · rcases x with e | (_ | _)
          · cases hr
          · cases hr
          · exact ⟨by simp, by simp⟩
      cases hi : locate root init with
      | none =>
        refine absurd rfl (nothing (.ok none) ?_).1
        simp [patchReplace, twi_digit _ _ _ he, hi, bind, Except.bind]
      | some pos =>
        obtain ⟨m, hm⟩ := locate_valid hi
        cases hvp : (virtToPhys m.children)[natOfStr last]? with
        | none =>
          refine absurd rfl ((nothing (.error .indexError) ?_).2 _)
          simp [patchReplace, twi_digit _ _ _ he, hi, hm, hvp, bind, Except.bind]
        | some i =>
          obtain ⟨⟨c, hcm, _⟩, _⟩ := (virtToPhys_getElem? _ _ _).1 hvp
          cases hcol : c.isCollectionElement with
          | false => exact repeat_item E hv he hi hm hvp hcm hcol hr
          | true =>
            have hlm : c.listMember = true := by
              simp only [Node.isCollectionElement, Bool.and_eq_true] at hcol
              exact hcol.1.2
            have hci : childIdx m last = some i := (childIdx_digit he i).2 ⟨hvp, c, hcm, hlm⟩
            have hloc : locate root (init ++ [last]) = some (pos ++ [i]) := by rw [locate_concat, hi]; simp [hm, hci]
            have hnode : nodeAt root (pos ++ [i]) = some c := by rw [nodeAt_append, hm]; simp [nodeAt, hcm]
            exact repeat_place E hv hloc hnode (Or.inr hcol) hr

/-- C116: replacing what is at a place, again by the same. -/
theorem C116_replace (E : Env) (r : Recipe) (comps : List Str) (v : PyVal) (hne : comps ≠ []) (hc : ∀ c ∈ comps, Component c)
    (hv : OneEntry E v) : Repeatable E r (absPath comps) (.replace v) :=
  repeatable_of E r hne hc _ fun _ hr => repeat_replace E hv hr

/-! ## Adding a key -/

theorem add_existing (E : Env) {root m : Node} {comps : List Str} {pos : Pos} (v : PyVal) (hne : comps ≠ [])
    (hdash : comps.getLast? ≠ some §"-") (hl : locate root comps = some pos) (hm : nodeAt root pos = some m)
    (h : endsInNumber comps = false ∨ m.isCollectionElement = true) :
    patchAdd E root (rootValue :: comps) v =
      if bareValue m then .ok none else (newNodes E v).map fun new => some (withKids root pos new) := by
  unfold patchAdd
  simp only [generateSubtree_eq, target_existing hl hm h hne hdash, bind, Except.bind, hm, valid_none]
  cases bareValue m with
  | true => rfl
  | false =>
    simp only [Bool.not_false, Bool.not_true, Bool.false_eq_true, if_false, ne_eq, not_true_eq_false, Option.isSome_none, Bool.or_self]
    cases newNodes E v <;> rfl

theorem add_new (E : Env) {root n : Node} {a : List Str} {s : Str} {q : Pos} (v : PyVal) (hs : isDigitS s = false) (hd : s ≠ §"-")
    (he : s ≠ []) (hl : locate root (a ++ [s]) = none) (hq : locate root a = some q) (hn : nodeAt root q = some n)
    (h : endsInNumber a = false ∨ n.isCollectionElement = true) :
    patchAdd E root (rootValue :: (a ++ [s])) v =
      if bareValue n then .ok none else (newNodes E (.dict [(s, v)])).map fun new => some (withKids root q (n.children ++ new)) := by
  unfold patchAdd
  simp only [generateSubtree_eq, target_new hl hq hn h hs hd, bind, Except.bind, hn, valid_none]
  cases bareValue n with
  | true => rfl
  | false =>
    simp only [Bool.not_false, Bool.not_true, Bool.false_eq_true, if_false, ne_eq, he, not_false_iff, if_true, Option.isSome_none,
      Bool.or_self]
    cases newNodes E (.dict [(s, v)]) with
    | error e => rfl
    | ok new =>
      simp only [Except.map]
      unfold withKids
      rw [updateAt_const _ hn, updateAt_const (fun x => { x with children := n.children ++ new }) hn]
      rfl

theorem add_nowhere (E : Env) {root : Node} {a : List Str} {s : Str} (v : PyVal) (ha : endsInNumber a = false)
    (hq : locate root a = none) : patchAdd E root (rootValue :: (a ++ [s])) v = .ok none :=
  patchAdd_gone hq ha (by simp) E v

theorem repeat_add (E : Env) {root : Node} {a : List Str} {s : Str} {v : PyVal} (hs : isDigitS s = false) (hd : s ≠ §"-") (he : s ≠ [])
    (ha : SectionPlace root a) (hk : KeyReads E s v) {root' : Node} (hr : (treeEdit E root (a ++ [s]) (.add v)).2 = some root') :
    (treeEdit E root' (a ++ [s]) (.add v)).1 = (treeEdit E root (a ++ [s]) (.add v)).1 ∧
      treeAfter root' (treeEdit E root' (a ++ [s]) (.add v)) = root' := by
  obtain ⟨d, k1, k2, k3, k4, k5⟩ := hk
  have hend : endsInNumber (a ++ [s]) = false := by rw [endsInNumber_concat]; exact hs
  have hlast : (a ++ [s]).getLast? ≠ some §"-" := by simp [hd]
  have hne : a ++ [s] ≠ [] := by simp
  by_cases hv : v = .sentinel
  · simp [treeEdit, hv] at hr
  simp only [treeEdit, if_neg hv] at hr ⊢
  cases hq : locate root a with
  | none =>
    rcases ha with ha | ⟨n, hn, _⟩
    · rw [add_nowhere E v ha hq] at hr
      cases hr
    · rw [← locate_lookup, hq] at hn
      cases hn
  | some q =>
    obtain ⟨n, hn⟩ := locate_valid hq
    have hplace : endsInNumber a = false ∨ n.isCollectionElement = true := by
      refine ha.imp id fun ⟨n', h1, h2⟩ => ?_
      rw [← locate_lookup, hq, Option.bind_some, hn] at h1
      injection h1 with h1
      rw [h1]; exact h2
    cases hl : locate root (a ++ [s]) with
    | some pos =>
      obtain ⟨m, hm⟩ := locate_valid hl
      rw [add_existing E v hne hlast hl hm (Or.inl hend)] at hr ⊢
      cases hb : bareValue m with
      | true => simp [hb] at hr
      | false =>
        simp only [hb, Bool.false_eq_true, if_false, k4, Except.map, Option.some.injEq] at hr ⊢
        obtain ⟨p1, p2⟩ := withKids_place hend hl hm d.children
        rw [hr] at p1 p2
        have hb' : bareValue { m with children := d.children } = false := by
          simp [bareValue, Node.isLeaf, k5]
        rw [add_existing E v hne hlast p1 p2 (Or.inl hend), hb']
        simp only [Bool.false_eq_true, if_false, k4, Except.map]
        refine ⟨rfl, ?_⟩
        show withKids root' pos d.children = root'
        rw [← hr, withKids_twice]
    | none =>
      rw [add_new E v hs hd he hl hq hn hplace] at hr ⊢
      cases hb : bareValue n with
      | true => simp [hb] at hr
      | false =>
        simp only [hb, Bool.false_eq_true, if_false, k1, Except.map, Option.some.injEq] at hr ⊢
        obtain ⟨p1, p2⟩ := kids_stay (ks := n.children ++ [d]) hq hn (hplace.imp id fun h => ⟨collection_children h, by simp⟩)
        rw [hr] at p1 p2
        have hno : childIdx n s = none := by
          rw [locate_concat, hq] at hl
          simpa [hn] using hl
        have hci : childIdx { n with children := n.children ++ [d] } s = some n.children.length := by
          rw [childIdx_name hs] at hno ⊢
          rw [List.findIdx?_append, hno]
          simp [k2, pyEq_str]
        have hloc : locate root' (a ++ [s]) = some (q ++ [n.children.length]) := by rw [locate_concat, p1]; simp [p2, hci]
        have hnode : nodeAt root' (q ++ [n.children.length]) = some d := by rw [nodeAt_append, p2]; simp [nodeAt]
        have hb' : bareValue d = false := by simp [bareValue, k3]
        rw [add_existing E v hne hlast hloc hnode (Or.inl hend), hb']
        simp only [Bool.false_eq_true, if_false, k4, Except.map]
        refine ⟨rfl, ?_⟩
        show withKids root' (q ++ [n.children.length]) d.children = root'
        exact withKids_self hnode

/-- C116: adding a key, again with the same value, whether it was there before or not. -/
theorem C116_add_key (E : Env) (r : Recipe) (a : List Str) (s : Str) (v : PyVal) (hc : ∀ c ∈ a ++ [s], Component c)
    (hs : isDigitS s = false) (hd : s ≠ §"-") (ha : SectionPlace r.root a) (hk : KeyReads E s v) :
    Repeatable E r (absPath (a ++ [s])) (.add v) :=
  repeatable_of E r (by simp) hc _ fun _ hr => repeat_add E hs hd (hc s (by simp)).1 ha hk hr

/-! ## Removing a key -/

/-- C116: a key that a section has once is not found when it is to be removed again. -/
theorem C116_remove_key_partial (E : Env) (r : Recipe) (a : List Str) (s : Str) (n : Node) (hc : ∀ c ∈ a ++ [s], Component c)
    (hs : isDigitS s = false) (ha : endsInNumber a = false) (hn : lookup r.root a = some n)
    (hone : n.children.countP (fun c => decide (c.value = .str s)) = 1)
    (hdone : (Edit.remove.call E (absPath (a ++ [s])) r).1.toOption = some (.success true)) :
    let once := Edit.remove.call E (absPath (a ++ [s])) r
    let again := Edit.remove.call E (absPath (a ++ [s])) once.2
    again.1.toOption = some (.success false) ∧ Restored once.2 again.2 := by
  intro once again
  have d := call_does E r (by simp) hc .remove
  have d' := call_does E once.2 (by simp) hc .remove
  rw [← locate_lookup] at hn
  cases hq : locate r.root a with
  | none => rw [hq] at hn; cases hn
  | some q =>
    rw [hq, Option.bind_some] at hn
    have hne : childIdx n s ≠ none := by
      rw [Ne, childIdx_firstKey hs, firstKey, List.find?_eq_none]
      intro h0
      have : n.children.countP (fun c => decide (c.value = .str s)) = 0 := List.countP_eq_zero.2 h0
      omega
    cases hi : childIdx n s with
    | none => exact absurd hi hne
    | some i =>
      have hm := List.getElem?_eq_getElem (childIdx_lt hi)
      generalize n.children[i]'(childIdx_lt hi) = m at hm
      have e1 := patchRemove_some hq hn hi hm
      have hb : bareValue m = false := by
        cases hb : bareValue m with
        | false => rfl
        | true =>
          have : once.1 = .ok (.success false) := by rw [d.answer]; simp only [treeEdit, e1, hb, if_true]; rfl
          rw [show (Edit.remove.call E (absPath (a ++ [s])) r).1 = once.1 from rfl, this] at hdone
          simp [Except.toOption] at hdone
      simp only [hb, Bool.false_eq_true, if_false] at e1
      have hroot : once.2.root = withKids r.root q (n.children.eraseIdx i) := by
        rw [d.root]
        simp only [treeEdit, e1, Option.getD_some]
        unfold withKids
        rw [updateAt_const _ hn, updateAt_const (fun x => { x with children := n.children.eraseIdx i }) hn]
      obtain ⟨p1, p2⟩ := withKids_place ha hq hn (n.children.eraseIdx i)
      rw [← hroot] at p1 p2
      have hgone : childIdx { n with children := n.children.eraseIdx i } s = none := by
        rw [childIdx_firstKey hs, firstKey, List.find?_eq_none]
        have hf := hi
        rw [childIdx_name hs] at hf
        have hval := (rw_modify (m' := m) hf hm).2.2.2
        obtain ⟨hsp, _⟩ := split_at hm
        have hc2 : (n.children.eraseIdx i).countP (fun c => decide (c.value = .str s)) = 0 := by
          rw [List.eraseIdx_eq_take_drop_succ]
          rw [hsp] at hone
          simp only [List.countP_append, List.countP_cons, hval, decide_true, if_true] at hone ⊢
          omega
        exact List.countP_eq_zero.1 hc2
      have hl : locate once.2.root (a ++ [s]) = none := by rw [locate_concat, p1]; simp [p2, hgone]
      have e2 : treeEdit E once.2.root (a ++ [s]) .remove = (.ok (.success false), none) := by
        simp [treeEdit, patchRemove_none hl]
      rw [e2] at d'
      have : again.1 = .ok (.success false) := d'.answer
      exact ⟨by rw [this]; rfl, restored_of d'.root d'.vars d'.schema⟩

/-! ## Selectors and comments -/

theorem setLineComment_twice (c : Str) (n : Node) : setLineComment c (setLineComment c n) = setLineComment c n := by
  unfold setLineComment
  by_cases h : n.isSingleKey = true
  · simp only [h, if_true]
    split
    · simp
    · rfl
  · have h2 : ({ n with comment := c, children := n.children } : Node).isSingleKey = n.isSingleKey := rfl
    simp only [if_neg h, h2]

theorem comment_again {root n : Node} {pos : Pos} {c : Str} (_hn : nodeAt root pos = some n) :
    updateAt (setLineComment c) pos (updateAt (setLineComment c) pos root) = updateAt (setLineComment c) pos root := by
  rw [updateAt_comp]
  have : (fun x => setLineComment c (setLineComment c x)) = setLineComment c := funext (setLineComment_twice c)
  first | exact congrArg (fun f => updateAt f pos root) this | (simp only [Function.comp_def, this])

/-- C116: `add_selector` in REPLACE mode, again with the same selector. -/
theorem C116_add_selector (r : Recipe) (path selector : Str) (h : OrdinaryPath r path) :
    let once := r.addSelector path selector .replace
    let again := once.2.addSelector path selector .replace
    again.1 = once.1 ∧ Restored once.2 again.2 := by
  obtain ⟨st, pos, n, h1, h2, h3, h4, h5⟩ := ordinary_path h
  intro once again
  cases hm : (Regex.selector.matchStart selector).isNone with
  | true =>
    have e1 : once = (.error .valueError, r) := by simp only [once, Recipe.addSelector, h1, h2, hm, if_true]
    have e2 : again = once := by simp only [again, e1]; exact e1
    rw [e2]
    exact ⟨rfl, restored_refl _⟩
  | false =>
    have hcom : ∀ old, addSelectorComment old selector .replace = §"# " ++ selector := by intro old; simp [addSelectorComment]
    have e1 : once.1 = .ok () ∧ once.2.root = updateAt (setLineComment (§"# " ++ selector)) pos r.root := by
      simp only [once, Recipe.addSelector, h1, h2, hm, hcom, Bool.false_eq_true, if_false]
      exact ⟨trivial, trivial⟩
    obtain ⟨k1, k2, k3⟩ := h5 (§"# " ++ selector) once.2 e1.2
    have htr : traverse once.2.root st = some pos := by rw [k2, h2]
    have e2 : again = (.ok (), { once.2 with root := once.2.root, selTbl := rebuildSelectors once.2.root, modified := true }) := by
      have : updateAt (setLineComment (§"# " ++ selector)) pos once.2.root = once.2.root := by
        rw [e1.2]; exact comment_again h3
      simp only [again, Recipe.addSelector, h1, htr, hm, hcom, Bool.false_eq_true, if_false, this]
    rw [e2]
    exact ⟨e1.1.symm, restored_of rfl rfl rfl⟩

/-- C116: `add_comment` with a text without brackets, again with the same text. -/
theorem C116_add_comment_partial (r : Recipe) (path comment text : Str) (h : OrdinaryPath r path) (hc : commentAt r path = some comment)
    (hn : '\n' ∉ comment) (h1 : '[' ∉ text) (h2 : ']' ∉ text) (h3 : '\n' ∉ text) :
    let once := r.addComment path text
    let again := once.2.addComment path text
    again.1 = once.1 ∧ Restored once.2 again.2 := by
  obtain ⟨st, pos, n, g1, g2, g3, g4, g5⟩ := ordinary_path h
  rw [g4] at hc
  injection hc with hc
  subst hc
  have hsub : ∀ c ∈ strip text, c ∈ text := by
    intro c hc
    obtain ⟨a, b, he, _, _⟩ := strip_decomp text
    rw [he]; simp [hc]
  intro once again
  by_cases h4 : strip text = []
  · have e1 : ∀ r' : Recipe, r'.addComment path text = (.error .valueError, r') := by
      intro r'; simp only [Recipe.addComment, h4, if_true]
    simp only [again, once, e1]
    exact ⟨trivial, restored_refl _⟩
  · have hms : (Regex.selector.matchStart (strip text)).isSome = false := by
      unfold Rx.matchStart
      cases hst : strip text with
      | nil => exact absurd hst h4
      | cons c cs =>
        rw [selector_matchAt_none (Or.inl (by rintro rfl; exact h1 (hsub _ (by rw [hst]; simp))))]
        rfl
    have hout : once = (.ok (),
        { r with root := updateAt (setLineComment (Recipe.addCommentText n.comment (strip text))) pos r.root, modified := true }) := by
      simp only [once, Recipe.addComment, h4, if_false, hms, Bool.false_eq_true, g1, g2, g3, Option.map_some, Option.getD_some]
    obtain ⟨k1, k2, k3⟩ := g5 _ once.2 (by rw [hout])
    have hsel := selOf_addCommentText n.comment (strip text) hn (fun hx => h1 (hsub _ hx)) (fun hx => h2 (hsub _ hx))
      (fun hx => h3 (hsub _ hx))
    have hof : ∀ c c' t, selOf c = selOf c' → Recipe.addCommentText c t = Recipe.addCommentText c' t := by
      intro c c' t hcc
      unfold selOf at hcc
      unfold Recipe.addCommentText
      cases e : Regex.selector.search c <;> cases e' : Regex.selector.search c' <;> simp_all
    have htr : traverse once.2.root st = some pos := by rw [k2, g2]
    have hnode : nodeAt once.2.root pos = some (setLineComment (Recipe.addCommentText n.comment (strip text)) n) := by
      rw [hout]; exact nodeAt_updateAt_self _ _ _ g3
    have hroot : updateAt (setLineComment (Recipe.addCommentText n.comment (strip text))) pos once.2.root = once.2.root := by
      rw [hout]; exact comment_again g3
    have hsame : Recipe.addCommentText (setLineComment (Recipe.addCommentText n.comment (strip text)) n).comment (strip text) =
        Recipe.addCommentText n.comment (strip text) := hof _ _ _ hsel
    have e2 : again = (.ok (), { once.2 with root := once.2.root, modified := true }) := by
      simp only [again, Recipe.addComment, h4, if_false, hms, Bool.false_eq_true, g1, htr, hnode, Option.map_some, Option.getD_some, hsame,
        hroot]
    rw [e2]
    exact ⟨by rw [hout], restored_of rfl rfl rfl⟩

/-- C116: after `remove_selector` there is no selector left to be removed from the line. -/
theorem C116_remove_selector (r : Recipe) (path comment : Str) (h : OrdinaryPath r path) (hc : commentAt r path = some comment)
    (hn : '\n' ∉ comment) : (r.removeSelector path).2.removeSelector path = (.ok none, (r.removeSelector path).2) := by
  rcases selector_cases comment with hno | ⟨a, b, rfl, ha, hb⟩ | ⟨pre, body, post, rfl, h1, h2⟩
  · have h0 : Regex.selector.search comment = none := selector_searchFrom_none hno
    have := C22_none r path comment hc hn (by rw [← selectorIn_search comment hn, h0]; rfl)
    rw [this]; exact this
  · have h0 : selectorIn (a ++ '[' :: b) = none := by
      simp only [selectorIn, dropWhile_ne_eq _ _ ha]
      rw [dropWhile_ne_nil]
      · rfl
      · simp only [List.mem_reverse, List.mem_cons, not_or]; exact ⟨by decide, hb⟩
    have := C22_none r path _ hc hn h0
    rw [this]; exact this
  · have he : pre ++ '[' :: (body ++ ']' :: post) = pre ++ ('[' :: (body ++ [']'])) ++ post := by simp
    rw [he] at hc hn
    obtain ⟨_, _, hfalse, c, hcc, _⟩ := C22_removed r path pre body post h hc h1 h2 hn
    generalize (r.removeSelector path).2 = r' at hfalse hcc ⊢
    cases hst : strToStack path with
    | error e => simp only [Recipe.containsSelectorAtPath, Recipe.nodeAtPath, hst, bind, Except.bind] at hfalse; cases hfalse
    | ok st =>
      simp only [commentAt, Recipe.containsSelectorAtPath, Recipe.nodeAtPath, hst, bind, Except.bind] at hfalse hcc
      cases htr : traverse r'.root st with
      | none => rw [htr] at hcc; cases hcc
      | some pos =>
        simp only [htr, Option.bind_some] at hfalse hcc
        cases hnode : nodeAt r'.root pos with
        | none => rw [hnode] at hcc; cases hcc
        | some n =>
          simp only [hnode, Except.ok.injEq, Rx.test] at hfalse
          have hs : Regex.selector.search n.comment = none := by
            cases e : Regex.selector.search n.comment with
            | none => rfl
            | some m => rw [e] at hfalse; cases hfalse
          simp only [Recipe.removeSelector, hst, htr, hnode, Option.map_some, Option.getD_some, hs]

/-! ## Variables -/

/-- C116: setting a variable, again to the same value. -/
theorem C116_set_variable (r : Recipe) (k : Str) (v : PyVal) : (r.setVariable k v).setVariable k v = r.setVariable k v := by
  have : ∀ d : List (Str × PyVal), insertD k v (insertD k v d) = insertD k v d := by
    intro d
    induction d with
    | nil => simp [insertD]
    | cons x d ih =>
      obtain ⟨l, w⟩ := x
      by_cases h : l = k
      · subst h; simp [insertD]
      · simp [insertD, h, ih]
  simp only [Recipe.setVariable, this]

/-- C116: deleting a variable again. -/
theorem C116_delete_variable (r : Recipe) (k : Str) (hn : r.listVariables.Nodup) :
    Restored (r.delVariable k) ((r.delVariable k).delVariable k) := by
  obtain ⟨a1, a2, a3⟩ := delVariable_fields r k
  obtain ⟨b1, b2, b3⟩ := delVariable_fields (r.delVariable k) k
  refine restored_of b1 ?_ b2
  rw [b3, a3]
  cases h : lookupD k r.vars with
  | none => simp [h]
  | some w => simp [lookupD_eraseD k k r.vars hn]

/-! ## Dependencies -/

open Doc

theorem within_again {R S : List Doc → List Doc → Prop} (hRS : ∀ a b, R a b → S b b) {comps : List Str} {ds ds' : List Doc}
    (h : Within R comps ds ds') : Within S comps ds' ds' := by
  induction h with
  | here h => exact .here (hRS _ _ h)
  | key h1 h2 _ ih => exact .key h1 h2 ih
  | element h1 h2 _ ih => exact .element h1 h2 ih

/-- C116: a dependency whose line was put at the end of a section, or in the place of another line, is put in its own place
when it is added again. -/
theorem C116_dependency_partial (E : Env) (M : Str → Option Str) (r : Recipe) (ds ds' : List Doc) (dep : Dep) (comps : List Str)
    (i c : Str) (w x : PyVal) (before after : List PyVal) (hr : r.root = Doc.root ds) (hs : SectionPath comps) (hi : isDigitS i = true)
    (hpath : dep.path = absPath (comps ++ [i])) (hadd : DepEdit E r.schema M r.vars dep .replace .replace ds ds')
    (hline : Within (fun cs cs' => EndsAt before.length (item (yamlText w) w c) cs cs' ∨
      ∃ old, ItemLine before.length old [item (yamlText w) w c] cs cs') comps ds ds')
    (hw : Scalar E (.str dep.data.render) w) (hws : w ≠ .sentinel) (hsel : SelectorComment dep.selector c)
    (hread : SectionReads E r.schema r.vars comps ds' (before ++ x :: after)) (ht : textItems before)
    (hn : ∀ y ∈ before, ¬ named M dep.data.name y) (hx : named M dep.data.name x) :
    let once := r.addDependency E M dep .replace .replace
    let again := once.2.addDependency E M dep .replace .replace
    once.2.root = Doc.root ds' ∧ again.1 = .ok true ∧ Restored once.2 again.2 := by
  intro once again
  have hself : Within (ItemLine before.length (withComment (§"- " ++ yamlText w) c) [item (yamlText w) w c]) comps ds' ds' := by
    refine within_again ?_ hline
    rintro a b (⟨h1, rfl⟩ | ⟨old, pre, vt, v, c', post, rfl, rfl, hv, h1, h2⟩)
    · exact ⟨a, yamlText w, w, c, [], rfl, by simp, hws, h1, rfl⟩
    · exact ⟨pre, yamlText w, w, c, post, by simp, rfl, hws, h1, rfl⟩
  have key : ∀ r' : Recipe, r'.root = Doc.root ds' → r'.schema = r.schema → r'.vars = r.vars →
      r'.addDependency E M dep .replace .replace = (.ok true, edited r' r'.root) := by
    intro r' g1 g2 g3
    rw [g1]
    exact depReplace_tree E M ds' ds' r' dep comps i _ w x c before after g1 hs hi hpath (hread r' g1 g2 fun _ => g3) ht hn hx hw hws hsel hself
  have h : once.2.root = Doc.root ds' ∧ once.2.schema = r.schema ∧ once.2.vars = r.vars := by
    rcases depEdit_tree hadd r hr rfl (fun _ => rfl) with h | ⟨rfl, h⟩
    · exact ⟨by rw [h]; rfl, by rw [h]; rfl, by rw [h]; rfl⟩
    · exact ⟨by rw [h]; exact hr, by rw [h], by rw [h]⟩
  have e := key once.2 h.1 h.2.1 h.2.2
  refine ⟨h.1, by rw [show again = _ from e], ?_⟩
  rw [show again = _ from e]
  exact restored_edited _

/-- C116: in IGNORE mode a dependency that is there is not added again. -/
theorem C116_dependency_ignored (E : Env) (M : Str → Option Str) (r : Recipe) (ds ds' : List Doc) (dep : Dep) (selMode : SelMode)
    (comps : List Str) (i : Str) (items : List PyVal) (hr : r.root = Doc.root ds) (hs : SectionPath comps) (hi : isDigitS i = true)
    (hpath : dep.path = absPath (comps ++ [i])) (hadd : DepEdit E r.schema M r.vars dep .ignore selMode ds ds')
    (hplace : ∃ n new, Within (EndsAt n new) comps ds ds')
    (hread : SectionReads E r.schema r.vars comps ds' items) (ht : textItems items) (hx : ∃ x ∈ items, named M dep.data.name x) :
    let once := r.addDependency E M dep .ignore selMode
    once.2.root = Doc.root ds' ∧ once.2.addDependency E M dep .ignore selMode = (.ok false, once.2) := by
  intro once
  obtain ⟨n, new, hplace⟩ := hplace
  have h : once.2.root = Doc.root ds' ∧ once.2.schema = r.schema ∧ once.2.vars = r.vars := by
    rcases depEdit_tree hadd r hr rfl (fun _ => rfl) with h | ⟨rfl, h⟩
    · exact ⟨by rw [h]; rfl, by rw [h]; rfl, by rw [h]; rfl⟩
    · exact ⟨by rw [h]; exact hr, by rw [h], by rw [h]⟩
  have hself : Within (fun _ _ => True) comps ds' ds' := within_again (fun _ _ _ => trivial) hplace
  exact ⟨h.1, C37_ignore E M once.2 dep selMode comps i hs hi hpath items (within_contains h.1 hs hself)
    (hread once.2 h.1 h.2.1 fun _ => h.2.2) ht hx⟩

/-! ## Cases that meet the hypotheses -/

namespace RepeatExample

theorem title_reads : newNodes Toy.env (.dict [(§"title", .str §"foo")]) =
    .ok [{ value := .str §"title", key := true, children := [{ value := .str §"foo" }] }] := by decide +kernel
theorem foo_reads : newNodes Toy.env (.str §"foo") = .ok [{ value := .str §"foo" }] := by decide +kernel

theorem keyReads : KeyReads Toy.env §"title" (.str §"foo") := ⟨_, title_reads, rfl, rfl, foo_reads, by simp⟩

theorem oneEntry : OneEntry Toy.env (.str §"foo") := by
  intro new h
  rw [foo_reads] at h
  injection h with h
  subst h
  exact ⟨by simp, fun _ => ⟨_, rfl, rfl, by simp⟩⟩

theorem oneEntry_mapping : OneEntry Toy.env (.dict [(§"title", .str §"foo")]) := by
  intro new h
  rw [title_reads] at h
  injection h with h
  subst h
  exact ⟨by simp, fun h => by simp [PyVal.isPrimitive] at h⟩

theorem comp (c : Str) (h : c ∈ [§"a", §"x", §"z", §"l", §"0", §"title"]) : Component c := by
  simp only [List.mem_cons, List.not_mem_nil, or_false] at h
  rcases h with rfl | rfl | rfl | rfl | rfl | rfl <;> exact ⟨by decide, by decide⟩

/-- A list item and the value of a key, replaced by a text and by a mapping. -/
example : Repeatable Toy.env exPatch (absPath [§"l", §"0"]) (.replace (.str §"foo")) ∧
    Repeatable Toy.env exPatch (absPath [§"a", §"x"]) (.replace (.dict [(§"title", .str §"foo")])) :=
  ⟨C116_replace _ _ _ _ (by simp) (by intro c h; exact comp c (by simp at h; rcases h with rfl | rfl <;> simp)) oneEntry,
   C116_replace _ _ _ _ (by simp) (by intro c h; exact comp c (by simp at h; rcases h with rfl | rfl <;> simp)) oneEntry_mapping⟩
example : ((Edit.replace (.str §"foo")).call Toy.env §"/l/0" exPatch).2.render = §"a:\n  x: 1\n\nl:\n  - foo\n  - q\n" := by decide +kernel

/-- A key that is not there. -/
example : Repeatable Toy.env exPatch (absPath ([§"a"] ++ [§"title"])) (.add (.str §"foo")) :=
  C116_add_key _ _ [§"a"] §"title" _ (by intro c h; exact comp c (by simp at h; rcases h with rfl | rfl <;> simp)) (by decide) (by decide)
    (Or.inl (by decide)) keyReads
example : ((Edit.add (.str §"foo")).call Toy.env §"/a/title" exPatch).2.render =
    §"a:\n  x: 1\n  title: foo\n\nl:\n  - p\n  - q\n" := by decide +kernel

example : (lookup CommuteExample.twoKeys.root [§"a"]).map (fun n => n.children.countP fun c => decide (c.value = .str §"x")) = some 1 ∧
    (Edit.remove.call Toy.env (absPath ([§"a"] ++ [§"x"])) CommuteExample.twoKeys).1.toOption = some (.success true) :=
  ⟨by decide +kernel, by decide +kernel⟩

example : OrdinaryPath exSel §"/a/y" ∧ commentAt exSel §"/a/y" = some §"# [win] text" := ⟨.of_check (by decide +kernel), by decide +kernel⟩
example : ((exSel.addSelector §"/a/y" §"[osx]" .replace).2.getSelectorAtPath §"/a/y").toOption = some §"[osx]" ∧
    (exSel.removeSelector §"/a/y").1.toOption = some (some §"[win]") := ⟨by decide +kernel, by decide +kernel⟩

open DocDepsExample in
theorem reads_new {v : Schema} : SectionReads Toy.env v [] [§"requirements", §"run"]
    (file [a, comment §"# c", b, item §"c 3" (.str §"c 3") []]) ([.str §"a >1", .str §"b"] ++ .str §"c 3" :: []) := by
  obtain ⟨n, hn⟩ : ∃ n, Toy.env.recLimit = n + 1 + 1 := ⟨Toy.env.recLimit - 2, by have : 0 < Toy.env.recLimit - 1 := by decide
                                                                                  omega⟩
  refine sectionReads_plain (by decide) (by decide) ?_ ?_ ?_
  · have : (match lookup (Doc.root (file [a, comment §"# c", b, item §"c 3" (.str §"c 3") []])) [§"requirements", §"run"] with
        | none => true | some n => n.children.all (·.multiline = .no)) = true := by decide +kernel
    intro n hn c hc
    rw [hn] at this
    exact of_decide_eq_true (List.all_eq_true.1 this c hc)
  · intro r hr
    unfold Recipe.getValue
    rw [hr, if_neg (by decide)]
    decide +kernel
  · rw [hn]
    refine .list fun v hv => ?_
    simp only [List.cons_append, List.nil_append, List.mem_cons, List.not_mem_nil, or_false] at hv
    rcases hv with rfl | rfl | rfl <;>
      exact .text (by decide) ⟨by decide, by decide, by decide⟩ (by decide +kernel)

open DocDepsExample in
theorem textItems_ab : textItems [.str §"a >1", .str §"b"] := by
  intro x hx
  simp only [List.mem_cons, List.not_mem_nil, or_false] at hx
  rcases hx with rfl | rfl <;> exact Or.inr ⟨_, rfl⟩

open DocDepsExample in
example (r : Recipe) (hr : r.root = Doc.root (file [a, comment §"# c", b])) (hv : r.vars = []) :
    let once := r.addDependency Toy.env exMatch (exDep §"/requirements/run/0" §"c 3") .replace .replace
    let again := once.2.addDependency Toy.env exMatch (exDep §"/requirements/run/0" §"c 3") .replace .replace
    again.1 = .ok true ∧ Restored once.2 again.2 :=
  (C116_dependency_partial Toy.env exMatch r _ (file [a, comment §"# c", b, item §"c 3" (.str §"c 3") []])
    (exDep §"/requirements/run/0" §"c 3") [§"requirements", §"run"] §"0" [] (.str §"c 3") (.str §"c 3")
    [.str §"a >1", .str §"b"] [] hr section_run (by decide) rfl (by rw [hv]; exact UndoExample.depEdit)
    (at_run (Or.inl ⟨by decide +kernel, rfl⟩) (by simp) (by simp)) (scalar_text §"c 3" (by simp)) (by simp) rfl
    (by rw [hv]; exact reads_new) textItems_ab
    (by
      intro x hx
      simp only [List.mem_cons, List.not_mem_nil, or_false] at hx
      rcases hx with rfl | rfl <;> (rintro ⟨t, ht, _, h⟩; injection ht with ht; subst ht; revert h; decide))
    ⟨_, rfl, by decide, by decide⟩).2

end RepeatExample

/-! ## Where it fails -/

/-- A selector that is added again in AND mode is written again. -/
theorem C116_add_selector_violation :
    let r := Toy.recipe "a: 1  # [win]\n"
    let once := (r.addSelector §"/a" §"[osx]" .and).2
    once.render = §"a: 1  # [win and osx]\n" ∧
    (once.addSelector §"/a" §"[osx]" .and).2.render = §"a: 1  # [win and osx and osx]\n" := ⟨by decide +kernel, by decide +kernel⟩

/-- A comment that reads like a selector is taken for one when it is added again, and kept in front of the comment. -/
theorem C116_add_comment_violation :
    let r := Toy.recipe "a: 1\n"
    let once := (r.addComment §"/a" §"see [win]").2
    once.render = §"a: 1  # see [win]\n" ∧
    (once.addComment §"/a" §"see [win]").2.render = §"a: 1  # [win] see [win]\n" := ⟨by decide +kernel, by decide +kernel⟩

/-- Of a key that a section has twice, the second call removes the other line. -/
theorem C116_remove_key_violation :
    let r := Toy.recipe "a:\n  x: 1\n  x: 2\n  y: 3\n"
    let once := (Edit.remove.call Toy.env §"/a/x" r).2
    once.render = §"a:\n  x: 2\n  y: 3\n" ∧ (Edit.remove.call Toy.env §"/a/x" once).2.render = §"a:\n  y: 3\n" :=
  ⟨by decide +kernel, by decide +kernel⟩

end Crm
