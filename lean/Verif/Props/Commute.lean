import Verif.Lemmas.Local
import Verif.Props.Undo

/-!
# C115: The order of independent edits does not matter

Edits in different sections of a recipe, or in different entries of a list, give the same answers and the same recipe in either
order.
-/

namespace Crm
open Spec

/-! ## Lemmas -/

theorem modify_const {l : List Node} {i : Nat} {m : Node} (m' : Node) (h : l[i]? = some m) :
    l.modify i (fun _ => m') = l.take i ++ m' :: l.drop (i + 1) := by
  apply List.ext_getElem?
  intro k
  obtain ⟨hi, _⟩ := List.getElem?_eq_some_iff.1 h
  have hlen : (l.take i).length = i := by simp; omega
  rw [List.getElem?_modify]
  rcases Nat.lt_trichotomy k i with hk | rfl | hk
  · rw [List.getElem?_append_left (by omega), List.getElem?_take]
    have : ¬ i = k := by omega
    simp [hk, this]
  · rw [List.getElem?_append_right (by omega)]
    simp [hlen, h]
  · rw [List.getElem?_append_right (by omega), hlen]
    have h1 : ¬ i = k := by omega
    obtain ⟨d, hd⟩ : ∃ d, k - i = d + 1 := ⟨k - i - 1, by omega⟩
    have h2 : i + 1 + d = k := by omega
    simp [h1, hd, h2]

/-- The other step leads to the same child, whatever happens below the first. -/
theorem beside_child {root n m m' : Node} {a : List Str} {s t : Str} {q : Pos} {i : Nat} (ha : Apart root a s t)
    (hq : locate root a = some q) (hn : nodeAt root q = some n) (hi : childIdx n s = some i) (hm : n.children[i]? = some m)
    (hk : Keeps m m') :
    childIdx { n with children := n.children.modify i (fun _ => m') } t = childIdx n t ∧ ∀ j, childIdx n t = some j → j ≠ i := by
  obtain ⟨hsplit, _⟩ := split_at hm
  have hmod := modify_const m' hm
  have hls : locate root (a ++ [s]) = some (q ++ [i]) := by rw [locate_concat, hq]; simp [hn, hi]
  have hnm : nodeAt root (q ++ [i]) = some m := by rw [nodeAt_append, hn]; simp [nodeAt, hm]
  rcases ha with ⟨hs, ht, hne⟩ | ⟨hs, ht, hne, ⟨m0, hm0, hcol, hcom⟩, _⟩
  · constructor
    · rw [childIdx_name ht, childIdx_name ht]
      show (n.children.modify i (fun _ => m')).findIdx? _ = _
      rw [hmod]
      have hv := hk.value
      have h1 : ∀ l : List Node, l.findIdx? (fun c => pyEq c.value (.str t)) = (l.map (·.value)).findIdx? (fun v => pyEq v (.str t)) := by
        intro l; rw [List.findIdx?_map]; rfl
      rw [h1, h1 n.children]
      conv => rhs; rw [hsplit]
      simp [hv]
    · rintro j hj rfl
      rw [childIdx_name ht, List.findIdx?_eq_some_iff_getElem] at hj
      rw [childIdx_name hs, List.findIdx?_eq_some_iff_getElem] at hi
      obtain ⟨_, h1, _⟩ := hj
      obtain ⟨_, h2, _⟩ := hi
      rw [pyEq_str] at h1 h2
      rw [h1] at h2
      injection h2 with h2
      exact hne h2.symm
  · rw [← locate_lookup, hls, Option.bind_some, hnm] at hm0
    injection hm0 with hm0; subst hm0
    have hreal : m.isComment = false := by simp [Node.isComment, hcom]
    constructor
    · exact childIdx_digit_same ht hsplit hmod (by rw [hk.comment hcol hcom, hreal]) hk.listMember
    · rintro j hj rfl
      obtain ⟨h1, _⟩ := (childIdx_digit ht _).1 hj
      obtain ⟨h2, _⟩ := (childIdx_digit hs _).1 hi
      have e1 := ((virtToPhys_getElem? _ _ _).1 h1).2
      have e2 := ((virtToPhys_getElem? _ _ _).1 h2).2
      exact hne (e2.symm.trans e1)

/-- A place beside the one that is changed is where it was and holds what it held. -/
theorem beside {root n m m' : Node} {a : List Str} {s t : Str} {q : Pos} {i : Nat} (ha : Apart root a s t)
    (hq : locate root a = some q) (hn : nodeAt root q = some n) (hi : childIdx n s = some i) (hm : n.children[i]? = some m)
    (hk : Keeps m m') :
    locate (putAt root (q ++ [i]) m') (a ++ [t]) = locate root (a ++ [t]) ∧
      ∀ pos, locate root (a ++ [t]) = some pos →
        nodeAt (putAt root (q ++ [i]) m') pos = nodeAt root pos ∧ pos.length = (q ++ [i]).length ∧ pos ≠ q ++ [i] := by
  obtain ⟨h1, h2⟩ := beside_child ha hq hn hi hm hk
  have hroot : putAt root (q ++ [i]) m' = updateAt (fun x => { x with children := x.children.modify i (fun _ => m') }) q root := by
    unfold putAt
    rw [updateAt_append]
    rfl
  have hn' : nodeAt (putAt root (q ++ [i]) m') q = some { n with children := n.children.modify i (fun _ => m') } := by
    rw [hroot, nodeAt_updateAt_self _ _ _ hn]
  have hq' : locate (putAt root (q ++ [i]) m') a = some q := by
    rw [hroot]
    refine locate_changed_self (childrenChanged_updateAt (fun cs => cs.modify i (fun _ => m')) AnyChange hn trivial) ?_ hq
    intro x y hx hy
    rw [hn] at hx
    rw [← hroot, hn'] at hy
    injection hx with hx; injection hy with hy
    subst hx hy
    have hne : n.children ≠ [] := by intro h; rw [h] at hm; simp at hm
    have hne' : n.children.modify i (fun _ => m') ≠ [] := by
      intro h
      have := congrArg List.length h
      simp only [List.length_modify, List.length_nil] at this
      exact hne (List.length_eq_zero_iff.1 this)
    simp [Node.isComment, Node.isSentinel, List.isEmpty_eq_false_iff.2 hne, List.isEmpty_eq_false_iff.2 hne']
  constructor
  · rw [locate_concat, locate_concat, hq', hq]
    simp only [Option.bind_some, hn', hn, h1]
  · intro pos hpos
    rw [locate_concat, hq] at hpos
    simp only [Option.bind_some, hn] at hpos
    cases hj : childIdx n t with
    | none => rw [hj] at hpos; cases hpos
    | some j =>
      rw [hj] at hpos
      simp only [Option.map_some, Option.some.injEq] at hpos
      subst hpos
      have hne := h2 j hj
      refine ⟨?_, by simp, by intro h; have := List.append_cancel_left h; simp at this; exact hne this⟩
      rw [nodeAt_append, nodeAt_append, hn', hn]
      have hne' : ¬ i = j := fun h => hne h.symm
      simp [nodeAt, hne']

theorem apart_symm {root : Node} {a : List Str} {s t : Str} (h : Apart root a s t) : Apart root a t s := by
  rcases h with ⟨h1, h2, h3⟩ | ⟨h1, h2, h3, h4, h5⟩
  · exact Or.inl ⟨h2, h1, h3.symm⟩
  · exact Or.inr ⟨h2, h1, h3.symm, h5, h4⟩

/-- A step that parts from another leads to a place of its own, or to nothing if it is a key. -/
theorem apart_place {root : Node} {a : List Str} {s t : Str} (h : Apart root a s t) :
    (locate root (a ++ [s]) = none ∧ endsInNumber (a ++ [s]) = false) ∨
    ∃ q n i m, locate root a = some q ∧ nodeAt root q = some n ∧ childIdx n s = some i ∧ n.children[i]? = some m ∧
      locate root (a ++ [s]) = some (q ++ [i]) ∧ nodeAt root (q ++ [i]) = some m ∧
      (endsInNumber (a ++ [s]) = false ∨ m.isCollectionElement = true) := by
  have hpl : ∀ pos, locate root (a ++ [s]) = some pos → ∃ q n i m, locate root a = some q ∧ nodeAt root q = some n ∧
      childIdx n s = some i ∧ n.children[i]? = some m ∧ pos = q ++ [i] ∧ nodeAt root (q ++ [i]) = some m := by
    intro pos hpos
    rw [locate_concat] at hpos
    cases hq : locate root a with
    | none => rw [hq] at hpos; cases hpos
    | some q =>
      obtain ⟨n, hn⟩ := locate_valid hq
      rw [hq] at hpos
      simp only [Option.bind_some, hn] at hpos
      cases hi : childIdx n s with
      | none => rw [hi] at hpos; cases hpos
      | some i =>
        rw [hi] at hpos
        simp only [Option.map_some, Option.some.injEq] at hpos
        have hm := List.getElem?_eq_getElem (childIdx_lt hi)
        exact ⟨q, n, i, _, rfl, hn, hi, hm, hpos.symm, by rw [nodeAt_append, hn]; simp [nodeAt, hm]⟩
  rcases h with ⟨hs, _, _⟩ | ⟨hs, _, _, ⟨m0, hm0, hcol, _⟩, _⟩
  · cases hl : locate root (a ++ [s]) with
    | none => exact Or.inl ⟨rfl, by rw [endsInNumber_concat]; exact hs⟩
    | some pos =>
      obtain ⟨q, n, i, m, g1, g2, g3, g4, rfl, g6⟩ := hpl pos hl
      exact Or.inr ⟨q, n, i, m, g1, g2, g3, g4, rfl, g6, Or.inl (by rw [endsInNumber_concat]; exact hs)⟩
  · rw [← locate_lookup] at hm0
    cases hl : locate root (a ++ [s]) with
    | none => rw [hl] at hm0; cases hm0
    | some pos =>
      obtain ⟨q, n, i, m, g1, g2, g3, g4, rfl, g6⟩ := hpl pos hl
      rw [hl, Option.bind_some, g6] at hm0
      injection hm0 with hm0; subst hm0
      exact Or.inr ⟨q, n, i, m, g1, g2, g3, g4, rfl, g6, Or.inr hcol⟩

/-- The tree after an edit. -/
def treeAfter (root : Node) (x : Except PyErr Answer × Option Node) : Node := x.2.getD root

theorem after_none {root : Node} {x : Except PyErr Answer × Option Node} (h : x.2 = none) : treeAfter root x = root := by
  simp [treeAfter, h]

theorem after_some {root root' : Node} {x : Except PyErr Answer × Option Node} (h : x.2 = some root') : treeAfter root x = root' := by
  simp [treeAfter, h]

/-- An edit at one place answers the same after an edit at the other and does the same there. -/
theorem treeEdit_beside (E : Env) {root : Node} {a rest rest' : List Str} {s t : Str} {e e' : Edit} (ha : Apart root a s t)
    (hc : ∀ c ∈ (a ++ [s]) ++ rest, Component c) (hc' : ∀ c ∈ (a ++ [t]) ++ rest', Component c) (he : e.Within rest)
    (he' : e'.Within rest') :
    let x := treeEdit E root ((a ++ [s]) ++ rest) e
    let y := treeEdit E root ((a ++ [t]) ++ rest') e'
    let y' := treeEdit E (treeAfter root x) ((a ++ [t]) ++ rest') e'
    let x' := treeEdit E (treeAfter root y) ((a ++ [s]) ++ rest) e
    y'.1 = y.1 ∧ x'.1 = x.1 ∧ treeAfter (treeAfter root x) y' = treeAfter (treeAfter root y) x' := by
  intro x y y' x'
  have hb : a ++ [s] ≠ [] := by simp
  have hb' : a ++ [t] ≠ [] := by simp
  rcases apart_place ha with ⟨hl, hn⟩ | ⟨q, n, i, m, g1, g2, g3, g4, g5, g6, g7⟩
  · rcases apart_place (apart_symm ha) with ⟨hl', hn'⟩ | ⟨q', n', j, m', k1, k2, k3, k4, k5, k6, k7⟩
    · have hx : x.2 = none := (treeEdit_gone E hl hl hn hb hc he).2.1
      have hy : y.2 = none := (treeEdit_gone E hl' hl' hn' hb' hc' he').2.1
      have e1 : treeAfter root x = root := after_none hx
      have e2 : treeAfter root y = root := after_none hy
      have e3 : y' = y := by simp only [y', y, e1]
      have e4 : x' = x := by simp only [x', x, e2]
      rw [e3, e4, e1, e2]
      exact ⟨rfl, rfl, e1.symm⟩
    · have hx : x.2 = none := (treeEdit_gone E hl hl hn hb hc he).2.1
      have e1 : treeAfter root x = root := after_none hx
      have e3 : y' = y := by simp only [y', y, e1]
      rw [e3, e1]
      rcases (treeEdit_local E k5 k6 k5 k6 k7 hb' hc' he').tree with ⟨h1, _⟩ | ⟨m1, hk, h1, _⟩
      · have e2 : treeAfter root y = root := after_none h1
        have e4 : x' = x := by simp only [x', x, e2]
        rw [e4, e2]
        exact ⟨rfl, rfl, e1.symm⟩
      · have e2 : treeAfter root y = putAt root (q' ++ [j]) m1 := after_some h1
        have hl2 : locate (treeAfter root y) (a ++ [s]) = none := by
          rw [e2, (beside (apart_symm ha) k1 k2 k3 k4 hk).1, hl]
        obtain ⟨f1, f2, f3⟩ := treeEdit_gone E hl2 hl hn hb hc he
        refine ⟨rfl, f1, ?_⟩
        have : x'.2 = none := f2
        simp [treeAfter, this]
  · rcases (treeEdit_local E g5 g6 g5 g6 g7 hb hc he).tree with ⟨hx, _⟩ | ⟨m1, hk, hx, _⟩
    · have e1 : treeAfter root x = root := after_none hx
      have e3 : y' = y := by simp only [y', y, e1]
      rw [e3, e1]
      rcases apart_place (apart_symm ha) with ⟨hl', hn'⟩ | ⟨q', n', j, m', k1, k2, k3, k4, k5, k6, k7⟩
      · have hy : y.2 = none := (treeEdit_gone E hl' hl' hn' hb' hc' he').2.1
        have e2 : treeAfter root y = root := after_none hy
        have e4 : x' = x := by simp only [x', x, e2]
        rw [e4, e2]
        exact ⟨rfl, rfl, e1.symm⟩
      · rcases (treeEdit_local E k5 k6 k5 k6 k7 hb' hc' he').tree with ⟨h1, _⟩ | ⟨m2, hk2, h1, _⟩
        · have e2 : treeAfter root y = root := after_none h1
          have e4 : x' = x := by simp only [x', x, e2]
          rw [e4, e2]
          exact ⟨rfl, rfl, e1.symm⟩
        · have e2 : treeAfter root y = putAt root (q' ++ [j]) m2 := after_some h1
          obtain ⟨b1, b2⟩ := beside (apart_symm ha) k1 k2 k3 k4 hk2
          have hp2 : locate (treeAfter root y) (a ++ [s]) = some (q ++ [i]) := by rw [e2, b1, g5]
          have hm2 : nodeAt (treeAfter root y) (q ++ [i]) = some m := by rw [e2, (b2 _ g5).1, g6]
          have hloc := treeEdit_local E g5 g6 hp2 hm2 g7 hb hc he
          refine ⟨rfl, hloc.answer.symm, ?_⟩
          rcases hloc.tree with ⟨_, f⟩ | ⟨m3, _, f, _⟩
          · have : x'.2 = none := f
            simp [treeAfter, this]
          · rw [hx] at f; cases f
    · have e1 : treeAfter root x = putAt root (q ++ [i]) m1 := after_some hx
      obtain ⟨b1, b2⟩ := beside ha g1 g2 g3 g4 hk
      rcases apart_place (apart_symm ha) with ⟨hl', hn'⟩ | ⟨q', n', j, m', k1, k2, k3, k4, k5, k6, k7⟩
      · have hl2 : locate (treeAfter root x) (a ++ [t]) = none := by rw [e1, b1, hl']
        obtain ⟨f1, f2, f3⟩ := treeEdit_gone E hl2 hl' hn' hb' hc' he'
        have e2 : treeAfter root y = root := after_none f3
        have e4 : x' = x := by simp only [x', x, e2]
        rw [e4, e2]
        refine ⟨f1, rfl, ?_⟩
        have : y'.2 = none := f2
        simp [treeAfter, this]
      · have hp1 : locate (treeAfter root x) (a ++ [t]) = some (q' ++ [j]) := by rw [e1, b1, k5]
        have hm1 : nodeAt (treeAfter root x) (q' ++ [j]) = some m' := by rw [e1, (b2 _ k5).1, k6]
        have hloc := treeEdit_local E k5 k6 hp1 hm1 k7 hb' hc' he'
        rcases hloc.tree with ⟨f1, f2⟩ | ⟨m2, hk2, f1, f2⟩
        · have e2 : treeAfter root y = root := after_none f1
          have e4 : x' = x := by simp only [x', x, e2]
          rw [e4, e2]
          refine ⟨hloc.answer.symm, rfl, ?_⟩
          have : y'.2 = none := f2
          simp [treeAfter, this]
        · have e2 : treeAfter root y = putAt root (q' ++ [j]) m2 := after_some f1
          obtain ⟨d1, d2⟩ := beside (apart_symm ha) k1 k2 k3 k4 hk2
          have hp2 : locate (treeAfter root y) (a ++ [s]) = some (q ++ [i]) := by rw [e2, d1, g5]
          have hm2 : nodeAt (treeAfter root y) (q ++ [i]) = some m := by rw [e2, (d2 _ g5).1, g6]
          have hloc2 := treeEdit_local E g5 g6 hp2 hm2 g7 hb hc he
          refine ⟨hloc.answer.symm, hloc2.answer.symm, ?_⟩
          rcases hloc2.tree with ⟨f3, _⟩ | ⟨m3, _, f3, f4⟩
          · rw [hx] at f3; cases f3
          · have hy' : y'.2 = some (putAt (treeAfter root x) (q' ++ [j]) m2) := f2
            have hx' : x'.2 = some (putAt (treeAfter root y) (q ++ [i]) m3) := f4
            have h31 : putAt root (q ++ [i]) m3 = putAt root (q ++ [i]) m1 := by
              have := f3.symm.trans hx
              injection this
            have h31' : m3 = m1 := by
              have h5 : nodeAt (putAt root (q ++ [i]) m3) (q ++ [i]) = some m3 := nodeAt_updateAt_self _ _ _ g6
              have h6 : nodeAt (putAt root (q ++ [i]) m1) (q ++ [i]) = some m1 := nodeAt_updateAt_self _ _ _ g6
              rw [h31, h6] at h5
              injection h5 with h5
              exact h5.symm
            subst h31'
            show y'.2.getD (treeAfter root x) = x'.2.getD (treeAfter root y)
            rw [hy', hx', Option.getD_some, Option.getD_some, e1, e2]
            obtain ⟨_, l1, l2⟩ := b2 _ k5
            exact updateAt_comm _ _ _ _ _ l1 l2

theorem restored_of {r r' : Recipe} (h1 : r'.root = r.root) (h2 : r'.vars = r.vars) (h3 : r'.schema = r.schema) : Restored r r' := by
  refine ⟨h1, h2, h3, ?_⟩
  simp only [Recipe.render, h1, h2, h3]

theorem call_same (E : Env) {r r' : Recipe} (h : Restored r r') {comps : List Str} (hne : comps ≠ []) (hc : ∀ c ∈ comps, Component c)
    (e : Edit) : (e.call E (absPath comps) r').1 = (e.call E (absPath comps) r).1 ∧
      Restored (e.call E (absPath comps) r).2 (e.call E (absPath comps) r').2 := by
  have d := call_does E r hne hc e
  have d' := call_does E r' hne hc e
  rw [h.lines] at d'
  refine ⟨d'.answer.trans d.answer.symm, restored_of ?_ ?_ ?_⟩
  · rw [d'.root, d.root, h.lines]
  · rw [d'.vars, d.vars, h.variables]
  · rw [d'.schema, d.schema, h.format]

/-! ## The keys of one section -/

/-- Put nodes in the place of the first child with key `s`. -/
def rwFirst (s : Str) (cs : List Node) : List Node → List Node
  | [] => []
  | c :: l => if c.value = .str s then cs ++ l else c :: rwFirst s cs l

def firstKey (s : Str) (l : List Node) : Option Node := l.find? fun c => decide (c.value = .str s)

theorem firstKey_rw {s t : Str} (hne : s ≠ t) {cs : List Node} (hcs : ∀ c ∈ cs, c.value = .str s) :
    ∀ l : List Node, firstKey t (rwFirst s cs l) = firstKey t l
  | [] => rfl
  | c :: l => by
    have h0 : cs.find? (fun c => decide (c.value = .str t)) = none := by
      rw [List.find?_eq_none]
      intro x hx
      simp [hcs x hx, hne]
    by_cases h : c.value = .str s
    · have h2 : ¬ c.value = .str t := by rw [h]; simp [hne]
      simp [rwFirst, h, firstKey, List.find?_append, h0, hne]
    · have ih := firstKey_rw hne hcs l
      simp only [firstKey] at ih
      simp only [rwFirst, if_neg h, firstKey, List.find?_cons]
      split
      · rfl
      · exact ih

theorem rwFirst_comm {s t : Str} (hne : s ≠ t) {cs ds : List Node} (hcs : ∀ c ∈ cs, c.value = .str s) (hds : ∀ c ∈ ds, c.value = .str t) :
    ∀ l : List Node, rwFirst s cs (rwFirst t ds l) = rwFirst t ds (rwFirst s cs l)
  | [] => rfl
  | c :: l => by
    have skip : ∀ (u v : Str) (xs ys : List Node), u ≠ v → (∀ c ∈ xs, c.value = .str u) → ∀ l, rwFirst v ys (xs ++ l) = xs ++ rwFirst v ys l := by
      intro u v xs ys huv
      induction xs with
      | nil => intro _ l; rfl
      | cons x xs ih =>
        intro h l
        have : ¬ x.value = .str v := by rw [h x (by simp)]; simp [huv]
        simp only [List.cons_append, rwFirst, if_neg this]
        rw [ih (fun c hc => h c (by simp [hc]))]
    by_cases h1 : c.value = .str s
    · have h2 : ¬ c.value = .str t := by rw [h1]; simp [hne]
      simp only [rwFirst, if_neg h2, if_pos h1]
      rw [skip s t cs ds hne hcs]
    · by_cases h2 : c.value = .str t
      · simp only [rwFirst, if_pos h2, if_neg h1]
        rw [skip t s ds cs hne.symm hds]
      · simp only [rwFirst, if_neg h2, if_neg h1, rwFirst_comm hne hcs hds l]

/-- The tree with other children at `q`. -/
abbrev withKids (root : Node) (q : Pos) (ks : List Node) : Node := updateAt (fun n => { n with children := ks }) q root

theorem rw_modify {s : Str} {m m' : Node} : ∀ {l : List Node} {i : Nat}, l.findIdx? (fun c => pyEq c.value (.str s)) = some i →
    l[i]? = some m → l.modify i (fun _ => m') = rwFirst s [m'] l ∧ l.eraseIdx i = rwFirst s [] l ∧ firstKey s l = some m ∧ m.value = .str s
  | [], i, h, _ => by simp at h
  | c :: l, i, h, hm => by
    rw [List.findIdx?_cons] at h
    by_cases hc : pyEq c.value (.str s) = true
    · rw [if_pos hc] at h
      injection h with h; subst h
      simp only [List.getElem?_cons_zero, Option.some.injEq] at hm
      subst hm
      have hv := pyEq_str.1 hc
      simp [rwFirst, firstKey, hv]
    · rw [if_neg hc] at h
      cases hj : l.findIdx? (fun c => pyEq c.value (.str s)) with
      | none => rw [hj] at h; cases h
      | some j =>
        rw [hj] at h
        simp only [Option.map_some, Option.some.injEq] at h
        subst h
        have hv : ¬ c.value = .str s := fun hv => hc (pyEq_str.2 hv)
        obtain ⟨h1, h2, h3, h4⟩ := rw_modify (m := m) (m' := m') hj (by simpa using hm)
        refine ⟨by simp [rwFirst, hv, h1], by simp [rwFirst, hv, h2], ?_, h4⟩
        simp only [firstKey] at h3
        simp [firstKey, hv, h3]

theorem childIdx_firstKey {n : Node} {s : Str} (hs : isDigitS s = false) :
    (childIdx n s = none ↔ firstKey s n.children = none) := by
  rw [childIdx_name hs, List.findIdx?_eq_none_iff, firstKey, List.find?_eq_none]
  constructor
  · intro h x hx hv
    have := h x hx
    simp only [decide_eq_true_eq] at hv
    rw [hv] at this
    exact absurd (pyEq_str.2 rfl) (by rw [this]; simp)
  · intro h x hx
    have := h x hx
    simp only [decide_eq_true_eq] at this
    cases hp : pyEq x.value (.str s) with
    | false => rfl
    | true => exact absurd (pyEq_str.1 hp) this

/-- The same edit at a key that holds the same in two sections. -/
structure KeyLocal (root root' : Node) (q : Pos) (n n' : Node) (s : Str) (x x' : Except PyErr Answer × Option Node) : Prop where
  answer : x.1 = x'.1
  tree : (x.2 = none ∧ x'.2 = none) ∨ ∃ cs, (∀ c ∈ cs, c.value = .str s) ∧ x.2 = some (withKids root q (rwFirst s cs n.children)) ∧
    x'.2 = some (withKids root' q (rwFirst s cs n'.children))

theorem putAt_kids {root n : Node} {q : Pos} (hn : nodeAt root q = some n) (i : Nat) (m' : Node) :
    putAt root (q ++ [i]) m' = withKids root q (n.children.modify i (fun _ => m')) := by
  unfold putAt withKids
  rw [updateAt_append, updateAt_const _ hn, updateAt_const (fun n' => { n' with children := n.children.modify i fun _ => m' }) hn]
  rfl

theorem treeEdit_key (E : Env) {root root' n n' : Node} {a rest : List Str} {q : Pos} {s : Str} (hs : isDigitS s = false)
    (hq : locate root a = some q) (hn : nodeAt root q = some n) (hq' : locate root' a = some q) (hn' : nodeAt root' q = some n')
    (hk : firstKey s n'.children = firstKey s n.children) (hc : ∀ c ∈ (a ++ [s]) ++ rest, Component c) {e : Edit} (he : e.AtKey rest) :
    KeyLocal root root' q n n' s (treeEdit E root ((a ++ [s]) ++ rest) e) (treeEdit E root' ((a ++ [s]) ++ rest) e) := by
  have hb : a ++ [s] ≠ [] := by simp
  have hend : endsInNumber (a ++ [s]) = false := by rw [endsInNumber_concat]; exact hs
  have hrm : ∀ {e : Edit}, e.AtKey rest → e.Within rest ∨ e = .remove ∧ rest = [] := by
    intro e he
    cases e <;> simp only [Edit.AtKey, Edit.Within] at he ⊢
    · exact Or.inl he
    · by_cases hr : rest = []
      · exact Or.inr ⟨trivial, hr⟩
      · exact Or.inl hr
    all_goals exact Or.inl trivial
  cases hi : childIdx n s with
  | none =>
    have hi' : childIdx n' s = none := by
      rw [childIdx_firstKey hs, hk, ← childIdx_firstKey hs]; exact hi
    have hl : locate root (a ++ [s]) = none := by rw [locate_concat, hq]; simp [hn, hi]
    have hl' : locate root' (a ++ [s]) = none := by rw [locate_concat, hq']; simp [hn', hi']
    rcases hrm he with hw | ⟨rfl, rfl⟩
    · obtain ⟨h1, h2, h3⟩ := treeEdit_gone E hl hl' hend hb hc hw
      exact ⟨h1, Or.inl ⟨h2, h3⟩⟩
    · simp only [treeEdit, List.append_nil, patchRemove_none hl, patchRemove_none hl']
      exact ⟨rfl, Or.inl ⟨rfl, rfl⟩⟩
  | some i =>
    cases hi' : childIdx n' s with
    | none =>
      rw [childIdx_firstKey hs, hk, ← childIdx_firstKey hs, hi] at hi'
      cases hi'
    | some i' =>
      have hm := List.getElem?_eq_getElem (childIdx_lt hi)
      have hm' := List.getElem?_eq_getElem (childIdx_lt hi')
      generalize n.children[i]'(childIdx_lt hi) = m at hm
      generalize n'.children[i']'(childIdx_lt hi') = m2 at hm'
      have hf := hi
      have hf' := hi'
      rw [childIdx_name hs] at hf hf'
      have hmm : m2 = m := by
        have h1 := (rw_modify (m' := m) hf hm).2.2.1
        have h2 := (rw_modify (m' := m) hf' hm').2.2.1
        rw [hk, h1] at h2
        injection h2 with h2
        exact h2.symm
      subst hmm
      have hl : locate root (a ++ [s]) = some (q ++ [i]) := by rw [locate_concat, hq]; simp [hn, hi]
      have hl' : locate root' (a ++ [s]) = some (q ++ [i']) := by rw [locate_concat, hq']; simp [hn', hi']
      have hx : nodeAt root (q ++ [i]) = some m2 := by rw [nodeAt_append, hn]; simp [nodeAt, hm]
      have hx' : nodeAt root' (q ++ [i']) = some m2 := by rw [nodeAt_append, hn']; simp [nodeAt, hm']
      rcases hrm he with hw | ⟨rfl, rfl⟩
      · have := treeEdit_local E hl hx hl' hx' (Or.inl hend) hb hc hw
        refine ⟨this.answer, ?_⟩
        rcases this.tree with h | ⟨m', h1, h2, h3⟩
        · exact Or.inl h
        · obtain ⟨r1, r2, _, r4⟩ := rw_modify (m' := m') hf hm
          obtain ⟨r5, _, _, _⟩ := rw_modify (m' := m') hf' hm'
          refine Or.inr ⟨[m'], ?_, ?_, ?_⟩
          · intro c hc
            simp only [List.mem_cons, List.not_mem_nil, or_false] at hc
            subst hc
            rw [h1.value, r4]
          · rw [h2, putAt_kids hn, r1]
          · rw [h3, putAt_kids hn', r5]
      · have e1 := patchRemove_some hq hn hi hm
        have e2 := patchRemove_some hq' hn' hi' hm'
        simp only [treeEdit, List.append_nil, e1, e2]
        refine ⟨by cases bareValue m2 <;> rfl, ?_⟩
        cases bareValue m2 with
        | true => exact Or.inl ⟨rfl, rfl⟩
        | false =>
          refine Or.inr ⟨[], by simp, ?_, ?_⟩
          · simp only [Bool.false_eq_true, if_false]
            rw [← (rw_modify (m' := m2) hf hm).2.1]
            unfold withKids
            rw [updateAt_const _ hn, updateAt_const (fun n_1 => { n_1 with children := n.children.eraseIdx i }) hn]
          · simp only [Bool.false_eq_true, if_false]
            rw [← (rw_modify (m' := m2) hf' hm').2.1]
            unfold withKids
            rw [updateAt_const _ hn', updateAt_const (fun n_1 => { n_1 with children := n'.children.eraseIdx i' }) hn']

/-- A section is still there when it has other children. -/
theorem withKids_place {root n : Node} {a : List Str} {q : Pos} (ha : endsInNumber a = false) (hq : locate root a = some q)
    (hn : nodeAt root q = some n) (ks : List Node) :
    locate (withKids root q ks) a = some q ∧ nodeAt (withKids root q ks) q = some { n with children := ks } := by
  have hn' : nodeAt (withKids root q ks) q = some { n with children := ks } := by
    unfold withKids; rw [nodeAt_updateAt_self _ _ _ hn]
  refine ⟨?_, hn'⟩
  rcases List.eq_nil_or_concat a with rfl | ⟨init, k, rfl⟩
  · have : q = [] := by
      have := locate_length hq
      exact List.length_eq_zero_iff.1 this
    subst this
    rfl
  · rw [List.concat_eq_append] at *
    rw [endsInNumber_concat] at ha
    have hv : n.value = .str k := by
      rcases List.eq_nil_or_concat q with rfl | ⟨p, i, rfl⟩
      · have := locate_length hq; simp at this
      · rw [List.concat_eq_append] at *
        obtain ⟨n0, _, _, hx, hc⟩ := locate_last hq hn
        rw [childIdx_name ha] at hx
        exact (rw_modify (m' := n) hx hc).2.2.2
    refine locate_changed_self (childrenChanged_updateAt (fun _ => ks) AnyChange hn trivial) ?_ hq
    intro x y hx hy
    rw [hn] at hx
    have hy : nodeAt (withKids root q ks) q = some y := hy
    rw [hn'] at hy
    injection hx with hx; injection hy with hy
    subst hx hy
    simp [Node.isComment, Node.isSentinel, hv]

/-- Edits at two keys of a section. -/
theorem treeEdit_keys (E : Env) {root : Node} {a rest rest' : List Str} {s t : Str} {e e' : Edit} (ha : endsInNumber a = false)
    (hs : isDigitS s = false) (ht : isDigitS t = false) (hne : s ≠ t) (hc : ∀ c ∈ (a ++ [s]) ++ rest, Component c)
    (hc' : ∀ c ∈ (a ++ [t]) ++ rest', Component c) (he : e.AtKey rest) (he' : e'.AtKey rest') :
    let x := treeEdit E root ((a ++ [s]) ++ rest) e
    let y := treeEdit E root ((a ++ [t]) ++ rest') e'
    let y' := treeEdit E (treeAfter root x) ((a ++ [t]) ++ rest') e'
    let x' := treeEdit E (treeAfter root y) ((a ++ [s]) ++ rest) e
    y'.1 = y.1 ∧ x'.1 = x.1 ∧ treeAfter (treeAfter root x) y' = treeAfter (treeAfter root y) x' := by
  intro x y y' x'
  cases hq : locate root a with
  | none =>
    have gone : ∀ {u : Str} {rs : List Str} {f : Edit}, isDigitS u = false → f.AtKey rs → (∀ c ∈ (a ++ [u]) ++ rs, Component c) →
        (treeEdit E root ((a ++ [u]) ++ rs) f).2 = none := by
      intro u rs f hu hf hcu
      have hl : locate root (a ++ [u]) = none := by rw [locate_concat, hq]; rfl
      by_cases hr : f = .remove ∧ rs = []
      · obtain ⟨rfl, rfl⟩ := hr
        simp [treeEdit, patchRemove_none hl]
      · refine (treeEdit_gone E hl hl (by rw [endsInNumber_concat]; exact hu) (by simp) hcu ?_).2.1
        cases f <;> simp only [Edit.AtKey, Edit.Within] at hf ⊢
        · exact hf
        · exact fun h => hr ⟨rfl, h⟩
    have e1 : treeAfter root x = root := after_none (gone hs he hc)
    have e2 : treeAfter root y = root := after_none (gone ht he' hc')
    have e3 : y' = y := by simp only [y', y, e1]
    have e4 : x' = x := by simp only [x', x, e2]
    rw [e3, e4, e1, e2]
    exact ⟨rfl, rfl, e1.symm⟩
  | some q =>
    obtain ⟨n, hn⟩ := locate_valid hq
    have hX := fun {root' n' : Node} h1 h2 h3 => treeEdit_key E (root' := root') (n' := n') hs hq hn h1 h2 h3 hc he
    have hY := fun {root' n' : Node} h1 h2 h3 => treeEdit_key E (root' := root') (n' := n') ht hq hn h1 h2 h3 hc' he'
    rcases (hX hq hn rfl).tree with ⟨hx, _⟩ | ⟨cs, hcs, hx, _⟩
    · have e1 : treeAfter root x = root := after_none hx
      have e3 : y' = y := by simp only [y', y, e1]
      rw [e3, e1]
      rcases (hY hq hn rfl).tree with ⟨hy, _⟩ | ⟨ds, hds, hy, _⟩
      · have e2 : treeAfter root y = root := after_none hy
        have e4 : x' = x := by simp only [x', x, e2]
        rw [e4, e2]
        exact ⟨rfl, rfl, e1.symm⟩
      · have e2 : treeAfter root y = withKids root q (rwFirst t ds n.children) := after_some hy
        obtain ⟨p1, p2⟩ := withKids_place ha hq hn (rwFirst t ds n.children)
        rw [← e2] at p1 p2
        have := hX p1 p2 (firstKey_rw hne.symm hds _)
        refine ⟨rfl, this.answer.symm, ?_⟩
        rcases this.tree with ⟨_, f⟩ | ⟨cs, _, f, _⟩
        · exact (after_none f).symm
        · rw [hx] at f; cases f
    · have e1 : treeAfter root x = withKids root q (rwFirst s cs n.children) := after_some hx
      obtain ⟨p1, p2⟩ := withKids_place ha hq hn (rwFirst s cs n.children)
      rw [← e1] at p1 p2
      have hy' := hY p1 p2 (firstKey_rw hne hcs _)
      rcases hy'.tree with ⟨f1, f2⟩ | ⟨ds, hds, f1, f2⟩
      · have e2 : treeAfter root y = root := after_none f1
        have e4 : x' = x := by simp only [x', x, e2]
        rw [e4, e2]
        exact ⟨hy'.answer.symm, rfl, after_none f2⟩
      · have e2 : treeAfter root y = withKids root q (rwFirst t ds n.children) := after_some f1
        obtain ⟨q1, q2⟩ := withKids_place ha hq hn (rwFirst t ds n.children)
        rw [← e2] at q1 q2
        have hx' := hX q1 q2 (firstKey_rw hne.symm hds _)
        refine ⟨hy'.answer.symm, hx'.answer.symm, ?_⟩
        have twice : ∀ ks ks', withKids (withKids root q ks) q ks' = withKids root q ks' := by
          intro ks ks'
          unfold withKids
          rw [updateAt_comp]
          rfl
        have same : ∀ ks ks', withKids root q ks = withKids root q ks' → ks = ks' := by
          intro ks ks' h
          have h1 := (withKids_place ha hq hn ks).2
          rw [h, (withKids_place ha hq hn ks').2] at h1
          injection h1 with h1
          injection h1 with _ _ h1
          exact h1.symm
        rcases hx'.tree with ⟨g1, _⟩ | ⟨cs', hcs', g1, g2⟩
        · rw [hx] at g1; cases g1
        · have a1 : treeAfter (treeAfter root x) y' = withKids (treeAfter root x) q (rwFirst t ds (rwFirst s cs n.children)) := after_some f2
          have a2 : treeAfter (treeAfter root y) x' = withKids (treeAfter root y) q (rwFirst s cs' (rwFirst t ds n.children)) := after_some g2
          rw [a1, a2, e1, e2, twice, twice]
          congr 1
          have : rwFirst s cs n.children = rwFirst s cs' n.children := same _ _ (by rw [hx] at g1; injection g1)
          rw [rwFirst_comm hne hcs' hds, this]

/-! ## A new key and an edit at another key of the section -/

theorem rwFirst_append {t : Str} {ds new : List Node} (hnew : ∀ c ∈ new, c.value ≠ .str t) : ∀ l : List Node,
    rwFirst t ds (l ++ new) = rwFirst t ds l ++ new
  | [] => by
    have : ∀ l : List Node, (∀ c ∈ l, c.value ≠ .str t) → rwFirst t ds l = l := by
      intro l
      induction l with
      | nil => intro _; rfl
      | cons c l ih =>
        intro h
        simp [rwFirst, h c (by simp), ih (fun x hx => h x (by simp [hx]))]
    simp [rwFirst, this new hnew]
  | c :: l => by
    by_cases h : c.value = .str t
    · simp [rwFirst, h]
    · simp [rwFirst, h, rwFirst_append hnew l]

theorem firstKey_besideNew {t : Str} {new : List Node} (hnew : ∀ c ∈ new, c.value ≠ .str t) (l : List Node) :
    firstKey t (l ++ new) = firstKey t l := by
  have : new.find? (fun c => decide (c.value = .str t)) = none := by
    rw [List.find?_eq_none]
    intro x hx
    simp [hnew x hx]
  simp [firstKey, List.find?_append, this]

theorem rwFirst_length (t : Str) (ds : List Node) : ∀ l : List Node, l.length ≤ (rwFirst t ds l).length + 1
  | [] => by simp [rwFirst]
  | c :: l => by
    have := rwFirst_length t ds l
    by_cases h : c.value = .str t
    · simp [rwFirst, h]
    · simp only [rwFirst, if_neg h, List.length_cons]; omega

theorem treeEdit_newKey (E : Env) {root n : Node} {a : List Str} {q : Pos} {s : Str} (v : PyVal) (ha : endsInNumber a = false)
    (hs : isDigitS s = false) (hd : s ≠ §"-") (he : s ≠ []) (hq : locate root a = some q) (hn : nodeAt root q = some n)
    (hk : firstKey s n.children = none) (hb : bareValue n = false) :
    treeEdit E root (a ++ [s]) (.add v) = if v = .sentinel then (.error .jsonPatchValidation, none) else
      match newNodes E (.dict [(s, v)]) with
      | .error e => (.error e, none)
      | .ok new => (.ok (.success true), some (withKids root q (n.children ++ new))) := by
  have hl : locate root (a ++ [s]) = none := by
    rw [locate_concat, hq]; simp [hn, (childIdx_firstKey hs).2 hk]
  have hadd : patchAdd E root (rootValue :: (a ++ [s])) v =
      (newNodes E (.dict [(s, v)])).map fun new => some (updateAt (fun n => { n with children := n.children ++ new }) q root) := by
    unfold patchAdd
    simp only [generateSubtree_eq, target_new hl hq hn (Or.inl ha) hs hd, bind, Except.bind, hn, valid_none, hb]
    simp only [Bool.not_false, Bool.not_true, Bool.false_eq_true, if_false, ne_eq, he, not_false_iff, if_true,
      Option.isSome_none, Bool.or_self, or_true]
    cases newNodes E (.dict [(s, v)]) <;> rfl
  simp only [treeEdit, hadd]
  split
  · rfl
  · cases newNodes E (.dict [(s, v)]) with
    | error e => rfl
    | ok new =>
      simp only [Except.map, Option.isSome_some]
      unfold withKids
      rw [updateAt_const _ hn, updateAt_const (fun x => { x with children := n.children ++ new }) hn]

theorem treeEdit_newAndKey (E : Env) {root n : Node} {a rest' : List Str} {s t : Str} {v : PyVal} {e' : Edit}
    (ha : endsInNumber a = false) (hs : isDigitS s = false) (hd : s ≠ §"-") (ht : isDigitS t = false) (hne : s ≠ t)
    (hl : lookup root a = some n) (hnew : ∀ c ∈ n.children, c.value ≠ .str s)
    (hstay : n.listMember = true ∨ n.key = true ∨ 2 ≤ n.children.length)
    (hfresh : ∀ new, newNodes E (.dict [(s, v)]) = .ok new → ∀ c ∈ new, c.value ≠ .str t)
    (hc : ∀ c ∈ a ++ [s], Component c) (hc' : ∀ c ∈ (a ++ [t]) ++ rest', Component c) (he' : e'.AtKey rest') :
    let x := treeEdit E root (a ++ [s]) (.add v)
    let y := treeEdit E root ((a ++ [t]) ++ rest') e'
    let y' := treeEdit E (treeAfter root x) ((a ++ [t]) ++ rest') e'
    let x' := treeEdit E (treeAfter root y) (a ++ [s]) (.add v)
    y'.1 = y.1 ∧ x'.1 = x.1 ∧ treeAfter (treeAfter root x) y' = treeAfter (treeAfter root y) x' := by
  intro x y y' x'
  rw [← locate_lookup] at hl
  cases hq : locate root a with
  | none => rw [hq] at hl; cases hl
  | some q =>
    rw [hq, Option.bind_some] at hl
    have hn : nodeAt root q = some n := hl
    have hs0 : s ≠ [] := (hc s (by simp)).1
    have hk : firstKey s n.children = none := by
      rw [firstKey, List.find?_eq_none]
      intro c hc
      simp [hnew c hc]
    have bare : ∀ ks : List Node, n.children.length ≤ ks.length + 1 → bareValue { n with children := ks } = false := by
      intro ks hks
      rcases hstay with h | h | h
      · simp [bareValue, h]
      · simp [bareValue, h]
      · have : ks ≠ [] := by intro h0; subst h0; simp at hks; omega
        simp [bareValue, Node.isLeaf, this]
    have hX := treeEdit_newKey E v ha hs hd hs0 hq hn hk (bare n.children (by omega))
    have hY := fun {root' n' : Node} h1 h2 h3 => treeEdit_key E (root' := root') (n' := n') ht hq hn h1 h2 h3 hc' he'
    have hX' : ∀ {root' n' : Node}, locate root' a = some q → nodeAt root' q = some n' → firstKey s n'.children = none →
        bareValue n' = false → _ := fun {root' n'} h1 h2 h3 h4 => treeEdit_newKey E (root := root') (n := n') v ha hs hd hs0 h1 h2 h3 h4
    have hx : x = _ := hX
    by_cases hv : v = .sentinel
    · rw [if_pos hv] at hx
      have e1 : treeAfter root x = root := by rw [hx]; rfl
      have e3 : y' = y := by simp only [y', y, e1]
      have hx' : x' = (.error .jsonPatchValidation, none) := by simp only [x', treeEdit, if_pos hv]
      rw [e3, e1, hx', hx]
      exact ⟨rfl, rfl, rfl⟩
    · rw [if_neg hv] at hx
      cases hnn : newNodes E (.dict [(s, v)]) with
      | error err =>
        rw [hnn] at hx
        have e1 : treeAfter root x = root := by rw [hx]; rfl
        have e3 : y' = y := by simp only [y', y, e1]
        have hx' : x' = (.error err, none) := by
          rcases (hY hq hn rfl).tree with ⟨hy, _⟩ | ⟨ds, hds, hy, _⟩
          · have e2 : treeAfter root y = root := after_none hy
            simp only [x', e2]; exact hx
          · have e2 : treeAfter root y = withKids root q (rwFirst t ds n.children) := after_some hy
            obtain ⟨p1, p2⟩ := withKids_place ha hq hn (rwFirst t ds n.children)
            rw [← e2] at p1 p2
            have := hX' p1 p2 (by rw [← hk]; exact firstKey_rw hne.symm hds _) (bare _ (rwFirst_length _ _ _))
            rw [if_neg hv, hnn] at this
            exact this
        rw [e3, e1, hx', hx]
        exact ⟨rfl, rfl, rfl⟩
      | ok new =>
        rw [hnn] at hx
        have hf := hfresh new hnn
        have e1 : treeAfter root x = withKids root q (n.children ++ new) := by rw [hx]; rfl
        obtain ⟨p1, p2⟩ := withKids_place ha hq hn (n.children ++ new)
        rw [← e1] at p1 p2
        have hy' := hY p1 p2 (firstKey_besideNew hf _)
        have twice : ∀ ks ks', withKids (withKids root q ks) q ks' = withKids root q ks' := by
          intro ks ks'
          unfold withKids
          rw [updateAt_comp]
          rfl
        rcases hy'.tree with ⟨f1, f2⟩ | ⟨ds, hds, f1, f2⟩
        · have e2 : treeAfter root y = root := after_none f1
          have e4 : x' = x := by simp only [x', x, e2]
          rw [e4, e2]
          exact ⟨hy'.answer.symm, rfl, after_none f2⟩
        · have e2 : treeAfter root y = withKids root q (rwFirst t ds n.children) := after_some f1
          obtain ⟨q1, q2⟩ := withKids_place ha hq hn (rwFirst t ds n.children)
          rw [← e2] at q1 q2
          have hx' : x' = _ := hX' q1 q2 (by rw [← hk]; exact firstKey_rw hne.symm hds _) (bare _ (rwFirst_length _ _ _))
          rw [if_neg hv, hnn] at hx'
          refine ⟨hy'.answer.symm, by rw [hx', hx], ?_⟩
          have a1 : treeAfter (treeAfter root x) y' = withKids (treeAfter root x) q (rwFirst t ds (n.children ++ new)) := after_some f2
          have a2 : treeAfter (treeAfter root y) x' = withKids (treeAfter root y) q (rwFirst t ds n.children ++ new) := by
            rw [hx']; rfl
          rw [a1, a2, e1, e2, twice, twice, rwFirst_append hf]

/-! ## Two edits -/

theorem calls_commute (E : Env) (r : Recipe) {c c' : List Str} (hne : c ≠ []) (hne' : c' ≠ []) (e e' : Edit)
    (hc : ∀ x ∈ c, Component x) (hc' : ∀ x ∈ c', Component x)
    (h : let x := treeEdit E r.root c e
      let y := treeEdit E r.root c' e'
      let y' := treeEdit E (treeAfter r.root x) c' e'
      let x' := treeEdit E (treeAfter r.root y) c e
      y'.1 = y.1 ∧ x'.1 = x.1 ∧ treeAfter (treeAfter r.root x) y' = treeAfter (treeAfter r.root y) x') :
    let first := e.call E (absPath c) r
    let second := e'.call E (absPath c') first.2
    let first' := e'.call E (absPath c') r
    let second' := e.call E (absPath c) first'.2
    second.1 = first'.1 ∧ second'.1 = first.1 ∧ Restored second.2 second'.2 := by
  intro first second first' second'
  have d1 := call_does E r hne hc e
  have d2 := call_does E r hne' hc' e'
  have d3 := call_does E first.2 hne' hc' e'
  have d4 := call_does E first'.2 hne hc e
  have e1 : first.2.root = treeAfter r.root (treeEdit E r.root c e) := d1.root
  have e2 : first'.2.root = treeAfter r.root (treeEdit E r.root c' e') := d2.root
  obtain ⟨h1, h2, h3⟩ := h
  rw [← e1] at h1 h3
  rw [← e2] at h2 h3
  refine ⟨d3.answer.trans (h1.trans d2.answer.symm), d4.answer.trans (h2.trans d1.answer.symm), restored_of ?_ ?_ ?_⟩
  · exact d4.root.trans (h3.symm.trans d3.root.symm)
  · rw [d4.vars, d2.vars, d3.vars, d1.vars]
  · rw [d4.schema, d2.schema, d3.schema, d1.schema]

/-- C115: two edits at independent places answer the same in either order, and leave the same recipe. -/
theorem C115_two_edits_partial (E : Env) (r : Recipe) (a rest rest' : List Str) (s t : Str) (e e' : Edit) (ha : Apart r.root a s t)
    (hc : ∀ c ∈ a ++ s :: rest, Component c) (hc' : ∀ c ∈ a ++ t :: rest', Component c) (he : e.Within rest) (he' : e'.Within rest') :
    let first := e.call E (absPath (a ++ s :: rest)) r
    let second := e'.call E (absPath (a ++ t :: rest')) first.2
    let first' := e'.call E (absPath (a ++ t :: rest')) r
    let second' := e.call E (absPath (a ++ s :: rest)) first'.2
    second.1 = first'.1 ∧ second'.1 = first.1 ∧ Restored second.2 second'.2 := by
  have hs : a ++ s :: rest = (a ++ [s]) ++ rest := by simp
  have ht : a ++ t :: rest' = (a ++ [t]) ++ rest' := by simp
  refine calls_commute E r (by simp) (by simp) e e' hc hc' ?_
  rw [hs] at hc
  rw [ht] at hc'
  rw [hs, ht]
  exact treeEdit_beside E ha hc hc' he he'

/-- C115: the same for two keys of one section, which may also be removed. -/
theorem C115_two_keys_partial (E : Env) (r : Recipe) (a rest rest' : List Str) (s t : Str) (e e' : Edit) (ha : endsInNumber a = false)
    (hs : isDigitS s = false) (ht : isDigitS t = false) (hne : s ≠ t)
    (hc : ∀ c ∈ a ++ s :: rest, Component c) (hc' : ∀ c ∈ a ++ t :: rest', Component c) (he : e.AtKey rest) (he' : e'.AtKey rest') :
    let first := e.call E (absPath (a ++ s :: rest)) r
    let second := e'.call E (absPath (a ++ t :: rest')) first.2
    let first' := e'.call E (absPath (a ++ t :: rest')) r
    let second' := e.call E (absPath (a ++ s :: rest)) first'.2
    second.1 = first'.1 ∧ second'.1 = first.1 ∧ Restored second.2 second'.2 := by
  have h1 : a ++ s :: rest = (a ++ [s]) ++ rest := by simp
  have h2 : a ++ t :: rest' = (a ++ [t]) ++ rest' := by simp
  refine calls_commute E r (by simp) (by simp) e e' hc hc' ?_
  rw [h1] at hc
  rw [h2] at hc'
  rw [h1, h2]
  exact treeEdit_keys E ha hs ht hne hc hc' he he'

/-- C115: the same for a new key of a section and an edit at another key of it, as long as the section is still there. -/
theorem C115_new_key_partial (E : Env) (r : Recipe) (a rest' : List Str) (s t : Str) (v : PyVal) (e' : Edit) (n : Node)
    (ha : endsInNumber a = false) (hs : isDigitS s = false) (hd : s ≠ §"-") (ht : isDigitS t = false) (hne : s ≠ t)
    (hn : lookup r.root a = some n) (hnew : ∀ c ∈ n.children, c.value ≠ .str s)
    (hstay : n.listMember = true ∨ n.key = true ∨ 2 ≤ n.children.length)
    (hfresh : ∀ new, newNodes E (.dict [(s, v)]) = .ok new → ∀ c ∈ new, c.value ≠ .str t)
    (hc : ∀ c ∈ a ++ [s], Component c) (hc' : ∀ c ∈ a ++ t :: rest', Component c) (he' : e'.AtKey rest') :
    let first := (Edit.add v).call E (absPath (a ++ [s])) r
    let second := e'.call E (absPath (a ++ t :: rest')) first.2
    let first' := e'.call E (absPath (a ++ t :: rest')) r
    let second' := (Edit.add v).call E (absPath (a ++ [s])) first'.2
    second.1 = first'.1 ∧ second'.1 = first.1 ∧ Restored second.2 second'.2 := by
  have h2 : a ++ t :: rest' = (a ++ [t]) ++ rest' := by simp
  refine calls_commute E r (by simp) (by simp) (.add v) e' hc hc' ?_
  rw [h2] at hc'
  rw [h2]
  exact treeEdit_newAndKey E ha hs hd ht hne hn hnew hstay hfresh hc hc' he'

/-! ## Any number of edits -/

theorem partAtKeys_symm {x y : PlacedEdit} (h : PartAtKeys x y) : PartAtKeys y x := by
  obtain ⟨a, s, t, rest, rest', h1, h2, h3, h4, h5, h6⟩ := h
  refine ⟨a, t, s, rest', rest, h2, h1, h4, h3, h5.symm, ?_⟩
  rcases h6 with ⟨h6, h7⟩ | ⟨h0, h6, h7⟩
  · exact Or.inl ⟨h7, h6⟩
  · exact Or.inr ⟨h0, h7, h6⟩

theorem restored_trans {a b c : Recipe} (h : Restored a b) (h' : Restored b c) : Restored a c :=
  ⟨h'.lines.trans h.lines, h'.variables.trans h.variables, h'.format.trans h.format, h'.text.trans h.text⟩

theorem restored_refl (a : Recipe) : Restored a a := ⟨rfl, rfl, rfl, rfl⟩

theorem editAll_same (E : Env) : ∀ (l : List PlacedEdit), (∀ x ∈ l, x.1 ≠ [] ∧ ∀ c ∈ x.1, Component c) → ∀ {r r' : Recipe},
    Restored r r' → (editAll E r' l).1 = (editAll E r l).1 ∧ Restored (editAll E r l).2 (editAll E r' l).2
  | [], _, _, _, h => ⟨rfl, h⟩
  | x :: l, hl, r, r', h => by
    obtain ⟨g1, g2⟩ := hl x (by simp)
    obtain ⟨k1, k2⟩ := call_same E h g1 g2 x.2
    obtain ⟨k3, k4⟩ := editAll_same E l (fun y hy => hl y (by simp [hy])) k2
    simp only [editAll, k1, k3]
    exact ⟨trivial, k4⟩

/-- C115: any number of edits at places that part at different keys give the same answers and the same recipe in any order. -/
theorem C115_any_order_partial (E : Env) (r : Recipe) (l l' : List PlacedEdit) (hp : l.Perm l') (hl : l.Pairwise PartAtKeys)
    (hc : ∀ x ∈ l, x.1 ≠ [] ∧ ∀ c ∈ x.1, Component c) :
    (editAll E r l).1.Perm (editAll E r l').1 ∧ Restored (editAll E r l).2 (editAll E r l').2 := by
  induction hp generalizing r with
  | nil => exact ⟨List.Perm.refl _, restored_refl _⟩
  | cons x hp ih =>
    obtain ⟨k1, k2⟩ := ih (x.2.call E (absPath x.1) r).2 (List.pairwise_cons.1 hl).2 (fun y hy => hc y (by simp [hy]))
    exact ⟨List.Perm.cons _ k1, k2⟩
  | swap x y l =>
    rw [List.pairwise_cons] at hl
    obtain ⟨a, s, t, rest, rest', h1, h2, h3, h4, h5, h6⟩ := hl.1 x (by simp)
    have hy := (hc y (by simp)).2
    have hx := (hc x (by simp)).2
    rw [h1] at hy
    rw [h2] at hx
    have : let first := y.2.call E (absPath y.1) r
        let second := x.2.call E (absPath x.1) first.2
        let first' := x.2.call E (absPath x.1) r
        let second' := y.2.call E (absPath y.1) first'.2
        second.1 = first'.1 ∧ second'.1 = first.1 ∧ Restored second.2 second'.2 := by
      rw [h1, h2]
      rcases h6 with ⟨h6, h7⟩ | ⟨h0, h6, h7⟩
      · exact C115_two_edits_partial E r a rest rest' s t y.2 x.2 (Or.inl ⟨h3, h4, h5⟩) hy hx h6 h7
      · exact C115_two_keys_partial E r a rest rest' s t y.2 x.2 h0 h3 h4 h5 hy hx h6 h7
    obtain ⟨k1, k2, k3⟩ := this
    obtain ⟨k4, k5⟩ := editAll_same E l (fun z hz => hc z (by simp [hz])) k3
    simp only [editAll, k1, k2, k4]
    exact ⟨List.Perm.swap _ _ _, k5⟩
  | trans hp1 hp2 ih1 ih2 =>
    obtain ⟨k1, k2⟩ := ih1 r hl hc
    have hl2 := (hp1.pairwise_iff partAtKeys_symm).1 hl
    obtain ⟨k3, k4⟩ := ih2 r hl2 (fun x hx => hc x (hp1.mem_iff.2 hx))
    exact ⟨k1.trans k3, restored_trans k2 k4⟩

/-! ## Variables -/

/-- C115: setting a variable and an edit anywhere. -/
theorem C115_set_variable (E : Env) (r : Recipe) (comps : List Str) (e : Edit) (k : Str) (v : PyVal) (hne : comps ≠ [])
    (hc : ∀ c ∈ comps, Component c) :
    (e.call E (absPath comps) (r.setVariable k v)).1 = (e.call E (absPath comps) r).1 ∧
      Restored ((e.call E (absPath comps) r).2.setVariable k v) (e.call E (absPath comps) (r.setVariable k v)).2 := by
  have d := call_does E r hne hc e
  have d' := call_does E (r.setVariable k v) hne hc e
  have hr : (r.setVariable k v).root = r.root := rfl
  rw [hr] at d'
  refine ⟨d'.answer.trans d.answer.symm, restored_of ?_ ?_ ?_⟩
  · rw [d'.root, hr]; exact d.root.symm
  · rw [d'.vars]; simp only [Recipe.setVariable, d.vars]
  · rw [d'.schema]; exact d.schema.symm

theorem delVariable_fields (r : Recipe) (k : Str) : (r.delVariable k).root = r.root ∧ (r.delVariable k).schema = r.schema ∧
    (r.delVariable k).vars = if (lookupD k r.vars).isNone then r.vars else eraseD k r.vars := by
  unfold Recipe.delVariable
  split <;> exact ⟨rfl, rfl, rfl⟩

/-- C115: deleting a variable and an edit anywhere. -/
theorem C115_delete_variable (E : Env) (r : Recipe) (comps : List Str) (e : Edit) (k : Str) (hne : comps ≠ [])
    (hc : ∀ c ∈ comps, Component c) :
    (e.call E (absPath comps) (r.delVariable k)).1 = (e.call E (absPath comps) r).1 ∧
      Restored ((e.call E (absPath comps) r).2.delVariable k) (e.call E (absPath comps) (r.delVariable k)).2 := by
  have d := call_does E r hne hc e
  have d' := call_does E (r.delVariable k) hne hc e
  obtain ⟨g1, g2, g3⟩ := delVariable_fields r k
  obtain ⟨k1, k2, k3⟩ := delVariable_fields (e.call E (absPath comps) r).2 k
  rw [g1] at d'
  refine ⟨d'.answer.trans d.answer.symm, restored_of ?_ ?_ ?_⟩
  · rw [d'.root, k1, d.root, g1]
  · rw [d'.vars, g3, k3, d.vars]
  · rw [d'.schema, k2, g2, d.schema]

theorem insertD_comm {k k' : Str} (v v' : PyVal) (hne : k ≠ k') : ∀ d : List (Str × PyVal), lookupD k d ≠ none →
    insertD k v (insertD k' v' d) = insertD k' v' (insertD k v d)
  | [], h => absurd rfl h
  | (l, w) :: d, h => by
    by_cases h1 : l = k
    · subst h1
      simp [insertD, hne]
    · by_cases h2 : l = k'
      · subst h2
        simp [insertD, h1]
      · have : lookupD k d ≠ none := by simpa [lookupD, h1] using h
        simp [insertD, h1, h2, insertD_comm v v' hne d this]

theorem lookupD_insertD_ne {k k' : Str} (v : PyVal) (hne : k ≠ k') : ∀ d : List (Str × PyVal), lookupD k (insertD k' v d) = lookupD k d
  | [] => by simp [insertD, lookupD, hne.symm]
  | (l, w) :: d => by
    by_cases h2 : l = k'
    · subst h2; simp [insertD, lookupD, hne.symm]
    · simp [insertD, lookupD, h2, lookupD_insertD_ne v hne d]

theorem eraseD_insertD_ne {k k' : Str} (v : PyVal) (hne : k ≠ k') : ∀ d : List (Str × PyVal),
    (lookupD k d).isSome → eraseD k (insertD k' v d) = insertD k' v (eraseD k d)
  | [], h => by simp [lookupD] at h
  | (l, w) :: d, h => by
    by_cases h1 : l = k
    · subst h1; simp [insertD, eraseD, hne]
    · by_cases h2 : l = k'
      · subst h2; simp [insertD, eraseD, h1]
      · have : (lookupD k d).isSome := by simpa [lookupD, h1] using h
        simp [insertD, eraseD, h1, h2, eraseD_insertD_ne v hne d this]

theorem eraseD_comm {k k' : Str} : ∀ d : List (Str × PyVal), eraseD k (eraseD k' d) = eraseD k' (eraseD k d)
  | [] => rfl
  | (l, w) :: d => by
    by_cases h1 : l = k
    · by_cases h2 : l = k'
      · subst h1; subst h2; rfl
      · subst h1; simp [eraseD, h2]
    · by_cases h2 : l = k'
      · subst h2; simp [eraseD, h1]
      · simp [eraseD, h1, h2, eraseD_comm d]

theorem lookupD_eraseD_ne {k k' : Str} (hne : k ≠ k') : ∀ d : List (Str × PyVal), lookupD k (eraseD k' d) = lookupD k d
  | [] => rfl
  | (l, w) :: d => by
    by_cases h2 : l = k'
    · subst h2; simp [eraseD, lookupD, hne.symm]
    · simp [eraseD, lookupD, h2, lookupD_eraseD_ne hne d]

/-- C115: setting two variables of which the recipe has one already. -/
theorem C115_two_variables_partial (r : Recipe) (k k' : Str) (v v' : PyVal) (hne : k ≠ k') (h : r.containsVariable k = true) :
    (r.setVariable k v).setVariable k' v' = (r.setVariable k' v').setVariable k v := by
  have : lookupD k r.vars ≠ none := by
    intro h0; simp [Recipe.containsVariable, h0] at h
  simp only [Recipe.setVariable, insertD_comm v v' hne r.vars this]

/-- C115: setting a variable and deleting another. -/
theorem C115_set_and_delete (r : Recipe) (k k' : Str) (v : PyVal) (hne : k ≠ k') :
    Restored ((r.setVariable k v).delVariable k') ((r.delVariable k').setVariable k v) := by
  obtain ⟨g1, g2, g3⟩ := delVariable_fields r k'
  obtain ⟨k1, k2, k3⟩ := delVariable_fields (r.setVariable k v) k'
  refine restored_of (by rw [k1]; exact g1) ?_ (by rw [k2]; exact g2)
  rw [k3]
  simp only [Recipe.setVariable, g3, lookupD_insertD_ne v hne.symm]
  cases h : lookupD k' r.vars with
  | none => rfl
  | some w => simp [eraseD_insertD_ne v hne.symm r.vars (by rw [h]; rfl)]

/-- C115: deleting two variables. -/
theorem C115_two_deletions (r : Recipe) (k k' : Str) (hne : k ≠ k') :
    Restored ((r.delVariable k).delVariable k') ((r.delVariable k').delVariable k) := by
  obtain ⟨a1, a2, a3⟩ := delVariable_fields r k
  obtain ⟨b1, b2, b3⟩ := delVariable_fields r k'
  obtain ⟨c1, c2, c3⟩ := delVariable_fields (r.delVariable k) k'
  obtain ⟨d1, d2, d3⟩ := delVariable_fields (r.delVariable k') k
  refine restored_of (by rw [c1, d1, a1, b1]) ?_ (by rw [c2, d2, a2, b2])
  rw [c3, d3, a3, b3]
  cases h : lookupD k r.vars with
  | none =>
    cases h' : lookupD k' r.vars with
    | none => simp [h, h']
    | some w' => simp [h, h', lookupD_eraseD_ne hne]
  | some w =>
    cases h' : lookupD k' r.vars with
    | none => simp [h, h', lookupD_eraseD_ne hne.symm]
    | some w' => simp [h, h', lookupD_eraseD_ne hne, lookupD_eraseD_ne hne.symm, eraseD_comm r.vars]

/-! ## Cases that meet the hypotheses -/

namespace CommuteExample

/-- A list of entries of several lines. -/
def entries : Recipe := Toy.recipe "l:\n  - x: 1\n    y: 2\n  - x: 3\n    y: 4\n"

theorem plainEntry {r : Recipe} {path : List Str}
    (h : (match lookup r.root path with | some m => m.isCollectionElement && decide (m.comment = []) | none => false) = true) :
    PlainEntry r.root path := by
  cases hm : lookup r.root path with
  | none => rw [hm] at h; cases h
  | some m =>
    rw [hm] at h
    simp only [Bool.and_eq_true, decide_eq_true_eq] at h
    exact ⟨m, hm, h.1, h.2⟩

example : Apart entries.root [§"l"] §"0" §"1" :=
  Or.inr ⟨by decide, by decide, by decide, plainEntry (by decide +kernel), plainEntry (by decide +kernel)⟩
example : ((.remove : Edit).Within [§"y"]) ∧ ((.replace (.str §"foo") : Edit).Within [§"x"]) := ⟨by simp [Edit.Within], trivial⟩
example : (Edit.remove.call Toy.env (absPath [§"l", §"0", §"y"])
      ((Edit.replace (.str §"foo")).call Toy.env (absPath [§"l", §"1", §"x"]) entries).2).2.render =
    §"l:\n  - x: 1\n  - x: foo\n    y: 4\n" := by decide +kernel
example : ((Edit.replace (.str §"foo")).call Toy.env (absPath [§"l", §"1", §"x"])
      (Edit.remove.call Toy.env (absPath [§"l", §"0", §"y"]) entries).2).2.render =
    §"l:\n  - x: 1\n  - x: foo\n    y: 4\n" := by decide +kernel

/-- Edits in two sections. -/
def inSections : List PlacedEdit := [([§"a", §"title"], .add (.str §"foo")), ([§"l", §"0"], .remove)]

example : inSections.Pairwise PartAtKeys := by
  refine List.pairwise_cons.2 ⟨?_, by simp⟩
  intro y hy
  simp only [List.mem_cons, List.not_mem_nil, or_false] at hy
  subst hy
  exact ⟨[], §"a", §"l", [§"title"], [§"0"], rfl, rfl, by decide, by decide, by decide,
    Or.inl ⟨by simp [Edit.Within], by simp [Edit.Within]⟩⟩
example : (editAll Toy.env exPatch inSections).2.render = §"a:\n  x: 1\n  title: foo\n\nl:\n  - q\n" := by decide +kernel
example : (editAll Toy.env exPatch inSections.reverse).2.render = §"a:\n  x: 1\n  title: foo\n\nl:\n  - q\n" := by decide +kernel

/-- A key is removed from a section and another one changed. -/
def twoKeys : Recipe := Toy.recipe "a:\n  x: 1\n  y: 2\n  z: 3\n"

example : endsInNumber [§"a"] = false ∧ isDigitS §"x" = false ∧ isDigitS §"z" = false ∧ Edit.remove.AtKey [] ∧
    (Edit.replace (.str §"foo")).AtKey [] := ⟨by decide, by decide, by decide, trivial, trivial⟩
example : (Edit.remove.call Toy.env (absPath [§"a", §"x"])
      ((Edit.replace (.str §"foo")).call Toy.env (absPath [§"a", §"z"]) twoKeys).2).2.render = §"a:\n  y: 2\n  z: foo\n" := by decide +kernel
example : ((Edit.replace (.str §"foo")).call Toy.env (absPath [§"a", §"z"])
      (Edit.remove.call Toy.env (absPath [§"a", §"x"]) twoKeys).2).2.render = §"a:\n  y: 2\n  z: foo\n" := by decide +kernel

/-- A key is added to a section and another one removed. -/
example : (match lookup twoKeys.root [§"a"] with
    | some n => n.key && n.children.all (fun c => decide (c.value ≠ .str §"title")) | none => false) = true := by decide +kernel
example : ((newNodes Toy.env (.dict [(§"title", .str §"foo")])).map fun new =>
    new.map fun c => decide (c.value = .str §"title")).toOption = some [true] := by decide +kernel
example : (Edit.remove.call Toy.env (absPath [§"a", §"x"])
      ((Edit.add (.str §"foo")).call Toy.env (absPath [§"a", §"title"]) twoKeys).2).2.render =
    §"a:\n  y: 2\n  z: 3\n  title: foo\n" := by decide +kernel
example : ((Edit.add (.str §"foo")).call Toy.env (absPath [§"a", §"title"])
      (Edit.remove.call Toy.env (absPath [§"a", §"x"]) twoKeys).2).2.render =
    §"a:\n  y: 2\n  z: 3\n  title: foo\n" := by decide +kernel

end CommuteExample

/-! ## Edits whose order matters -/

/-- C115: two new keys of one section end in the order of the additions, though neither addition depends on the other. -/
theorem C115_new_keys_violation :
    ((Edit.add (.str §"foo")).call Toy.env §"/a/name"
      ((Edit.add (.str §"foo")).call Toy.env §"/a/title" exPatch).2).2.render =
      §"a:\n  x: 1\n  title: foo\n  name: foo\n\nl:\n  - p\n  - q\n" ∧
    ((Edit.add (.str §"foo")).call Toy.env §"/a/title"
      ((Edit.add (.str §"foo")).call Toy.env §"/a/name" exPatch).2).2.render =
      §"a:\n  x: 1\n  name: foo\n  title: foo\n\nl:\n  - p\n  - q\n" := ⟨by decide +kernel, by decide +kernel⟩

/-- C115: the second of two items cannot be removed any more once the first is removed; in the other order both can. -/
theorem C115_same_list_violation :
    ((Edit.remove.call Toy.env §"/l/1" (Edit.remove.call Toy.env §"/l/0" exPatch).2).1.toOption = some (.success false)) ∧
    ((Edit.remove.call Toy.env §"/l/0" (Edit.remove.call Toy.env §"/l/1" exPatch).2).1.toOption = some (.success true)) ∧
    (Edit.remove.call Toy.env §"/l/1" (Edit.remove.call Toy.env §"/l/0" exPatch).2).2.render = §"a:\n  x: 1\n\nl:\n  - q\n" ∧
    (Edit.remove.call Toy.env §"/l/0" (Edit.remove.call Toy.env §"/l/1" exPatch).2).2.render = §"a:\n  x: 1\n\nl:\n" :=
  ⟨by decide +kernel, by decide +kernel, by decide +kernel, by decide +kernel⟩

/-- C115: two new variables are written in the order in which they were set. -/
theorem C115_new_variables_violation :
    ((exPatch.setVariable §"u" (.str §"1")).setVariable §"v" (.str §"2")).render =
      §"{% set u = \"1\" %}\n{% set v = \"2\" %}\n\na:\n  x: 1\n\nl:\n  - p\n  - q\n" ∧
    ((exPatch.setVariable §"v" (.str §"2")).setVariable §"u" (.str §"1")).render =
      §"{% set v = \"2\" %}\n{% set u = \"1\" %}\n\na:\n  x: 1\n\nl:\n  - p\n  - q\n" := ⟨by decide +kernel, by decide +kernel⟩

/-- C115: nothing can be added to a recipe whose last top-level key was removed; if it is added before, the key can be removed. -/
theorem C115_emptied_violation :
    let one := Toy.recipe "a: 1\n"
    ((Edit.add (.str §"foo")).call Toy.env §"/title" (Edit.remove.call Toy.env §"/a" one).2).1.toOption = some (.success false) ∧
    ((Edit.add (.str §"foo")).call Toy.env §"/title" one).1.toOption = some (.success true) ∧
    (Edit.remove.call Toy.env §"/a" one).1.toOption = some (.success true) ∧
    (Edit.remove.call Toy.env §"/a" ((Edit.add (.str §"foo")).call Toy.env §"/title" one).2).2.render = §"title: foo\n" :=
  ⟨by decide +kernel, by decide +kernel, by decide +kernel, by decide +kernel⟩

end Crm
