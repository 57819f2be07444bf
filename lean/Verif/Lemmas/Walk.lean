import Verif.Spec.Walk
import Verif.Lemmas.Traverse
import Verif.Lemmas.Path

/-! Lemmas about visiting all nodes of a tree. -/

namespace Crm
open Spec

theorem regularL_iff (cs : List Node) : regularL cs = true ↔ ∀ c ∈ cs, regular c = true := by
  induction cs with
  | nil => simp [regularL]
  | cons c cs ih => simp [regularL, ih]

theorem regular_iff (n : Node) :
    regular n = true ↔ (∀ c ∈ n.children, properChild n.children c = true) ∧ ∀ c ∈ n.children, regular c = true := by
  obtain ⟨v, c, cs, l, m, k⟩ := n
  simp [regular, regularL_iff]

theorem leavesL_eq (cs : List Node) : leavesL cs = cs.flatMap leaves := by
  induction cs with
  | nil => rfl
  | cons c cs ih => simp [leavesL, ih]

theorem visitL_eq (p : List Str) (is : List Nat) (cs : List Node) :
    visitL p is cs = (is.zip cs).flatMap fun vc => visit (some p) vc.1 vc.2 := by
  induction cs generalizing is with
  | nil => cases is <;> rfl
  | cons c cs ih =>
    cases is with
    | nil => rfl
    | cons i is => simp [visitL, ih]

theorem visit_eq (p : Option (List Str)) (i : Nat) (n : Node) :
    visit p i n = (n, visitPath p i n) :: visitL (visitPath p i n) (physToVirt n.children) n.children := by
  obtain ⟨v, c, cs, l, m, k⟩ := n
  simp [visit]

mutual
theorem visit_leaves : ∀ (n : Node) (p : Option (List Str)) (i : Nat),
    ((visit p i n).filter (·.1.isLeaf)).map (·.1) = leaves n
  | ⟨v, c, cs, l, m, k⟩, p, i => by
    simp only [visit, leaves, List.filter_cons]
    have := visitL_leaves cs (visitPath p i ⟨v, c, cs, l, m, k⟩) (physToVirt cs) (physToVirt_length cs)
    split <;> simp [this]
theorem visitL_leaves : ∀ (cs : List Node) (p : List Str) (is : List Nat), is.length = cs.length →
    ((visitL p is cs).filter (·.1.isLeaf)).map (·.1) = leavesL cs
  | [], p, is, _ => by cases is <;> rfl
  | c :: cs, p, is, h => by
    cases is with
    | nil => cases h
    | cons i is =>
      simp only [visitL, leavesL, List.filter_append, List.map_append, visit_leaves c, visitL_leaves cs p is (by simpa using h)]
end

/-- What is in the zip of virtual indices and children. -/
theorem mem_zip_virt {cs : List Node} {i : Nat} {c : Node} (h : (i, c) ∈ (physToVirt cs).zip cs) :
    ∃ j, cs[j]? = some c ∧ i = if real c then (cs.take j).countP real else 0 := by
  obtain ⟨j, hj⟩ := List.getElem?_of_mem h
  rw [List.getElem?_zip_eq_some] at hj
  obtain ⟨h1, h2⟩ := hj
  have hlt : j < cs.length := (List.getElem?_eq_some_iff.1 h2).1
  have := physToVirt_getElem? cs j hlt
  rw [h1] at this
  have h3 : cs[j] = c := (List.getElem?_eq_some_iff.1 h2).2
  rw [h3] at this
  injection this with this
  exact ⟨j, h2, this⟩

theorem filter_real_get (cs : List Node) (j : Nat) (c : Node) (h : cs[j]? = some c) (hr : real c = true) :
    (cs.filter real)[(cs.take j).countP real]? = some c := by
  have hlt : j < cs.length := (List.getElem?_eq_some_iff.1 h).1
  have h3 : cs[j] = c := (List.getElem?_eq_some_iff.1 h).2
  have hd : cs = cs.take j ++ c :: cs.drop (j + 1) := by
    rw [← h3]; simp
  have e : cs.filter real = (cs.take j).filter real ++ c :: (cs.drop (j + 1)).filter real := by
    conv => lhs; rw [hd]
    rw [List.filter_append, List.filter_cons, hr]; rfl
  rw [e, List.countP_eq_length_filter, List.getElem?_append_right (Nat.le_refl _), Nat.sub_self]
  rfl

/-- The component that names a child in paths. -/
def compOf (i : Nat) (c : Node) : Str := if c.listMember then natStr i else pyStr c.value

/-- A leaf that takes no component of its own. -/
def bare (c : Node) : Bool := !c.listMember && (!c.key && c.isLeaf)

theorem visitPath_some (p : List Str) (i : Nat) (c : Node) (hc : real c = true) (hp : c.listMember = true ∨ c.key = true ∨ c.isLeaf = true) :
    visitPath (some p) i c = if bare c then p else p ++ [compOf i c] := by
  unfold visitPath bare compOf Node.isEmptyKey
  rcases hb : c.listMember with _ | _ <;> rcases hk : c.key with _ | _ <;> rcases hl : c.isLeaf with _ | _ <;> simp_all

theorem properChild_cases {cs : List Node} {c : Node} (h : properChild cs c = true) (hr : real c = true) :
    c.listMember = true ∨ (c.listMember = false ∧ c.key = true ∧ ∃ k, c.value = .str k ∧ Component k ∧ isDigitS k = false ∧
      cs.countP (fun d => decide (d.value = c.value)) = 1) ∨ (bare c = true ∧ cs.countP real = 1) := by
  simp only [properChild, Bool.or_eq_true, Bool.and_eq_true, beq_iff_eq, Bool.not_eq_true'] at h
  have hc : c.isComment = false := by simpa [real] using hr
  rcases hl : c.listMember with _ | _
  · right
    rcases h with ((h | h) | h) | h
    · rw [hc] at h; cases h
    · rw [hl] at h; cases h
    · obtain ⟨⟨h1, h2⟩, h3⟩ := h
      left
      refine ⟨rfl, h1, ?_⟩
      unfold goodName at h2
      split at h2
      · rename_i k hk
        simp only [Bool.and_eq_true, decide_eq_true_eq, Bool.not_eq_true'] at h2
        exact ⟨k, hk, h2.1, h2.2, h3⟩
      · cases h2
    · right
      exact ⟨by simp [bare, hl, h.1.1, h.1.2], h.2⟩
  · exact Or.inl rfl

theorem find_of_countP_one {cs : List Node} {p : Node → Bool} {j : Nat} {c : Node} (hj : cs[j]? = some c) (hc : p c = true)
    (h1 : cs.countP p = 1) : cs.find? p = some c := by
  induction cs generalizing j with
  | nil => simp at hj
  | cons d ds ih =>
    rw [List.countP_cons] at h1
    by_cases hd : p d = true
    · rw [List.find?_cons_of_pos hd]
      cases j with
      | zero => simpa using hj
      | succ j =>
        simp only [List.getElem?_cons_succ] at hj
        rw [if_pos hd] at h1
        have : ds.countP p = 0 := by omega
        rw [List.countP_eq_zero] at this
        exact absurd hc (this c (List.mem_of_getElem? hj))
    · rw [List.find?_cons_of_neg hd]
      cases j with
      | zero => simp only [List.getElem?_cons_zero, Option.some.injEq] at hj; subst hj; exact absurd hc hd
      | succ j =>
        simp only [List.getElem?_cons_succ] at hj
        rw [if_neg hd] at h1
        exact ih hj (by omega)

/-- A named child is found under its name. -/
theorem child_compOf {n c : Node} {j i : Nat} (hj : n.children[j]? = some c) (hr : real c = true)
    (hi : i = if real c then (n.children.take j).countP real else 0) (hp : properChild n.children c = true)
    (hb : bare c = false) : child n (compOf i c) = some c ∧ Component (compOf i c) := by
  rw [if_pos hr] at hi
  rcases properChild_cases hp hr with h | ⟨h1, h2, k, h3, h4, h5, h6⟩ | ⟨h, _⟩
  · unfold compOf child
    rw [if_pos h, if_pos (isDigitS_natStr i), natOfStr_natStr, hi, filter_real_get _ _ _ hj hr]
    exact ⟨by simp [h], natStr_ne_nil _, natStr_no_slash _⟩
  · have hk : compOf i c = k := by unfold compOf; rw [if_neg (by simp [h1]), h3]; rfl
    unfold child
    rw [hk, if_neg (by simp [h5])]
    refine ⟨?_, h4⟩
    have : (fun d : Node => pyEq d.value (.str k)) = fun d => decide (d.value = c.value) := by
      funext d
      rw [h3, Bool.eq_iff_iff, pyEq_str]; simp
    rw [this]
    exact find_of_countP_one hj (by simp) h6
  · rw [hb] at h; cases h

theorem comment_no_leaves {c : Node} (h : real c = false) : leaves c = [] := by
  have hc : c.isComment = true := by simpa [real] using h
  obtain ⟨v, cm, cs, l, m, k⟩ := c
  have h2 : cs = [] := by simp [Node.isComment] at hc; exact hc.2
  subst h2
  simp [leaves, leavesL, Node.isLeaf, hc]

theorem mem_visit_leaf {p : Option (List Str)} {i : Nat} {n m : Node} {q : List Str} (h : (m, q) ∈ visit p i n) (hl : m.isLeaf = true) :
    m ∈ leaves n := by
  rw [← visit_leaves n p i]
  exact List.mem_map.2 ⟨(m, q), List.mem_filter.2 ⟨h, hl⟩, rfl⟩

theorem real_of_leaf {p : Option (List Str)} {i : Nat} {n m : Node} {q : List Str} (h : (m, q) ∈ visit p i n) (hl : m.isLeaf = true) :
    real n = true := by
  cases hr : real n with
  | true => rfl
  | false => have := mem_visit_leaf h hl; rw [comment_no_leaves hr] at this; cases this

/-- The path of a leaf below a regular node leads to it, or to its key if it is a bare value. -/
theorem visitL_path (n : Node) (hreg : regular n = true) (p : List Str) (m : Node) (q : List Str)
    (h : (m, q) ∈ visitL p (physToVirt n.children) n.children) (hl : m.isLeaf = true) :
    ∃ s, q = p ++ s ∧ (∀ c ∈ s, Component c) ∧
      ((bare m = false ∧ s ≠ [] ∧ lookup n s = some m) ∨ (bare m = true ∧ ∃ x, lookup n s = some x ∧ m ∈ x.children)) := by
  rw [visitL_eq, List.mem_flatMap] at h
  obtain ⟨⟨i, c⟩, hz, hv⟩ := h
  obtain ⟨j, hj, hi⟩ := mem_zip_virt hz
  have hmem : c ∈ n.children := List.mem_of_getElem? hj
  obtain ⟨h1, h2⟩ := (regular_iff n).1 hreg
  have hr : real c = true := real_of_leaf hv hl
  have hpc := properChild_cases (h1 c hmem) hr
  have hkind : c.listMember = true ∨ c.key = true ∨ c.isLeaf = true := by
    rcases hpc with h | h | h
    · exact Or.inl h
    · exact Or.inr (Or.inl h.2.1)
    · refine Or.inr (Or.inr ?_)
      have := h.1; simp only [bare, Bool.and_eq_true] at this; exact this.2.2
  have hvp := visitPath_some p i c hr hkind
  simp only at hv
  rw [visit_eq] at hv
  by_cases hb : bare c = true
  · rw [if_pos hb] at hvp
    have hleaf : c.isLeaf = true := by simp only [bare, Bool.and_eq_true] at hb; exact hb.2.2
    have hcs : c.children = [] := by simp only [Node.isLeaf, Bool.and_eq_true, List.isEmpty_iff] at hleaf; exact hleaf.1
    rw [hvp, hcs] at hv
    have : visitL p (physToVirt []) [] = [] := rfl
    rw [this, List.mem_singleton] at hv
    injection hv with e1 e2
    subst e1 e2
    exact ⟨[], by simp, by simp, Or.inr ⟨hb, n, rfl, hmem⟩⟩
  · have hb' : bare c = false := by simpa using hb
    rw [if_neg hb] at hvp
    obtain ⟨hch, hcomp⟩ := child_compOf hj hr hi (h1 c hmem) hb'
    rw [hvp] at hv
    rcases List.mem_cons.1 hv with hv | hv
    · injection hv with e1 e2
      subst e1 e2
      refine ⟨[compOf i m], rfl, by simp [hcomp], Or.inl ⟨hb', by simp, ?_⟩⟩
      simp [lookup, hch]
    · obtain ⟨s, hs, hsc, hres⟩ := visitL_path c (h2 c hmem) (p ++ [compOf i c]) m q hv hl
      refine ⟨compOf i c :: s, by rw [hs]; simp, ?_, ?_⟩
      · intro x hx
        rcases List.mem_cons.1 hx with rfl | hx
        · exact hcomp
        · exact hsc x hx
      · simp only [lookup, hch, Option.bind_some]
        rcases hres with ⟨a, _, b⟩ | h
        · exact Or.inl ⟨a, by simp, b⟩
        · exact Or.inr h
termination_by sizeOf n
decreasing_by
  have := List.sizeOf_lt_of_mem hmem
  obtain ⟨v, c, cs, l, m, k⟩ := n
  simp only at this
  simp only [Node.mk.sizeOf_spec]
  omega

theorem prefix_visitPath (p : List Str) (i : Nat) (n : Node) : p <+: visitPath (some p) i n := by
  unfold visitPath
  simp only
  repeat' split
  all_goals simp

mutual
theorem visit_prefix : ∀ (n : Node) (p : Option (List Str)) (i : Nat) (m : Node) (q : List Str), (m, q) ∈ visit p i n →
    visitPath p i n <+: q
  | ⟨v, c, cs, l, ml, k⟩, p, i, m, q, h => by
    simp only [visit, List.mem_cons, Prod.mk.injEq] at h
    rcases h with ⟨_, h⟩ | h
    · rw [h]; exact List.prefix_refl _
    · exact visitL_prefix cs _ _ m q h
theorem visitL_prefix : ∀ (cs : List Node) (p : List Str) (is : List Nat) (m : Node) (q : List Str), (m, q) ∈ visitL p is cs →
    p <+: q
  | [], p, is, m, q, h => by cases is <;> cases h
  | c :: cs, p, [], m, q, h => by cases h
  | c :: cs, p, i :: is, m, q, h => by
    simp only [visitL, List.mem_append] at h
    rcases h with h | h
    · exact (prefix_visitPath p i c).trans (visit_prefix c (some p) i m q h)
    · exact visitL_prefix cs p is m q h
end

theorem countP_lt_of_get {cs : List Node} {i j : Nat} {c : Node} {f : Node → Bool} (hi : cs[i]? = some c) (hf : f c = true) (hij : i < j) :
    (cs.take i).countP f < (cs.take j).countP f := by
  have hlt : i < cs.length := (List.getElem?_eq_some_iff.1 hi).1
  have h3 : cs[i] = c := (List.getElem?_eq_some_iff.1 hi).2
  have e : cs.take j = cs.take i ++ c :: (cs.take j).drop (i + 1) := by
    have h := (List.take_append_drop i (cs.take j)).symm
    have hl : i < (cs.take j).length := by simp; omega
    have := List.drop_eq_getElem_cons hl
    simp only [List.getElem_take, h3] at this
    rw [this, List.take_take, Nat.min_eq_left (Nat.le_of_lt hij)] at h
    exact h
  rw [e, List.countP_append, List.countP_cons, if_pos hf]; omega

theorem countP_two {cs : List Node} {i j : Nat} {c d : Node} {f : Node → Bool} (hi : cs[i]? = some c) (hf : f c = true)
    (hij : i < j) (hj : cs[j]? = some d) (hg : f d = true) : 2 ≤ cs.countP f := by
  have h1 := countP_lt_of_get hi hf hij
  have h2 := countP_lt_of_get hj hg (show j < j + 1 by omega)
  have h3 : (cs.take (j + 1)).countP f ≤ cs.countP f := (List.take_sublist _ _).countP_le
  omega

theorem prefix_ne {p a b : List Str} {x y : Str} (h : x ≠ y) (ha : p ++ [x] <+: a) (hb : p ++ [y] <+: b) : a ≠ b := by
  rintro rfl
  obtain ⟨s, rfl⟩ := ha
  obtain ⟨t, ht⟩ := hb
  simp only [List.append_assoc, List.append_cancel_left_eq, List.cons_append, List.nil_append, List.cons.injEq] at ht
  exact h ht.1.symm

/-- No two leaves below a regular node have the same path. -/
theorem visitL_nodup (n : Node) (hreg : regular n = true) (p : List Str) :
    (((visitL p (physToVirt n.children) n.children).filter (·.1.isLeaf)).map (·.2)).Nodup := by
  rw [visitL_eq, List.filter_flatMap, List.map_flatMap]
  unfold List.Nodup
  obtain ⟨h1, h2⟩ := (regular_iff n).1 hreg
  rw [List.pairwise_flatMap]
  constructor
  · rintro ⟨i, c⟩ hz
    have hmem : c ∈ n.children := (List.of_mem_zip hz).2
    have ih := visitL_nodup c (h2 c hmem) (visitPath (some p) i c)
    simp only
    rw [visit_eq, List.filter_cons]
    split
    · rename_i hl
      have hcs : c.children = [] := by
        simp only [Node.isLeaf, Bool.and_eq_true, List.isEmpty_iff] at hl; exact hl.1
      rw [hcs]
      simp [visitL_eq]
    · exact ih
  · rw [List.pairwise_iff_getElem]
    intro j k hj hk hjk x hx y hy
    obtain ⟨⟨i1, c1⟩, hc1⟩ : ∃ z, ((physToVirt n.children).zip n.children)[j] = z := ⟨_, rfl⟩
    obtain ⟨⟨i2, c2⟩, hc2⟩ : ∃ z, ((physToVirt n.children).zip n.children)[k] = z := ⟨_, rfl⟩
    rw [hc1] at hx
    rw [hc2] at hy
    simp only [List.mem_map, List.mem_filter] at hx hy
    obtain ⟨⟨m1, q1⟩, ⟨hv1, hl1⟩, e1⟩ := hx
    obtain ⟨⟨m2, q2⟩, ⟨hv2, hl2⟩, e2⟩ := hy
    simp only at e1 e2
    subst e1 e2
    have r1 := real_of_leaf hv1 hl1
    have r2 := real_of_leaf hv2 hl2
    have g1 : ((physToVirt n.children).zip n.children)[j]? = some (i1, c1) := List.getElem?_eq_some_iff.2 ⟨hj, hc1⟩
    have g2 : ((physToVirt n.children).zip n.children)[k]? = some (i2, c2) := List.getElem?_eq_some_iff.2 ⟨hk, hc2⟩
    rw [List.getElem?_zip_eq_some] at g1 g2
    have hcount := countP_two g1.2 r1 hjk g2.2 r2
    have key : ∀ {c : Node}, c ∈ n.children → real c = true →
        bare c = false ∧ (c.listMember = true ∨ c.key = true ∨ c.isLeaf = true) := by
      intro c hc hr
      rcases hp : bare c with _ | _
      · refine ⟨rfl, ?_⟩
        rcases properChild_cases (h1 c hc) hr with h | h | h
        · exact Or.inl h
        · exact Or.inr (Or.inl h.2.1)
        · rw [hp] at h; cases h.1
      · rcases properChild_cases (h1 c hc) hr with h | h | h
        · simp [bare, h] at hp
        · simp [bare, h.2.1] at hp
        · omega
    have m1' : c1 ∈ n.children := List.mem_of_getElem? g1.2
    have m2' : c2 ∈ n.children := List.mem_of_getElem? g2.2
    have k1 := key m1' r1
    have k2 := key m2' r2
    have p1 := visit_prefix c1 (some p) i1 m1 q1 hv1
    have p2 := visit_prefix c2 (some p) i2 m2 q2 hv2
    rw [visitPath_some p i1 c1 r1 k1.2, if_neg (by simp [k1.1])] at p1
    rw [visitPath_some p i2 c2 r2 k2.2, if_neg (by simp [k2.1])] at p2
    refine prefix_ne ?_ p1 p2
    have hi1 : i1 = (n.children.take j).countP real := by
      have := physToVirt_getElem? n.children j (List.getElem?_eq_some_iff.1 g1.2).1
      rw [(List.getElem?_eq_some_iff.1 g1.2).2, if_pos r1, g1.1] at this
      exact Option.some.inj this
    have hi2 : i2 = (n.children.take k).countP real := by
      have := physToVirt_getElem? n.children k (List.getElem?_eq_some_iff.1 g2.2).1
      rw [(List.getElem?_eq_some_iff.1 g2.2).2, if_pos r2, g2.1] at this
      exact Option.some.inj this
    have hlt : i1 ≠ i2 := by
      have := countP_lt_of_get (f := real) g1.2 r1 hjk
      omega
    rcases properChild_cases (h1 c1 m1') r1 with a1 | ⟨a1, _, s1, b1, _, d1, u1⟩ | a1
    · rcases properChild_cases (h1 c2 m2') r2 with a2 | ⟨a2, _, s2, b2, _, d2, u2⟩ | a2
      · simp only [compOf, a1, a2, if_true]
        exact fun h => hlt (natStr_injective h)
      · intro h
        simp only [compOf, a1, a2, if_true, b2, Bool.false_eq_true, if_false] at h
        have : isDigitS s2 = true := by
          have h' : natStr i1 = s2 := h
          rw [← h']; exact isDigitS_natStr i1
        rw [d2] at this; cases this
      · rw [k2.1] at a2; cases a2.1
    · rcases properChild_cases (h1 c2 m2') r2 with a2 | ⟨a2, _, s2, b2, _, d2, u2⟩ | a2
      · intro h
        simp only [compOf, a1, a2, if_true, b1, Bool.false_eq_true, if_false] at h
        have : isDigitS s1 = true := by
          have h' : s1 = natStr i2 := h
          rw [h']; exact isDigitS_natStr i2
        rw [d1] at this; cases this
      · intro h
        simp only [compOf, a1, a2, b1, b2, Bool.false_eq_true, if_false] at h
        have h' : s1 = s2 := h
        have := countP_two (f := fun d => decide (d.value = c1.value)) g1.2 (by simp) hjk g2.2 (by simp [b1, b2, h'])
        omega
      · rw [k2.1] at a2; cases a2.1
    · rw [k1.1] at a1; cases a1.1
termination_by sizeOf n
decreasing_by
  have := List.sizeOf_lt_of_mem hmem
  obtain ⟨v, c, cs, l, m, k⟩ := n
  simp only at this
  simp only [Node.mk.sizeOf_spec]
  omega

end Crm
