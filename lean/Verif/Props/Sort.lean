import Verif.Model.Sort
import Verif.Spec.Sort
import Verif.Lemmas.Frame
import Verif.Lemmas.Dict
import Verif.Lemmas.Patch
import Verif.Lemmas.SelTable
import Verif.Props.Queries

/-! # Canonical key sorting (C32) -/

namespace Crm
open Spec
universe u
variable {α : Type u}

/-- A key of the table. -/
def Spec.knownKey (tbl : List (Str × Nat)) (n : Node) : Bool :=
  match n.value with
  | .str s => tbl.any fun e => e.1 = s
  | _ => false

theorem insertByKey_perm (key : α → Int) (x : α) (l : List α) : (insertByKey key x l).Perm (x :: l) := by
  induction l with
  | nil => exact List.Perm.refl _
  | cons y ys ih =>
    unfold insertByKey
    split
    · exact (List.Perm.cons y ih).trans (List.Perm.swap x y ys)
    · exact List.Perm.refl _

theorem insertByKey_sorted (key : α → Int) (x : α) (l : List α) (h : l.Pairwise fun a b => key a ≤ key b) :
    (insertByKey key x l).Pairwise fun a b => key a ≤ key b := by
  induction l with
  | nil => simp [insertByKey]
  | cons y ys ih =>
    rw [List.pairwise_cons] at h
    unfold insertByKey
    split
    · rename_i hle
      rw [List.pairwise_cons]
      refine ⟨?_, ih h.2⟩
      intro b hb
      rcases List.mem_cons.1 ((insertByKey_perm key x ys).mem_iff.1 hb) with rfl | hb
      · exact hle
      · exact h.1 b hb
    · rename_i hlt
      rw [List.pairwise_cons, List.pairwise_cons]
      refine ⟨?_, h⟩
      intro b hb
      rcases List.mem_cons.1 hb with rfl | hb
      · omega
      · have := h.1 b hb; omega

theorem insertByKey_filter (key : α → Int) (x : α) (l : List α) (h : l.Pairwise fun a b => key a ≤ key b) (k : Int) :
    (insertByKey key x l).filter (fun y => key y = k) = l.filter (fun y => key y = k) ++ [x].filter (fun y => key y = k) := by
  induction l with
  | nil => simp [insertByKey]
  | cons y ys ih =>
    rw [List.pairwise_cons] at h
    unfold insertByKey
    split
    · rw [List.filter_cons, List.filter_cons, ih h.2]
      split <;> simp
    · rename_i hlt
      by_cases hk : key x = k
      · have hnone : (y :: ys).filter (fun z => key z = k) = [] := by
          rw [List.filter_eq_nil_iff]
          intro z hz
          simp only [decide_eq_true_eq]
          rcases List.mem_cons.1 hz with rfl | hz
          · omega
          · have := h.1 z hz; omega
        rw [List.filter_cons, hnone]
        simp [hk]
      · rw [List.filter_cons]
        simp [hk]

theorem sortByKeyGo_spec (key : α → Int) (acc xs : List α) (hacc : acc.Pairwise fun a b => key a ≤ key b) :
    StablySorted key (acc ++ xs) (sortByKeyGo key acc xs) := by
  induction xs generalizing acc with
  | nil => exact ⟨by simp [sortByKeyGo], by simpa [sortByKeyGo] using hacc, by simp [sortByKeyGo]⟩
  | cons x xs ih =>
    have := ih (insertByKey key x acc) (insertByKey_sorted key x acc hacc)
    unfold sortByKeyGo
    refine ⟨?_, this.sorted, ?_⟩
    · refine this.perm.trans ?_
      have h1 : (insertByKey key x acc ++ xs).Perm ((x :: acc) ++ xs) := (insertByKey_perm key x acc).append_right xs
      exact h1.trans (List.perm_middle.symm)
    · intro k
      rw [this.stable k, List.filter_append, insertByKey_filter key x acc hacc k, List.filter_append, List.append_assoc,
        ← List.filter_append]
      rfl

/-- C32: sorting is a stable sort. -/
theorem C32_stable_sort (key : α → Int) (xs : List α) : StablySorted key xs (sortByKey key xs) := by
  have := sortByKeyGo_spec key [] xs List.Pairwise.nil
  simpa [sortByKey] using this

/-- A stable sort is determined by its specification. -/
theorem C32_unique {key : α → Int} {a b c : List α} (h1 : StablySorted key a b) (h2 : StablySorted key a c) : b = c := by
  have hf : ∀ k, b.filter (fun x => key x = k) = c.filter (fun x => key x = k) := fun k => by rw [h1.stable, h2.stable]
  have hl : b.length = c.length := by rw [h1.perm.length_eq, h2.perm.length_eq]
  have hs1 := h1.sorted
  have hs2 := h2.sorted
  clear h1 h2
  induction b generalizing c with
  | nil => cases c with
    | nil => rfl
    | cons y c => simp at hl
  | cons x b ih =>
    cases c with
    | nil => simp at hl
    | cons y c =>
      rw [List.pairwise_cons] at hs1 hs2
      have hxy : key x = key y := by
        have hx : x ∈ (y :: c).filter (fun z => key z = key x) := by rw [← hf]; simp
        have hy : y ∈ (x :: b).filter (fun z => key z = key y) := by rw [hf]; simp
        have hx' := (List.mem_filter.1 hx).1
        have hy' := (List.mem_filter.1 hy).1
        rcases List.mem_cons.1 hx' with h | h
        · rw [h]
        · rcases List.mem_cons.1 hy' with h' | h'
          · rw [h']
          · have a1 := hs2.1 x h
            have a2 := hs1.1 y h'
            omega
      have h0 := hf (key x)
      rw [List.filter_cons, List.filter_cons] at h0
      simp only [decide_true, if_true, hxy, List.cons.injEq] at h0
      obtain ⟨rfl, _⟩ := h0
      congr 1
      apply ih
      · intro k
        have h1 := hf k
        rw [List.filter_cons, List.filter_cons] at h1
        split at h1
        · simpa using h1
        · exact h1
      · simpa using hl
      · exact hs1.2
      · exact hs2.2

/-- C32: sorting twice is sorting once. -/
theorem C32_idempotent (key : α → Int) (xs : List α) : sortByKey key (sortByKey key xs) = sortByKey key xs :=
  C32_unique (C32_stable_sort key (sortByKey key xs)) ⟨List.Perm.refl _, (C32_stable_sort key xs).sorted, fun _ => rfl⟩

theorem sortKey_comment {tbl : List (Str × Nat)} {n : Node} (h : n.isComment = true) : sortKey tbl n = -maxSize := by
  simp [sortKey, h]

theorem lookupD_any {tbl : List (Str × Nat)} {s : Str} : (lookupD s tbl).isSome = tbl.any fun e => e.1 = s := by
  induction tbl with
  | nil => rfl
  | cons e tbl ih =>
    obtain ⟨k, v⟩ := e
    by_cases h : k = s
    · simp [lookupD, h]
    · simp [lookupD, h, ih]

theorem sortKey_unknown {tbl : List (Str × Nat)} {n : Node} (h : n.isComment = false) (hk : knownKey tbl n = false) :
    sortKey tbl n = maxSize := by
  unfold sortKey
  rw [h]
  unfold knownKey at hk
  cases hv : n.value <;> simp only [Bool.false_eq_true, if_false]
  rename_i s
  rw [hv] at hk
  simp only at hk
  rw [← lookupD_any] at hk
  cases hl : lookupD s tbl with
  | none => rfl
  | some p => rw [hl] at hk; cases hk

theorem sortKey_known {tbl : List (Str × Nat)} {n : Node} (h : n.isComment = false) (hk : knownKey tbl n = true) :
    ∃ s p, n.value = .str s ∧ lookupD s tbl = some p ∧ sortKey tbl n = (p : Int) := by
  unfold knownKey at hk
  cases hv : n.value <;> rw [hv] at hk <;> simp only [Bool.false_eq_true] at hk
  rename_i s
  rw [← lookupD_any] at hk
  obtain ⟨p, hp⟩ := Option.isSome_iff_exists.1 hk
  refine ⟨s, p, rfl, hp, ?_⟩
  simp [sortKey, h, hv, hp]

theorem sorted_split (key : α → Int) (l : List α) (h : l.Pairwise fun a b => key a ≤ key b) (k : Int) :
    l = l.filter (fun x => key x ≤ k) ++ l.filter (fun x => ¬ key x ≤ k) := by
  induction l with
  | nil => rfl
  | cons x l ih =>
    rw [List.pairwise_cons] at h
    by_cases hx : key x ≤ k
    · rw [List.filter_cons, List.filter_cons]
      simp only [hx, decide_true, if_true, not_true_eq_false, decide_false, Bool.false_eq_true, if_false,
        List.cons_append, List.cons.injEq, true_and]
      exact ih h.2
    · have h1 : (x :: l).filter (fun y => key y ≤ k) = [] := by
        rw [List.filter_eq_nil_iff]
        intro z hz
        simp only [decide_eq_true_eq]
        rcases List.mem_cons.1 hz with rfl | hz
        · exact hx
        · have := h.1 z hz; omega
      have h2 : (x :: l).filter (fun y => ¬ key y ≤ k) = x :: l := by
        rw [List.filter_eq_self]
        intro z hz
        simp only [decide_eq_true_eq]
        rcases List.mem_cons.1 hz with rfl | hz
        · exact hx
        · have := h.1 z hz; omega
      rw [h1, h2]; rfl

/-- C32: sorted children come as comment lines in their old order, then keys of the table in the order of their numbers,
then all other children in their old order. -/
theorem C32_layout (tbl : List (Str × Nat)) (hsmall : ∀ e ∈ tbl, (e.2 : Int) < maxSize) (cs : List Node) :
    ∃ known, sortByKey (sortKey tbl) cs =
        cs.filter (·.isComment) ++ known ++ cs.filter (fun n => real n && !knownKey tbl n) ∧
      known.Perm (cs.filter fun n => real n && knownKey tbl n) ∧
      known.Pairwise fun a b => ∃ s t p q, a.value = .str s ∧ b.value = .str t ∧ lookupD s tbl = some p ∧
        lookupD t tbl = some q ∧ p ≤ q := by
  have hS := C32_stable_sort (sortKey tbl) cs
  generalize sortByKey (sortKey tbl) cs = out at hS
  have hmax : (0 : Int) < maxSize := by decide
  have hkey : ∀ n : Node, (n.isComment = true ∧ sortKey tbl n = -maxSize) ∨
      (n.isComment = false ∧ knownKey tbl n = true ∧ 0 ≤ sortKey tbl n ∧ sortKey tbl n < maxSize) ∨
      (n.isComment = false ∧ knownKey tbl n = false ∧ sortKey tbl n = maxSize) := by
    intro n
    cases hc : n.isComment with
    | true => exact Or.inl ⟨rfl, sortKey_comment hc⟩
    | false =>
      cases hk : knownKey tbl n with
      | true =>
        obtain ⟨s, p, _, h2, h3⟩ := sortKey_known hc hk
        refine Or.inr (Or.inl ⟨rfl, rfl, by rw [h3]; exact Int.natCast_nonneg p, ?_⟩)
        have hm : ∃ e ∈ tbl, e.2 = p := by
          clear hsmall hS hk
          induction tbl with
          | nil => cases h2
          | cons e tbl ih =>
            obtain ⟨k, v⟩ := e
            by_cases h : k = s
            · simp only [lookupD, h, if_true, Option.some.injEq] at h2
              exact ⟨(k, v), by simp, h2⟩
            · simp only [lookupD, h, if_false] at h2
              obtain ⟨e, he, hp⟩ := ih h2 (by simp [sortKey, hc, ‹n.value = .str s›, h2])
              exact ⟨e, by simp [he], hp⟩
        obtain ⟨e, he, rfl⟩ := hm
        rw [h3]; exact hsmall e he
      | false => exact Or.inr (Or.inr ⟨rfl, rfl, sortKey_unknown hc hk⟩)
  have s1 := sorted_split (sortKey tbl) out hS.sorted (-maxSize)
  have hrest : (out.filter fun x => ¬ sortKey tbl x ≤ -maxSize).Pairwise fun a b => sortKey tbl a ≤ sortKey tbl b :=
    hS.sorted.filter _
  have s2 := sorted_split (sortKey tbl) _ hrest (maxSize - 1)
  have f1 : out.filter (fun x => sortKey tbl x ≤ -maxSize) = cs.filter (·.isComment) := by
    have e1 : ∀ l : List Node, l.filter (fun x => sortKey tbl x ≤ -maxSize) = l.filter (fun x => sortKey tbl x = -maxSize) := by
      intro l
      apply List.filter_congr
      intro x _
      rcases hkey x with ⟨_, h⟩ | ⟨_, _, h, h'⟩ | ⟨_, _, h⟩ <;> simp only [decide_eq_decide] <;> omega
    rw [e1, hS.stable]
    apply List.filter_congr
    intro x _
    rcases hkey x with ⟨h0, h⟩ | ⟨h0, _, h, h'⟩ | ⟨h0, _, h⟩
    · simp [h0, h]
    · have : sortKey tbl x ≠ -maxSize := by omega
      simp [h0, this]
    · have : sortKey tbl x ≠ -maxSize := by omega
      simp [h0, this]
  have f3 : (out.filter fun x => ¬ sortKey tbl x ≤ -maxSize).filter (fun x => ¬ sortKey tbl x ≤ maxSize - 1) =
      cs.filter (fun n => real n && !knownKey tbl n) := by
    rw [List.filter_filter]
    have e1 : out.filter (fun x => decide (¬ sortKey tbl x ≤ maxSize - 1) && decide (¬ sortKey tbl x ≤ -maxSize)) =
        out.filter (fun x => sortKey tbl x = maxSize) := by
      apply List.filter_congr
      intro x _
      rw [← Bool.decide_and, decide_eq_decide]
      rcases hkey x with ⟨_, h⟩ | ⟨_, _, h, h'⟩ | ⟨_, _, h⟩ <;> omega
    rw [e1, hS.stable]
    apply List.filter_congr
    intro x _
    rcases hkey x with ⟨h0, h⟩ | ⟨h0, hk, h, h'⟩ | ⟨h0, hk, h⟩
    · have : sortKey tbl x ≠ maxSize := by omega
      simp [real, h0, this]
    · have : sortKey tbl x ≠ maxSize := by omega
      simp [hk, this]
    · simp [real, h0, hk, h]
  refine ⟨(out.filter fun x => ¬ sortKey tbl x ≤ -maxSize).filter (fun x => sortKey tbl x ≤ maxSize - 1), ?_, ?_, ?_⟩
  · rw [← f1, ← f3, List.append_assoc, ← s2]; exact s1
  · rw [List.filter_filter]
    have e1 : out.filter (fun x => decide (sortKey tbl x ≤ maxSize - 1) && decide (¬ sortKey tbl x ≤ -maxSize)) =
        out.filter (fun n => real n && knownKey tbl n) := by
      apply List.filter_congr
      intro x _
      rcases hkey x with ⟨h0, h⟩ | ⟨h0, hk, h, h'⟩ | ⟨h0, hk, h⟩
      · have : sortKey tbl x ≤ -maxSize := by omega
        simp [real, h0, this]
      · have a1 : ¬ sortKey tbl x ≤ -maxSize := by omega
        have a2 : sortKey tbl x ≤ maxSize - 1 := by omega
        simp [real, h0, hk, a1, a2]
      · have a2 : ¬ sortKey tbl x ≤ maxSize - 1 := by omega
        simp [hk, a2]
    rw [e1]
    exact hS.perm.filter _
  · have hp := hrest.filter (fun x => decide (sortKey tbl x ≤ maxSize - 1))
    refine hp.imp_of_mem ?_
    intro a b ha hb hab
    have get : ∀ x, x ∈ (out.filter fun x => ¬ sortKey tbl x ≤ -maxSize).filter (fun x => sortKey tbl x ≤ maxSize - 1) →
        x.isComment = false ∧ knownKey tbl x = true := by
      intro x hx
      simp only [List.mem_filter, decide_eq_true_eq] at hx
      rcases hkey x with ⟨h0, h⟩ | ⟨h0, hk, h, h'⟩ | ⟨h0, hk, h⟩
      · omega
      · exact ⟨h0, hk⟩
      · omega
    obtain ⟨ha1, ha2⟩ := get a ha
    obtain ⟨hb1, hb2⟩ := get b hb
    obtain ⟨s, p, e1, e2, e3⟩ := sortKey_known ha1 ha2
    obtain ⟨t, q, e4, e5, e6⟩ := sortKey_known hb1 hb2
    refine ⟨s, t, p, q, e1, e4, e2, e5, ?_⟩
    rw [e3, e6] at hab
    omega

/-- C32: the numbers of all tables are small enough. -/
theorem C32_tables_small : ∀ tbl ∈ [topLevelOrder, sourceOrder, buildOrder, testOrder, pythonTestOrder],
    (∀ e ∈ tbl, (e.2 : Int) < maxSize) ∧ (tbl.map (·.1)).Nodup ∧ tbl.Pairwise (fun a b => a.2 < b.2) := by
  decide

/-- C32: on a recipe, sorting at a path changes the order of the children there and nothing else. -/
theorem C32_sort_subtree (r : Recipe) (tbl : List (Str × Nat)) (comps : List Str) (hc : ∀ c ∈ comps, Component c)
    (hne : comps ≠ []) :
    match locate r.root comps with
    | none => r.sortSubtreeKeys (absPath comps) tbl = .ok r
    | some pos => ∃ root', r.sortSubtreeKeys (absPath comps) tbl = .ok { r with root := root' } ∧
        ChildrenChanged (StablySorted (sortKey tbl)) pos r.root root' := by
  unfold Recipe.sortSubtreeKeys
  rw [strToStack_absPath comps hne hc]
  simp only [bind, Except.bind, traverse_locate]
  cases h : locate r.root comps with
  | none => rfl
  | some pos =>
    simp only
    obtain ⟨m, hm⟩ := locate_valid h
    refine ⟨_, rfl, ?_⟩
    exact childrenChanged_updateAt (sortByKey (sortKey tbl)) _ hm (C32_stable_sort _ _)

/-- C32: renaming while sorting changes the name of the target as well. -/
theorem C32_rename (r : Recipe) (tbl : List (Str × Nat)) (path name : Str) (hn : name ≠ []) (stack : List Str)
    (hs : strToStack path = .ok stack) (pos : Pos) (hp : traverse r.root stack = some pos) (m : Node)
    (hm : nodeAt r.root pos = some m) :
    ∃ root', r.sortSubtreeKeys path tbl name = .ok { r with root := root' } ∧
      nodeAt root' pos = some { m with value := .str name, children := sortByKey (sortKey tbl) m.children } := by
  unfold Recipe.sortSubtreeKeys
  simp only [hs, bind, Except.bind, hp]
  refine ⟨_, rfl, ?_⟩
  rw [nodeAt_updateAt_self _ _ _ hm]
  simp [sortNode, hn]

theorem updateAt_same {f : Node → Node} : ∀ (pos : Pos) (n m : Node), nodeAt n pos = some m → f m = m → updateAt f pos n = n
  | [], n, m, h, hf => by injection h with h; subst h; exact hf
  | i :: pos, n, m, h, hf => by
    simp only [nodeAt] at h
    cases hc : n.children[i]? with
    | none => rw [hc] at h; cases h
    | some c =>
      rw [hc] at h
      have hc' := updateAt_same pos c m h hf
      have : n.children.modify i (updateAt f pos) = n.children := by
        apply List.ext_getElem?
        intro j
        rw [List.getElem?_modify]
        by_cases hj : i = j
        · subst hj; simp only [hc, if_true, Option.map_eq_map, Option.map_some, hc']
        · simp only [hj, if_false]; simp
      simp only [updateAt, this]
      cases n; rfl

/-- C32: sorting the same place again changes nothing. -/
theorem C32_sort_again (r r' : Recipe) (tbl : List (Str × Nat)) (comps : List Str) (hc : ∀ c ∈ comps, Component c)
    (hne : comps ≠ []) (h : r.sortSubtreeKeys (absPath comps) tbl = .ok r') :
    r'.sortSubtreeKeys (absPath comps) tbl = .ok r' := by
  have key : ∀ r : Recipe, r.sortSubtreeKeys (absPath comps) tbl = match locate r.root comps with
      | none => .ok r
      | some pos => .ok { r with root := updateAt (fun n => { n with children := sortByKey (sortKey tbl) n.children }) pos r.root } := by
    intro r
    unfold Recipe.sortSubtreeKeys
    rw [strToStack_absPath comps hne hc]
    simp only [bind, Except.bind, traverse_locate]
    cases locate r.root comps <;> rfl
  rw [key] at h ⊢
  cases hl : locate r.root comps with
  | none =>
    rw [hl] at h; injection h with h; subst h; rw [hl]
  | some pos =>
    rw [hl] at h
    injection h with h
    obtain ⟨m, hm⟩ := locate_valid hl
    have hn := nodeAt_updateAt_self (f := fun n => { n with children := sortByKey (sortKey tbl) n.children }) _ _ _ hm
    have hl' : locate r'.root comps = some pos := by
      rw [← h]
      refine locate_changed_self (childrenChanged_updateAt (sortByKey (sortKey tbl)) (StablySorted (sortKey tbl)) hm
        (C32_stable_sort _ _)) ?_ hl
      intro a b ha hb
      rw [hm] at ha
      rw [hn] at hb
      injection ha with ha
      injection hb with hb
      subst ha hb
      have : (sortByKey (sortKey tbl) m.children).isEmpty = m.children.isEmpty := by
        have := (C32_stable_sort (sortKey tbl) m.children).perm.length_eq
        rw [Bool.eq_iff_iff, List.isEmpty_iff_length_eq_zero, List.isEmpty_iff_length_eq_zero, this]
      simp only [Node.isComment, Node.isSentinel, this]
    rw [hl']
    simp only
    have := updateAt_same (f := fun n => { n with children := sortByKey (sortKey tbl) n.children }) pos
      (updateAt (fun n => { n with children := sortByKey (sortKey tbl) n.children }) pos r.root) _ hn
      (by simp only [C32_idempotent])
    rw [← h]
    simp only [this]

/-- The recipe used in the examples. -/
def exSort : Recipe := Toy.recipe "z: 1\n# c\nbuild: 2\npackage: 3\na: 4\n"

example : (exSort.sortSubtreeKeys §"/" topLevelOrder).map Recipe.render = .ok §"# c\npackage: 3\n\nbuild: 2\n\nz: 1\n\na: 4\n" := by
  decide +kernel

end Crm
