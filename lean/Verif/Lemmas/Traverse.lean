import Verif.Lemmas.Path
import Verif.Spec.Tree

namespace Crm
open Spec

/-! ### Index maps -/

theorem virtToPhysGo_shift (k : Nat) (cs : List Node) : virtToPhysGo k cs = (virtToPhysGo 0 cs).map (· + k) := by
  induction cs generalizing k with
  | nil => rfl
  | cons c cs ih =>
    simp only [virtToPhysGo]
    rw [ih (k + 1), ih (0 + 1)]
    split <;> simp [Function.comp_def, Nat.add_comm, Nat.add_left_comm]

theorem virtToPhys_cons (c : Node) (cs : List Node) :
    virtToPhys (c :: cs) = if c.isComment then (virtToPhys cs).map (· + 1) else 0 :: (virtToPhys cs).map (· + 1) := by
  simp only [virtToPhys, virtToPhysGo]
  rw [virtToPhysGo_shift (0 + 1)]

/-- Looking the children up through the map lists the non-comment children in order. -/
theorem virtToPhys_lookup (cs : List Node) : (virtToPhys cs).map (cs[·]?) = (cs.filter real).map some := by
  induction cs with
  | nil => rfl
  | cons c cs ih =>
    rw [virtToPhys_cons]
    by_cases h : c.isComment
    · simp [h, Spec.real, Function.comp_def]
      simpa [Spec.real] using ih
    · simp [h, Spec.real, Function.comp_def]
      simpa [Spec.real] using ih

theorem virtToPhys_length (cs : List Node) : (virtToPhys cs).length = cs.countP real := by
  have := congrArg List.length (virtToPhys_lookup cs)
  simpa [List.countP_eq_length_filter] using this

/-- `p` is entry `i` of the map exactly when child `p` is not a comment and has `i` non-comments in front of it. -/
theorem virtToPhys_getElem? (cs : List Node) (i p : Nat) :
    (virtToPhys cs)[i]? = some p ↔ (∃ c, cs[p]? = some c ∧ real c = true) ∧ (cs.take p).countP real = i := by
  induction cs generalizing i p with
  | nil => simp [virtToPhys, virtToPhysGo]
  | cons c cs ih =>
    rw [virtToPhys_cons]
    by_cases h : c.isComment
    · simp only [h, if_true, List.getElem?_map, Option.map_eq_some_iff]
      constructor
      · rintro ⟨q, hq, rfl⟩
        have := (ih i q).1 hq
        simpa [Spec.real, h] using this
      · rintro ⟨⟨d, hd, hr⟩, hcnt⟩
        cases p with
        | zero => simp at hd; subst hd; simp [Spec.real, h] at hr
        | succ q =>
          refine ⟨q, (ih i q).2 ⟨⟨d, by simpa using hd, hr⟩, ?_⟩, rfl⟩
          simpa [Spec.real, h] using hcnt
    · simp only [h]
      cases i with
      | zero =>
        simp only [Bool.false_eq_true, if_false, List.getElem?_cons_zero, Option.some.injEq]
        constructor
        · rintro rfl; simp [Spec.real, h]
        · rintro ⟨_, hcnt⟩
          cases p with
          | zero => rfl
          | succ q => simp [Spec.real, h] at hcnt
      | succ i =>
        simp only [Bool.false_eq_true, if_false, List.getElem?_cons_succ, List.getElem?_map, Option.map_eq_some_iff]
        constructor
        · rintro ⟨q, hq, rfl⟩
          have := (ih i q).1 hq
          simpa [Spec.real, h] using this
        · rintro ⟨⟨d, hd, hr⟩, hcnt⟩
          cases p with
          | zero => simp at hcnt
          | succ q =>
            refine ⟨q, (ih i q).2 ⟨⟨d, by simpa using hd, hr⟩, ?_⟩, rfl⟩
            simpa [Spec.real, h] using hcnt

theorem foldl_set_length (l : List (Nat × Nat)) (acc : List Nat) :
    (l.foldl (fun acc pi => acc.set pi.1 pi.2) acc).length = acc.length := by
  induction l generalizing acc with
  | nil => rfl
  | cons x xs ih => simp [ih]

theorem foldl_set_getElem? (l : List (Nat × Nat)) (acc : List Nat) (q : Nat) (hq : q < acc.length)
    (hnd : (l.map (·.1)).Nodup) :
    (l.foldl (fun acc pi => acc.set pi.1 pi.2) acc)[q]? =
      some (match l.find? (fun pi => pi.1 == q) with | some pi => pi.2 | none => acc[q]) := by
  induction l generalizing acc with
  | nil => simp [hq]
  | cons x xs ih =>
    obtain ⟨a, b⟩ := x
    simp only [List.map_cons, List.nodup_cons] at hnd
    simp only [List.foldl_cons]
    rw [ih _ (by simpa using hq) hnd.2]
    by_cases h : a = q
    · subst h
      have : xs.find? (fun pi => pi.1 == a) = none := by
        rw [List.find?_eq_none]
        intro y hy hya
        exact hnd.1 (List.mem_map.2 ⟨y, hy, by simpa using hya⟩)
      simp [this]
    · simp [h]

theorem physToVirt_length (cs : List Node) : (physToVirt cs).length = cs.length := by
  simp [physToVirt, foldl_set_length]

theorem virtToPhys_nodup (cs : List Node) : (virtToPhys cs).Nodup := by
  induction cs with
  | nil => simp [virtToPhys, virtToPhysGo]
  | cons c cs ih =>
    rw [virtToPhys_cons]
    have h1 : ((virtToPhys cs).map (· + 1)).Nodup := by
      refine List.Pairwise.map _ ?_ ih
      intro a b h; omega
    split
    · exact h1
    · simp only [List.nodup_cons]
      exact ⟨by simp, h1⟩

theorem physToVirt_getElem? (cs : List Node) (p : Nat) (hp : p < cs.length) :
    (physToVirt cs)[p]? = some (if real cs[p] then (cs.take p).countP real else 0) := by
  unfold physToVirt
  rw [foldl_set_getElem? _ _ _ (by simpa using hp)]
  · congr 1
    cases hf : List.find? (fun pi => pi.1 == p) (virtToPhys cs).zipIdx with
    | some pi =>
      obtain ⟨a, b⟩ := pi
      have h1 := List.find?_some hf
      have h2 := List.mem_of_find?_eq_some hf
      simp at h1; subst h1
      rw [List.mk_mem_zipIdx_iff_getElem?] at h2
      obtain ⟨⟨c, hc, hr⟩, hcnt⟩ := (virtToPhys_getElem? cs b a).1 h2
      rw [List.getElem?_eq_getElem hp] at hc
      injection hc with hc
      simp only [hc, hr, if_true]; exact hcnt.symm
    | none =>
      simp only [List.getElem_replicate]
      split
      · rename_i hr
        exfalso
        have h2 := (virtToPhys_getElem? cs ((cs.take p).countP real) p).2
          ⟨⟨cs[p], List.getElem?_eq_getElem hp, hr⟩, rfl⟩
        rw [List.find?_eq_none] at hf
        have := hf (p, (cs.take p).countP real) (by rw [List.mk_mem_zipIdx_iff_getElem?]; exact h2)
        simp at this
      · rfl
  · simpa using virtToPhys_nodup cs

/-! ### Stripping comments -/

theorem stripCommentsL_eq (cs : List Node) : stripCommentsL cs = (cs.filter real).map stripComments := by
  induction cs with
  | nil => rfl
  | cons c cs ih =>
    simp only [stripCommentsL]
    by_cases h : c.isComment <;> simp [h, Spec.real, ih]

theorem strip_children (n : Node) : (stripComments n).children = (n.children.filter real).map stripComments := by
  cases n; simp [stripComments, stripCommentsL_eq]

theorem strip_value (n : Node) : (stripComments n).value = n.value := by cases n; simp [stripComments]
theorem strip_listMember (n : Node) : (stripComments n).listMember = n.listMember := by cases n; simp [stripComments]
theorem strip_comment (n : Node) : (stripComments n).comment = n.comment := by cases n; simp [stripComments]
theorem strip_key (n : Node) : (stripComments n).key = n.key := by cases n; simp [stripComments]
theorem strip_multiline (n : Node) : (stripComments n).multiline = n.multiline := by cases n; simp [stripComments]
theorem strip_sentinel (n : Node) : (stripComments n).isSentinel = n.isSentinel := by
  simp [Node.isSentinel, strip_value]

theorem commentsProper_child {n c : Node} (h : commentsProper n = true) (hc : c ∈ n.children) :
    commentsProper c = true := by
  have key : ∀ cs : List Node, commentsProperL cs = true → ∀ c ∈ cs, commentsProper c = true := by
    intro cs
    induction cs with
    | nil => intro _ c hc; simp at hc
    | cons d ds ih =>
      intro h c hc
      simp only [commentsProperL, Bool.and_eq_true] at h
      rcases List.mem_cons.1 hc with rfl | hc
      · exact h.1
      · exact ih h.2 c hc
  cases n with
  | mk v co cs l m k =>
    simp only [commentsProper, Bool.and_eq_true] at h
    exact key cs h.2 c hc

theorem strip_isComment {n : Node} (h : commentsProper n = true) : (stripComments n).isComment = n.isComment := by
  have hs := strip_sentinel n
  have hco := strip_comment n
  have hch := strip_children n
  cases n with
  | mk v co cs l m k =>
    simp only [commentsProper, Bool.and_eq_true, Bool.or_eq_true, Bool.not_eq_true'] at h
    simp only [Node.isComment]
    rw [hs, hco, hch]
    rcases h.1 with ((h1 | h1) | h1) | h1
    · simp [h1]
    · simp [h1]
    · have : cs = [] := by simpa using h1
      simp [this]
    · obtain ⟨d, hd, hr⟩ := List.any_eq_true.1 h1
      have e1 : cs.isEmpty = false := by cases cs <;> simp_all
      have e2 : ((cs.filter real).map stripComments).isEmpty = false := by
        have : d ∈ cs.filter real := List.mem_filter.2 ⟨hd, hr⟩
        cases hf : cs.filter real with
        | nil => rw [hf] at this; simp at this
        | cons => rfl
      simp [e1, e2]

theorem strip_filter_real {n : Node} (h : commentsProper n = true) :
    (stripComments n).children.filter real = (stripComments n).children := by
  rw [List.filter_eq_self, strip_children]
  intro a ha
  obtain ⟨c, hc, rfl⟩ := List.mem_map.1 ha
  obtain ⟨hc1, hc2⟩ := List.mem_filter.1 hc
  simp only [Spec.real] at hc2 ⊢
  rw [strip_isComment (commentsProper_child h hc1)]; exact hc2

theorem virtToPhys_child (cs : List Node) (i : Nat) :
    ((virtToPhys cs)[i]?).bind (cs[·]?) = (cs.filter real)[i]? := by
  have h := congrArg (fun l : List (Option Node) => (l[i]?)) (virtToPhys_lookup cs)
  simp only [List.getElem?_map] at h
  cases h1 : (virtToPhys cs)[i]? with
  | none =>
    rw [h1] at h
    cases h2 : (cs.filter real)[i]? with
    | none => rfl
    | some c => rw [h2] at h; simp at h
  | some p =>
    rw [h1] at h
    cases h2 : (cs.filter real)[i]? with
    | none => rw [h2] at h; simp at h
    | some c => rw [h2] at h; simpa using h

/-- The node a path leads to, as the code computes it. -/
def resolve (n : Node) (comps : List Str) : Option Node := (traverseRec n comps).bind (nodeAt n)

theorem resolve_nil (n : Node) : resolve n [] = some n := rfl

theorem find?_of_findIdx? {p : Node → Bool} {cs : List Node} {i : Nat} (h : cs.findIdx? p = some i) :
    cs[i]? = cs.find? p ∧ (cs[i]?).isSome := by
  rw [List.findIdx?_eq_some_iff_getElem] at h
  obtain ⟨hi, hp, hlt⟩ := h
  refine ⟨?_, by simp [hi]⟩
  rw [List.getElem?_eq_getElem hi, eq_comm, List.find?_eq_some_iff_getElem]
  exact ⟨hp, i, hi, rfl, fun j hj => by simpa using hlt j hj⟩

theorem resolve_cons (n : Node) (part : Str) (rest : List Str) :
    resolve n (part :: rest) = (child n part).bind (resolve · rest) := by
  unfold resolve child
  simp only [traverseRec]
  split
  · rw [← virtToPhys_child]
    cases h1 : (virtToPhys n.children)[natOfStr part]? with
    | none => rfl
    | some p =>
      simp only [Option.bind_some]
      cases h2 : n.children[p]? with
      | none => rfl
      | some c =>
        simp only
        by_cases hl : c.listMember
        · simp only [hl, if_true, Option.filter_some, Option.bind_some]
          cases traverseRec c rest with
          | none => rfl
          | some q => simp [nodeAt, h2]
        · simp [hl, Option.filter_some]
  · cases h1 : n.children.findIdx? (fun c => pyEq c.value (.str part)) with
    | none =>
      rw [List.findIdx?_eq_none_iff] at h1
      have : n.children.find? (fun c => pyEq c.value (.str part)) = none := by
        rw [List.find?_eq_none]; intro x hx; simpa using h1 x hx
      simp [this]
    | some i =>
      obtain ⟨h2, h3⟩ := find?_of_findIdx? h1
      obtain ⟨c, hc⟩ := Option.isSome_iff_exists.1 h3
      rw [← h2]
      simp only [hc, Option.bind_some]
      cases traverseRec c rest with
      | none => rfl
      | some q => simp [nodeAt, hc]

theorem pyEq_str {v : PyVal} {s : Str} : pyEq v (.str s) = true ↔ v = .str s := by
  cases v <;> simp [pyEq]

theorem isComment_sentinel {n : Node} (h : n.isComment = true) : n.value = .sentinel := by
  simp only [Node.isComment, Bool.and_eq_true] at h
  have := h.1.1
  unfold Node.isSentinel at this
  split at this
  · assumption
  · cases this

theorem find_strip (cs : List Node) (s : Str) :
    ((cs.filter real).map stripComments).find? (fun c => pyEq c.value (.str s)) =
      (cs.find? (fun c => pyEq c.value (.str s))).map stripComments := by
  induction cs with
  | nil => rfl
  | cons c cs ih =>
    by_cases h : c.isComment
    · have : real c = false := by simp [Spec.real, h]
      have h2 : pyEq c.value (.str s) = false := by rw [isComment_sentinel h]; rfl
      simp [this, h2, ih]
    · have : real c = true := by simp [Spec.real, h]
      by_cases h2 : pyEq c.value (.str s) = true
      · simp [this, h2, strip_value]
      · simp only [Bool.not_eq_true] at h2
        simp [this, h2, strip_value, ih]

theorem child_strip {n : Node} (h : commentsProper n = true) (part : Str) :
    child (stripComments n) part = (child n part).map stripComments := by
  unfold child
  split
  · rw [strip_filter_real h, strip_children]
    simp only [List.getElem?_map]
    cases (n.children.filter real)[natOfStr part]? with
    | none => rfl
    | some c => simp only [Option.map_some, Option.filter_some, strip_listMember]; split <;> rfl
  · rw [strip_children, find_strip]

theorem child_mem {n c : Node} {part : Str} (h : child n part = some c) : c ∈ n.children := by
  unfold child at h
  split at h
  · rw [Option.filter_eq_some_iff] at h
    exact (List.mem_filter.1 (List.mem_of_getElem? h.1)).1
  · exact List.mem_of_find?_eq_some h

theorem resolve_strip {n : Node} (h : commentsProper n = true) (comps : List Str) :
    resolve (stripComments n) comps = (resolve n comps).map stripComments := by
  induction comps generalizing n with
  | nil => rfl
  | cons part rest ih =>
    rw [resolve_cons, resolve_cons, child_strip h]
    cases hs : child n part with
    | none => rfl
    | some c => simp [ih (commentsProper_child h (child_mem hs))]

theorem resolve_eq_lookup (n : Node) (comps : List Str) : resolve n comps = lookup n comps := by
  induction comps generalizing n with
  | nil => rfl
  | cons p ps ih =>
    rw [resolve_cons, lookup]
    cases child n p with
    | none => rfl
    | some c => exact ih c

theorem lookup_strip {n : Node} (h : commentsProper n = true) (comps : List Str) :
    lookup (stripComments n) comps = (lookup n comps).map stripComments := by
  rw [← resolve_eq_lookup, ← resolve_eq_lookup, resolve_strip h]

theorem lookup_append (n : Node) (a b : List Str) : lookup n (a ++ b) = (lookup n a).bind (lookup · b) := by
  induction a generalizing n with
  | nil => rfl
  | cons p ps ih =>
    simp only [List.cons_append, lookup]
    cases child n p with
    | none => rfl
    | some c => simp [ih]

theorem traverse_root (n : Node) (comps : List Str) : traverse n (rootValue :: comps) = traverseRec n comps := by
  cases comps <;> simp [traverse, traverseRec]

theorem traverse_cons (n : Node) (c d : Str) (comps : List Str) :
    traverse n (c :: d :: comps) = traverseRec n (d :: comps) := rfl

/-- What a path leads to. -/
theorem traverse_lookup (n : Node) (comps : List Str) :
    (traverse n (rootValue :: comps)).bind (nodeAt n) = lookup n comps := by
  rw [traverse_root, ← resolve_eq_lookup]; rfl

/-- `traverse` only returns positions of existing nodes. -/
theorem traverseRec_valid {n : Node} {comps : List Str} {p : Pos} (h : traverseRec n comps = some p) :
    ∃ m, nodeAt n p = some m := by
  induction comps generalizing n p with
  | nil => simp [traverseRec] at h; subst h; exact ⟨n, rfl⟩
  | cons part rest ih =>
    simp only [traverseRec] at h
    split at h
    · split at h
      · cases h
      · split at h
        · cases h
        · rename_i c hc
          split at h
          · obtain ⟨q, hq, rfl⟩ := Option.map_eq_some_iff.1 h
            obtain ⟨m, hm⟩ := ih hq
            exact ⟨m, by simp [nodeAt, hc, hm]⟩
          · cases h
    · split at h
      · cases h
      · split at h
        · cases h
        · rename_i c hc
          obtain ⟨q, hq, rfl⟩ := Option.map_eq_some_iff.1 h
          obtain ⟨m, hm⟩ := ih hq
          exact ⟨m, by simp [nodeAt, hc, hm]⟩

theorem traverse_valid {n : Node} {st : List Str} {p : Pos} (h : traverse n st = some p) :
    ∃ m, nodeAt n p = some m := by
  unfold traverse at h
  split at h
  · cases h
  · split at h
    · injection h with h; subst h; exact ⟨n, rfl⟩
    · cases h
  · exact traverseRec_valid h

theorem traverse_isSome_iff (n : Node) (st : List Str) :
    (traverse n st).isSome = ((traverse n st).bind (nodeAt n)).isSome := by
  cases h : traverse n st with
  | none => rfl
  | some p => obtain ⟨m, hm⟩ := traverse_valid h; simp [hm]

end Crm
