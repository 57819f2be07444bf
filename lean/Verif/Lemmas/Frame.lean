import Verif.Lemmas.Edit

/-! # Changing one place leaves the others alone -/

namespace Crm
open Spec

/-- What paths can see of a child without entering it. -/
def sameLook (a b : Node) : Prop := a.value = b.value ∧ a.listMember = b.listMember ∧ a.isComment = b.isComment

theorem sameLook_refl (a : Node) : sameLook a a := ⟨rfl, rfl, rfl⟩

theorem sameLook_comm {a b : Node} (h : sameLook a b) : sameLook b a := ⟨h.1.symm, h.2.1.symm, h.2.2.symm⟩

theorem sameLook_real {a b : Node} (h : sameLook a b) : real a = real b := by simp [real, h.2.2]

theorem childIdx_sameLook {n n' : Node} {pre post : List Node} {c c' : Node} (hn : n.children = pre ++ c :: post)
    (hn' : n'.children = pre ++ c' :: post) (h : sameLook c c') (part : Str) : childIdx n' part = childIdx n part := by
  unfold childIdx
  rw [hn, hn']
  split
  · have hlen : (pre ++ c' :: post).length = (pre ++ c :: post).length := by simp
    rw [hlen]
    congr 1
    funext p
    have htake : ((pre ++ c' :: post).take p).countP real = ((pre ++ c :: post).take p).countP real := by
      simp only [List.take_append, List.countP_append]
      congr 1
      cases hp : p - pre.length with
      | zero => simp
      | succ k => simp only [List.take_succ_cons, List.countP_cons, sameLook_real h]
    rw [htake]
    rcases Nat.lt_trichotomy p pre.length with hlt | heq | hgt
    · rw [List.getElem?_append_left hlt, List.getElem?_append_left hlt]
    · subst heq
      simp only [List.getElem?_concat_length, List.getElem?_append_right (Nat.le_refl _), Nat.sub_self,
        List.getElem?_cons_zero, sameLook_real h, h.2.1]
    · rw [List.getElem?_append_right (Nat.le_of_lt hgt), List.getElem?_append_right (Nat.le_of_lt hgt)]
      obtain ⟨k, hk⟩ : ∃ k, p - pre.length = k + 1 := ⟨p - pre.length - 1, by omega⟩
      rw [hk]; simp
  · simp only [List.findIdx?_append, List.findIdx?_cons, h.1]

/-- The node at the changed place differs in its children only. -/
theorem changed_node {f : List Node → List Node → Prop} {pos : Pos} {t t' : Node} (h : ChildrenChanged f pos t t') :
    ∃ m b, nodeAt t pos = some m ∧ nodeAt t' pos = some { m with children := b } ∧ f m.children b := by
  induction h with
  | here n cs hf => exact ⟨n, cs, rfl, rfl, hf⟩
  | there n pre c c' post p hn _ ih =>
    obtain ⟨m, b, h1, h2, h3⟩ := ih
    refine ⟨m, b, ?_, ?_, h3⟩
    · simp only [nodeAt, hn, List.getElem?_append_right (Nat.le_refl _), Nat.sub_self, List.getElem?_cons_zero, h1]
    · simp only [nodeAt, List.getElem?_append_right (Nat.le_refl _), Nat.sub_self, List.getElem?_cons_zero, h2]

theorem changed_sameLook {f : List Node → List Node → Prop} {pos : Pos} {t t' : Node} (h : ChildrenChanged f pos t t')
    (hcom : ∀ m m', nodeAt t pos = some m → nodeAt t' pos = some m' → m'.isComment = m.isComment) : sameLook t t' := by
  cases h with
  | here n cs hf => exact ⟨rfl, rfl, (hcom _ _ rfl rfl).symm⟩
  | there n pre c c' post p hn _ =>
    refine ⟨rfl, rfl, ?_⟩
    have h1 : (pre ++ c :: post).isEmpty = false := by cases pre <;> rfl
    have h2 : (pre ++ c' :: post).isEmpty = false := by cases pre <;> rfl
    simp only [Node.isComment, Node.isSentinel, hn, h1, h2]

/-- Paths that do not pass through the changed place lead where they led before, and unless they lead to a node above
it, to the same subtree. -/
theorem locate_changed {f : List Node → List Node → Prop} {pos : Pos} {t t' : Node} (h : ChildrenChanged f pos t t')
    (hcom : ∀ m m', nodeAt t pos = some m → nodeAt t' pos = some m' → m'.isComment = m.isComment) (q : List Str)
    (hq : ∀ a, a <+: q → a ≠ q → locate t a ≠ some pos) :
    locate t' q = locate t q ∧ ∀ Q, locate t q = some Q → ¬ Q <+: pos → nodeAt t' Q = nodeAt t Q := by
  induction h generalizing q with
  | here n cs hf =>
    cases q with
    | nil => exact ⟨rfl, fun Q hQ hn => by simp only [locate, Option.some.injEq] at hQ; subst hQ; simp at hn⟩
    | cons part rest => exact absurd rfl (hq [] (List.nil_prefix) (by simp))
  | there n pre c c' post p hn hch ih =>
    cases q with
    | nil => exact ⟨rfl, fun Q hQ hn => by simp only [locate, Option.some.injEq] at hQ; subst hQ; simp at hn⟩
    | cons part rest =>
      have hcomc : ∀ m m', nodeAt c p = some m → nodeAt c' p = some m' → m'.isComment = m.isComment := by
        intro m m' h1 h2
        apply hcom m m'
        · simp only [nodeAt, hn, List.getElem?_append_right (Nat.le_refl _), Nat.sub_self, List.getElem?_cons_zero, h1]
        · simp only [nodeAt, List.getElem?_append_right (Nat.le_refl _), Nat.sub_self, List.getElem?_cons_zero, h2]
      have hidx : childIdx { n with children := pre ++ c' :: post } part = childIdx n part :=
        childIdx_sameLook hn rfl (changed_sameLook hch hcomc) part
      simp only [locate, hidx]
      cases hi : childIdx n part with
      | none => exact ⟨rfl, fun Q hQ => by cases hQ⟩
      | some i =>
        simp only [hn]
        by_cases he : i = pre.length
        · subst he
          simp only [List.getElem?_append_right (Nat.le_refl _), Nat.sub_self, List.getElem?_cons_zero]
          have hrest : ∀ a, a <+: rest → a ≠ rest → locate c a ≠ some p := by
            intro a ha hne hl
            apply hq (part :: a) (by simpa using ha) (by simpa using hne)
            simp only [locate, hi, hn, List.getElem?_append_right (Nat.le_refl _), Nat.sub_self,
              List.getElem?_cons_zero, hl, Option.map_some]
          obtain ⟨h1, h2⟩ := ih hcomc rest hrest
          refine ⟨by rw [h1], ?_⟩
          intro Q hQ hne
          cases hl : locate c rest with
          | none => rw [hl] at hQ; cases hQ
          | some Q' =>
            rw [hl] at hQ
            simp only [Option.map_some, Option.some.injEq] at hQ; subst hQ
            simp only [nodeAt, hn, List.getElem?_append_right (Nat.le_refl _), Nat.sub_self, List.getElem?_cons_zero]
            exact h2 Q' hl (fun hp => hne (by simpa using hp))
        · have hget : (pre ++ c' :: post)[i]? = (pre ++ c :: post)[i]? := by
            rcases Nat.lt_or_gt_of_ne he with hlt | hgt
            · rw [List.getElem?_append_left hlt, List.getElem?_append_left hlt]
            · rw [List.getElem?_append_right (Nat.le_of_lt hgt), List.getElem?_append_right (Nat.le_of_lt hgt)]
              obtain ⟨k, hk⟩ : ∃ k, i - pre.length = k + 1 := ⟨i - pre.length - 1, by omega⟩
              rw [hk]; simp
          rw [hget]
          refine ⟨rfl, ?_⟩
          intro Q hQ _
          cases hg : (pre ++ c :: post)[i]? with
          | none => rw [hg] at hQ; cases hQ
          | some d =>
            rw [hg] at hQ
            simp only at hQ
            cases hl : locate d rest with
            | none => rw [hl] at hQ; cases hQ
            | some Q' =>
              rw [hl] at hQ
              simp only [Option.map_some, Option.some.injEq] at hQ; subst hQ
              simp only [nodeAt, hget, hn, hg]

theorem locate_length {t : Node} {q : List Str} {Q : Pos} (h : locate t q = some Q) : Q.length = q.length := by
  induction q generalizing t Q with
  | nil => simp only [locate, Option.some.injEq] at h; subst h; rfl
  | cons part rest ih =>
    simp only [locate] at h
    split at h
    · cases h
    · split at h
      · cases h
      · rename_i c _
        cases hl : locate c rest with
        | none => rw [hl] at h; cases h
        | some Q' =>
          rw [hl] at h
          simp only [Option.map_some, Option.some.injEq] at h; subst h
          simp [ih hl]

/-- The path to the changed place still leads there. -/
theorem locate_changed_self {f : List Node → List Node → Prop} {pos : Pos} {t t' : Node}
    (h : ChildrenChanged f pos t t')
    (hcom : ∀ m m', nodeAt t pos = some m → nodeAt t' pos = some m' → m'.isComment = m.isComment) {q : List Str}
    (hq : locate t q = some pos) : locate t' q = some pos := by
  rw [(locate_changed h hcom q ?_).1, hq]
  intro a ha hne hl
  have h1 := locate_length hq
  have h2 := locate_length hl
  obtain ⟨b, rfl⟩ := ha
  have : b = [] := by
    rw [h1] at h2
    simp only [List.length_append] at h2
    exact List.length_eq_zero_iff.1 (by omega)
  subst this
  simp at hne

/-- What a path to or below the changed place sees. -/
theorem lookup_changed_below {f : List Node → List Node → Prop} {pos : Pos} {t t' : Node}
    (h : ChildrenChanged f pos t t')
    (hcom : ∀ m m', nodeAt t pos = some m → nodeAt t' pos = some m' → m'.isComment = m.isComment) {q : List Str}
    (hq : locate t q = some pos) :
    ∃ m b, lookup t q = some m ∧ lookup t' q = some { m with children := b } ∧ f m.children b := by
  obtain ⟨m, b, h1, h2, h3⟩ := changed_node h
  refine ⟨m, b, ?_, ?_, h3⟩
  · rw [← locate_lookup, hq]; exact h1
  · rw [← locate_lookup, locate_changed_self h hcom hq]; exact h2

/-! ## Siblings -/

section siblings
variable {m : Node} {a b : List Node} {part : Str}

private theorem child_digit (n : Node) (h : isDigitS part = true) :
    child n part = ((n.children.filter real)[natOfStr part]?).filter (·.listMember) := by simp [child, h]

private theorem child_name (n : Node) (h : isDigitS part = false) :
    child n part = n.children.find? (fun c => pyEq c.value (.str part)) := by simp [child, h]

/-- Taking the `i`-th child away: names. -/
theorem child_without_name {i : Nat} {x : Node} (h : Without i m.children b) (hx : m.children[i]? = some x)
    (hd : isDigitS part = false) (hne : x.value ≠ .str part) : child { m with children := b } part = child m part := by
  obtain ⟨pre, y, post, ha, hl, hb⟩ := h
  rw [ha, ← hl] at hx
  simp only [List.getElem?_append_right (Nat.le_refl _), Nat.sub_self, List.getElem?_cons_zero, Option.some.injEq] at hx
  subst hx
  rw [child_name _ hd, child_name _ hd]
  simp only [hb, ha, List.find?_append, List.find?_cons]
  have : pyEq y.value (.str part) = false := by
    cases hp : pyEq y.value (.str part) with
    | false => rfl
    | true => exact absurd (pyEq_str.1 hp) hne
  rw [this]

/-- Taking the `i`-th child away: elements in front of it keep their number, the ones behind move up by one. -/
theorem child_without_number {i : Nat} {x : Node} (h : Without i m.children b) (hx : m.children[i]? = some x)
    (hr : real x = true) (k : Nat) :
    (b.filter real)[k]? = if k < (m.children.take i).countP real then (m.children.filter real)[k]?
      else (m.children.filter real)[k + 1]? := by
  obtain ⟨pre, y, post, ha, hl, hb⟩ := h
  rw [ha, ← hl] at hx ⊢
  simp only [List.getElem?_append_right (Nat.le_refl _), Nat.sub_self, List.getElem?_cons_zero, Option.some.injEq] at hx
  subst hx
  have hlen : (pre.filter real).length = pre.countP real := (List.countP_eq_length_filter).symm
  simp only [hb, List.filter_append, List.filter_cons, hr, if_true, List.take_left]
  by_cases hk : k < pre.countP real
  · rw [if_pos hk, List.getElem?_append_left (by omega), List.getElem?_append_left (by omega)]
  · rw [if_neg hk, List.getElem?_append_right (by omega), List.getElem?_append_right (by omega)]
    have : k + 1 - (pre.filter real).length = (k - (pre.filter real).length) + 1 := by omega
    rw [this, List.getElem?_cons_succ]

/-- Inserting in front of the `i`-th child: names. -/
theorem child_inserted_name {i : Nat} {new : List Node} (h : Inserted i new m.children b)
    (hd : isDigitS part = false) (hne : ∀ x ∈ new, x.value ≠ .str part) :
    child { m with children := b } part = child m part := by
  obtain ⟨pre, post, ha, hl, hb⟩ := h
  rw [child_name _ hd, child_name _ hd]
  simp only [hb, ha, List.find?_append]
  have : new.find? (fun c => pyEq c.value (.str part)) = none := by
    rw [List.find?_eq_none]
    intro x hx hp
    exact hne x hx (pyEq_str.1 hp)
  rw [this]
  simp

/-- Inserting one element in front of the `i`-th child. -/
theorem child_inserted_number {i : Nat} {y : Node} (h : Inserted i [y] m.children b) (hr : real y = true) (k : Nat) :
    (b.filter real)[k]? =
      if k < (m.children.take i).countP real then (m.children.filter real)[k]?
      else if k = (m.children.take i).countP real then some y
      else (m.children.filter real)[k - 1]? := by
  obtain ⟨pre, post, ha, hl, hb⟩ := h
  rw [ha, ← hl]
  have hlen : (pre.filter real).length = pre.countP real := (List.countP_eq_length_filter).symm
  simp only [hb, List.filter_append, List.filter_cons, hr, if_true, List.take_left, List.filter_nil, List.append_assoc,
    List.cons_append, List.nil_append]
  by_cases hk : k < pre.countP real
  · rw [if_pos hk, List.getElem?_append_left (by omega), List.getElem?_append_left (by omega)]
  · rw [if_neg hk, List.getElem?_append_right (by omega)]
    by_cases he : k = pre.countP real
    · rw [if_pos he]
      have : k - (pre.filter real).length = 0 := by omega
      rw [this]; rfl
    · rw [if_neg he, List.getElem?_append_right (by omega)]
      have : k - (pre.filter real).length = (k - 1 - (pre.filter real).length) + 1 := by omega
      rw [this, List.getElem?_cons_succ]

/-- Appending keeps every child there was. -/
theorem child_appended {new : List Node} (h : Appended new m.children b) {c : Node} (hc : child m part = some c) :
    child { m with children := b } part = some c := by
  unfold Appended at h
  cases hd : isDigitS part with
  | true =>
    rw [child_digit _ hd] at hc ⊢
    simp only [h, List.filter_append]
    cases hg : (m.children.filter real)[natOfStr part]? with
    | none => rw [hg] at hc; cases hc
    | some x =>
      rw [hg] at hc
      rw [List.getElem?_append_left (List.getElem?_eq_some_iff.1 hg).1, hg]
      exact hc
  | false =>
    rw [child_name _ hd] at hc ⊢
    simp only [h, List.find?_append, hc, Option.some_or]

/-- Appending one child: it can be found by its name if that is new, and by the next free number. -/
theorem child_appended_new {y : Node} (h : Appended [y] m.children b) (hd : isDigitS part = false)
    (hv : y.value = .str part) (hn : child m part = none) : child { m with children := b } part = some y := by
  unfold Appended at h
  rw [child_name _ hd] at hn ⊢
  simp only [h, List.find?_append, hn, Option.none_or, List.find?_cons, pyEq_str.2 hv]

theorem child_appended_number {y : Node} (h : Appended [y] m.children b) (hd : isDigitS part = true)
    (hr : real y = true) (hl : y.listMember = true) (hk : natOfStr part = m.children.countP real) :
    child { m with children := b } part = some y := by
  unfold Appended at h
  rw [child_digit _ hd]
  have hlen : (m.children.filter real).length = m.children.countP real := (List.countP_eq_length_filter).symm
  simp only [h, List.filter_append, List.filter_cons, hr, if_true, List.filter_nil]
  rw [List.getElem?_append_right (by omega), hk, hlen]
  simp [hl]

/-- Swapping one element for another one. -/
theorem child_swapped_number {i : Nat} {x y : Node} (h : Swapped i [y] m.children b) (hx : m.children[i]? = some x)
    (hrx : real x = true) (hr : real y = true) (k : Nat) :
    (b.filter real)[k]? = if k = (m.children.take i).countP real then some y else (m.children.filter real)[k]? := by
  obtain ⟨pre, z, post, ha, hl, hb⟩ := h
  rw [ha, ← hl] at hx ⊢
  simp only [List.getElem?_append_right (Nat.le_refl _), Nat.sub_self, List.getElem?_cons_zero, Option.some.injEq] at hx
  subst hx
  have hlen : (pre.filter real).length = pre.countP real := (List.countP_eq_length_filter).symm
  simp only [hb, List.filter_append, List.filter_cons, hr, hrx, if_true, List.take_left, List.filter_nil,
    List.append_assoc, List.cons_append, List.nil_append]
  by_cases hk : k < pre.countP real
  · rw [if_neg (by omega), List.getElem?_append_left (by omega), List.getElem?_append_left (by omega)]
  · rw [List.getElem?_append_right (by omega), List.getElem?_append_right (by omega)]
    by_cases he : k = pre.countP real
    · rw [if_pos he]
      have : k - (pre.filter real).length = 0 := by omega
      rw [this]; rfl
    · rw [if_neg he]
      have : k - (pre.filter real).length = (k - 1 - (pre.filter real).length) + 1 := by omega
      rw [this, List.getElem?_cons_succ, List.getElem?_cons_succ]

end siblings

end Crm
