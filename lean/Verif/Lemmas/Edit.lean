import Verif.Spec.Edit
import Verif.Lemmas.Traverse
import Verif.Lemmas.Path
import Verif.Model.Parser

/-! # Lemmas about edits -/

namespace Crm
open Spec

/-! ## Python equality is reflexive -/

mutual
theorem pyEq_refl : ∀ v : PyVal, pyEq v v = true
  | .sentinel => by simp [pyEq]
  | .none => by simp [pyEq]
  | .bool _ => by simp [pyEq]
  | .int _ => by simp [pyEq]
  | .flt _ => by simp [pyEq]
  | .str _ => by simp [pyEq]
  | .list l => by rw [pyEq]; exact pyEqL_refl l
  | .dict d => by rw [pyEq]; simp [pyEqD_sub d d (fun _ h => h)]
theorem pyEqL_refl : ∀ l : List PyVal, pyEqL l l = true
  | [] => by rw [pyEqL]
  | a :: as => by rw [pyEqL, pyEq_refl a, pyEqL_refl as]; rfl
theorem pyEqD_sub : ∀ (as bs : List (Str × PyVal)), (∀ x ∈ as, x ∈ bs) → pyEqD as bs = true
  | [], bs, _ => by rw [pyEqD]
  | (k, a) :: as, bs, h => by
    rw [pyEqD, pyEqD_sub as bs (fun x hx => h x (List.mem_cons_of_mem _ hx))]
    have hm := h (k, a) (by simp)
    have : (bs.any fun kb => kb.1 == k && pyEq a kb.2) = true :=
      List.any_eq_true.2 ⟨(k, a), hm, by simp [pyEq_refl a]⟩
    rw [this]; rfl
end

mutual
theorem Node.pyEq_refl : ∀ n : Node, n.pyEq n = true
  | ⟨v, c, cs, l, m, k⟩ => by
    rw [Node.pyEq, Crm.pyEq_refl v, Node.pyEqL_refl cs]; simp
theorem Node.pyEqL_refl : ∀ ns : List Node, Node.pyEqL ns ns = true
  | [] => by rw [Node.pyEqL]
  | n :: ns => by rw [Node.pyEqL, Node.pyEq_refl n, Node.pyEqL_refl ns]; rfl
end

theorem Node.pyEq_value {a b : Node} (h : a.pyEq b = true) : Crm.pyEq a.value b.value = true := by
  cases a; cases b; rw [Node.pyEq] at h; simp only [Bool.and_eq_true] at h; exact h.1

/-! ## Places -/

theorem childIdx_digit {n : Node} {part : Str} (h : isDigitS part = true) (i : Nat) :
    childIdx n part = some i ↔
      (virtToPhys n.children)[natOfStr part]? = some i ∧ ∃ c, n.children[i]? = some c ∧ c.listMember = true := by
  simp only [childIdx, h, if_true]
  rw [List.find?_range_eq_some, virtToPhys_getElem?]
  constructor
  · rintro ⟨hp, hlt, _⟩
    have hi : i < n.children.length := List.mem_range.1 hlt
    rw [List.getElem?_eq_getElem hi] at hp ⊢
    simp only [Bool.and_eq_true, decide_eq_true_eq] at hp
    exact ⟨⟨⟨_, rfl, hp.1.1⟩, hp.2⟩, _, rfl, hp.1.2⟩
  · rintro ⟨⟨⟨c, hc, hr⟩, hcnt⟩, c', hc', hl⟩
    rw [hc] at hc'; injection hc' with hc'; subst hc'
    refine ⟨by simp [hc, hr, hl, hcnt], ?_, ?_⟩
    · exact List.mem_range.2 (List.getElem?_eq_some_iff.1 hc).1
    · intro j hj
      have hjl : j < n.children.length := by
        have := (List.getElem?_eq_some_iff.1 hc).1; omega
      rw [List.getElem?_eq_getElem hjl]
      simp only [Bool.not_eq_true', Bool.and_eq_false_iff, decide_eq_false_iff_not]
      by_cases hrj : real n.children[j] = true
      · right
        intro hcj
        have hj' : (virtToPhys n.children)[natOfStr part]? = some j :=
          (virtToPhys_getElem? _ _ _).2 ⟨⟨_, List.getElem?_eq_getElem hjl, hrj⟩, hcj⟩
        have hi' : (virtToPhys n.children)[natOfStr part]? = some i :=
          (virtToPhys_getElem? _ _ _).2 ⟨⟨c, hc, hr⟩, hcnt⟩
        rw [hj'] at hi'; injection hi' with hi'; omega
      · left; left; simpa using hrj

theorem childIdx_name {n : Node} {part : Str} (h : isDigitS part = false) :
    childIdx n part = n.children.findIdx? (fun c => pyEq c.value (.str part)) := by
  simp only [childIdx, h, Bool.false_eq_true, if_false]
  congr 1; funext c
  rw [Bool.eq_iff_iff, pyEq_str]; simp

theorem childIdx_lt {n : Node} {part : Str} {i : Nat} (h : childIdx n part = some i) : i < n.children.length := by
  cases hd : isDigitS part with
  | true =>
    obtain ⟨_, c, hc, _⟩ := (childIdx_digit hd i).1 h
    exact (List.getElem?_eq_some_iff.1 hc).1
  | false =>
    rw [childIdx_name hd, List.findIdx?_eq_some_iff_getElem] at h
    exact h.1

/-- `traverse` finds the place the components lead to. -/
theorem traverseRec_locate (n : Node) (comps : List Str) : traverseRec n comps = locate n comps := by
  induction comps generalizing n with
  | nil => rfl
  | cons part rest ih =>
    simp only [traverseRec, locate]
    cases hd : isDigitS part with
    | true =>
      simp only [if_true]
      cases hv : (virtToPhys n.children)[natOfStr part]? with
      | none =>
        cases hc : childIdx n part with
        | none => rfl
        | some i => rw [((childIdx_digit hd i).1 hc).1] at hv; cases hv
      | some phys =>
        simp only []
        cases hn : n.children[phys]? with
        | none =>
          cases hc : childIdx n part with
          | none => rfl
          | some i =>
            obtain ⟨h1, c, h2, _⟩ := (childIdx_digit hd i).1 hc
            rw [h1] at hv; injection hv with hv; subst hv; rw [h2] at hn; cases hn
        | some c =>
          cases hl : c.listMember with
          | true =>
            have : childIdx n part = some phys := (childIdx_digit hd phys).2 ⟨hv, c, hn, hl⟩
            simp only [this, hn, hl, if_true, ih]
          | false =>
            cases hc : childIdx n part with
            | none => simp [hl]
            | some i =>
              obtain ⟨h1, c', h2, h3⟩ := (childIdx_digit hd i).1 hc
              rw [h1] at hv; injection hv with hv; subst hv; rw [h2] at hn; injection hn with hn; subst hn
              rw [h3] at hl; cases hl
    | false =>
      simp only [Bool.false_eq_true, if_false]
      rw [childIdx_name hd]
      cases hf : n.children.findIdx? (fun c => pyEq c.value (.str part)) with
      | none => rfl
      | some i =>
        simp only []
        cases n.children[i]? with
        | none => rfl
        | some c => simp only [ih]

theorem traverse_locate (n : Node) (comps : List Str) : traverse n (rootValue :: comps) = locate n comps := by
  rw [traverse_root, traverseRec_locate]

theorem locate_append (n : Node) (a b : List Str) :
    locate n (a ++ b) = (locate n a).bind fun p => (nodeAt n p).bind fun m => (locate m b).map (p ++ ·) := by
  simp only [← traverseRec_locate, traverseRec_append]

theorem locate_single (n : Node) (part : Str) : locate n [part] = (childIdx n part).map ([·]) := by
  simp only [locate]
  cases h : childIdx n part with
  | none => rfl
  | some i =>
    simp only [List.getElem?_eq_getElem (childIdx_lt h)]; rfl

theorem locate_concat (n : Node) (init : List Str) (last : Str) :
    locate n (init ++ [last]) = (locate n init).bind fun p => (nodeAt n p).bind fun m => (childIdx m last).map fun i => p ++ [i] := by
  rw [locate_append]
  congr 1; funext p
  congr 1; funext m
  rw [locate_single]
  cases childIdx m last <;> rfl

theorem locate_valid {n : Node} {comps : List Str} {p : Pos} (h : locate n comps = some p) : ∃ m, nodeAt n p = some m :=
  traverseRec_valid (by rw [traverseRec_locate]; exact h)

theorem locate_lookup (n : Node) (comps : List Str) : (locate n comps).bind (nodeAt n) = lookup n comps := by
  rw [← traverse_locate, traverse_lookup]

/-! ## Changing children -/

theorem childrenChanged_updateAt (g : List Node → List Node) (f : List Node → List Node → Prop) {pos : Pos}
    {root m : Node} (hm : nodeAt root pos = some m) (hf : f m.children (g m.children)) :
    ChildrenChanged f pos root (updateAt (fun n => { n with children := g n.children }) pos root) := by
  induction pos generalizing root with
  | nil =>
    simp only [nodeAt, Option.some.injEq] at hm
    subst hm
    exact .here root _ hf
  | cons i pos ih =>
    simp only [nodeAt] at hm
    cases hc : root.children[i]? with
    | none => rw [hc] at hm; cases hm
    | some c =>
      rw [hc] at hm
      obtain ⟨hi, hci⟩ := List.getElem?_eq_some_iff.1 hc
      have hlen : (root.children.take i).length = i := by simp; omega
      have hsplit : root.children = root.children.take i ++ c :: root.children.drop (i + 1) := by
        rw [← hci, ← List.drop_eq_getElem_cons hi, List.take_append_drop]
      simp only [updateAt]
      rw [List.modify_eq_take_cons_drop hi, hci]
      have := ChildrenChanged.there root (root.children.take i) c _ (root.children.drop (i + 1)) pos hsplit (ih hm)
      rw [hlen] at this
      exact this

end Crm
