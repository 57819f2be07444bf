import Verif.Lemmas.Frame
import Verif.Lemmas.Patch

namespace Crm
open Spec

theorem locate_real {t m : Node} {q : List Str} {pos : Pos} (hne : q ≠ []) (h : locate t q = some pos)
    (hm : nodeAt t pos = some m) : m.isComment = false := by
  rcases List.eq_nil_or_concat q with rfl | ⟨init, last, rfl⟩
  · exact absurd rfl hne
  · rw [List.concat_eq_append] at *
    rcases List.eq_nil_or_concat pos with rfl | ⟨p, i, rfl⟩
    · have := locate_length h; simp at this
    · rw [List.concat_eq_append] at *
      obtain ⟨n, _, _, hx, hc⟩ := locate_last h hm
      cases hd : isDigitS last with
      | true =>
        obtain ⟨hv, c, hc', _⟩ := (childIdx_digit hd i).1 hx
        obtain ⟨⟨c2, hc2, hr⟩, _⟩ := (virtToPhys_getElem? _ _ _).1 hv
        rw [hc] at hc2; injection hc2 with hc2; subst hc2
        simpa [real] using hr
      | false =>
        rw [childIdx_name hd, List.findIdx?_eq_some_iff_getElem] at hx
        obtain ⟨hil, hpi, _⟩ := hx
        rw [List.getElem?_eq_getElem hil] at hc; injection hc with hc
        rw [hc] at hpi
        simp [Node.isComment, Node.isSentinel, pyEq_str.1 hpi]

theorem twi_prefix {root : Node} {comps : List Str} {pos : Pos} {v i : Option Nat}
    (h : traverseWithIndex root (rootValue :: comps) = .ok (some pos, v, i)) :
    ∃ a, a <+: comps ∧ locate root a = some pos := by
  rcases List.eq_nil_or_concat comps with rfl | ⟨init, last, rfl⟩
  · rw [twi_name root [] (by simp)] at h
    injection h with h; injection h with h _
    exact ⟨[], List.prefix_refl _, h⟩
  · rw [List.concat_eq_append] at *
    cases hd : isDigitS last with
    | false =>
      rw [twi_name root _ (by intro l hl; simp at hl; subst hl; exact hd)] at h
      injection h with h; injection h with h _
      exact ⟨_, List.prefix_refl _, h⟩
    | true =>
      cases hi : locate root init with
      | none => rw [twi_digit _ _ _ hd, hi] at h; injection h with h; injection h with h _; cases h
      | some q =>
        obtain ⟨m, hm⟩ := locate_valid hi
        by_cases hr : m.children.countP real ≤ natOfStr last
        · rw [twi_digit_range hd hi hm hr] at h; cases h
        · obtain ⟨j, hvp⟩ : ∃ j, (virtToPhys m.children)[natOfStr last]? = some j := by
            have : natOfStr last < (virtToPhys m.children).length := by rw [virtToPhys_length]; omega
            exact ⟨_, List.getElem?_eq_getElem this⟩
          obtain ⟨⟨c, hcm, _⟩, _⟩ := (virtToPhys_getElem? _ _ _).1 hvp
          rw [twi_digit_found hd hi hm hvp hcm] at h
          split at h
          · rename_i hcol
            injection h with h; injection h with h _; injection h with h; subst h
            refine ⟨_, List.prefix_refl _, ?_⟩
            rw [locate_concat, hi]
            simp [hm, (childIdx_digit hd j).2 ⟨hvp, c, hcm, collection_listMember hcol⟩]
          · injection h with h; injection h with h _; injection h with h; subst h
            exact ⟨init, List.prefix_append _ _, hi⟩

theorem twi_prefix' {root : Node} {st : List Str} {pos : Pos} {v i : Option Nat}
    (h : traverseWithIndex root st = .ok (some pos, v, i)) :
    ∃ x a, x :: a <+: st ∧ locate root a = some pos := by
  cases st with
  | nil => cases h
  | cons x comps =>
    cases comps with
    | nil =>
      refine ⟨x, [], List.prefix_refl _, ?_⟩
      simp only [traverseWithIndex, List.getLast?_singleton] at h
      cases hd : isDigitS x with
      | true => simp [hd, traverse] at h
      | false =>
        simp only [hd, Bool.false_eq_true, if_false, traverse] at h
        split at h
        · cases h
        · rename_i hx
          split at hx
          · injection hx with hx
            injection h with h; injection h with h _; injection h with h
            rw [← h, ← hx]; rfl
          · cases hx
    | cons y ys =>
      rcases List.eq_nil_or_concat ys with rfl | ⟨zs, z, rfl⟩
      · by_cases hd : isDigitS y = true
        · simp only [traverseWithIndex, List.getLast?_cons_cons, List.getLast?_singleton, hd, if_true,
            List.dropLast_cons_cons, List.dropLast_singleton, traverse] at h
          by_cases hx : x = rootValue
          · subst hx
            have h' : traverseWithIndex root (rootValue :: [y]) = .ok (some pos, v, i) := by
              simp only [traverseWithIndex, List.getLast?_cons_cons, List.getLast?_singleton, hd, if_true,
                List.dropLast_cons_cons, List.dropLast_singleton, traverse]
              exact h
            obtain ⟨a, ha, hl⟩ := twi_prefix h'
            exact ⟨rootValue, a, by simpa using ha, hl⟩
          · simp [hx] at h
        · have h' : traverseWithIndex root (rootValue :: [y]) = .ok (some pos, v, i) := by
            rw [← h]
            simp [traverseWithIndex, hd, traverse]
          obtain ⟨a, ha, hl⟩ := twi_prefix h'
          exact ⟨x, a, by simpa using ha, hl⟩
      · have h' : traverseWithIndex root (rootValue :: y :: (zs ++ [z])) = .ok (some pos, v, i) := by
          rw [List.concat_eq_append] at h
          rw [← h]
          have h1 : ∀ w : Str, (w :: y :: (zs ++ [z])).getLast? = some z := by
            intro w; rw [← List.cons_append, ← List.cons_append, List.getLast?_concat]
          have h2 : ∀ w : Str, (w :: y :: (zs ++ [z])).dropLast = w :: y :: zs := by
            intro w; rw [← List.cons_append, ← List.cons_append, List.dropLast_concat]; 
          simp only [traverseWithIndex, h1, h2]
          by_cases hd : isDigitS z = true
          · simp only [hd, if_true, traverse]
          · simp only [hd, Bool.false_eq_true, if_false, traverse]
        obtain ⟨a, ha, hl⟩ := twi_prefix h'
        rw [List.concat_eq_append]
        exact ⟨x, a, by simpa using ha, hl⟩

/-- Any change of children. -/
abbrev AnyChange : List Node → List Node → Prop := fun _ _ => True

theorem updateAt_any {root : Node} {pos : Pos} (g : List Node → List Node) (hv : ∃ m, nodeAt root pos = some m) :
    ChildrenChanged AnyChange pos root (updateAt (fun n => { n with children := g n.children }) pos root) := by
  obtain ⟨m, hm⟩ := hv
  exact childrenChanged_updateAt g _ hm trivial

theorem target_prefix {root : Node} {st : List Str} {t : AddTarget} (h : patchAddFindTarget root st = .ok t) {pos : Pos}
    (hp : t.node = some pos) : ∃ x a, x :: a <+: st ∧ locate root a = some pos := by
  unfold patchAddFindTarget at h
  split at h
  · injection h with h; subst h; cases hp
  · rename_i last hl
    simp only [bind, Except.bind] at h
    have hpre : ∀ st', st' <+: st → ∀ node v i, traverseWithIndex root st' = .ok (node, v, i) → node = some pos →
        ∃ x a, x :: a <+: st ∧ locate root a = some pos := by
      intro st' hst node v i hr hn
      subst hn
      obtain ⟨x, a, ha, hl⟩ := twi_prefix' hr
      exact ⟨x, a, ha.trans hst, hl⟩
    have hp1 : (if decide (last = §"-") = true then st.dropLast else st) <+: st := by
      split
      · exact List.dropLast_prefix st
      · exact List.prefix_refl _
    split at h
    · cases h
    · rename_i out ho
      obtain ⟨node, v, i⟩ := out
      simp only at h
      split at h
      · split at h
        · cases h
        · rename_i out2 ho2
          obtain ⟨node2, v2, i2⟩ := out2
          injection h with h; subst h
          exact hpre _ ((List.dropLast_prefix _).trans hp1) _ _ _ ho2 hp
      · injection h with h; subst h
        exact hpre _ hp1 _ _ _ ho hp

theorem patchAdd_changed {E : Env} {root root' : Node} {st : List Str} {v : PyVal}
    (h : patchAdd E root st v = .ok (some root')) :
    ∃ pos x a, x :: a <+: st ∧ locate root a = some pos ∧ ChildrenChanged AnyChange pos root root' := by
  unfold patchAdd at h
  simp only [bind, Except.bind] at h
  split at h
  · cases h
  · rename_i t ht
    split at h
    · cases h
    · rename_i pos hpos
      obtain ⟨x, a, ha, hl⟩ := target_prefix ht hpos
      have hv := locate_valid hl
      refine ⟨pos, x, a, ha, hl, ?_⟩
      split at h
      · cases h
      · split at h
        · cases h
        · split at h
          · injection h with h; injection h with h; subst h
            exact updateAt_any (fun cs => insertAll cs _ _) hv
          · split at h
            · injection h with h; injection h with h; subst h
              exact updateAt_any (fun cs => cs ++ _) hv
            · injection h with h; injection h with h; subst h
              exact updateAt_any (fun _ => _) hv

theorem patchReplace_changed {E : Env} {root root' : Node} {st : List Str} {v : PyVal}
    (h : patchReplace E root st v = .ok (some root')) :
    ∃ pos x a, x :: a <+: st ∧ locate root a = some pos ∧ ChildrenChanged AnyChange pos root root' := by
  unfold patchReplace at h
  simp only [bind, Except.bind] at h
  split at h
  · cases h
  · rename_i out ho
    obtain ⟨node, v, i⟩ := out
    simp only at h
    split at h
    · cases h
    · rename_i pos
      obtain ⟨x, a, ha, hl⟩ := twi_prefix' ho
      have hv := locate_valid hl
      refine ⟨pos, x, a, ha, hl, ?_⟩
      split at h
      · cases h
      · split at h
        · cases h
        · split at h
          · injection h with h; injection h with h; subst h
            exact updateAt_any (fun cs => (insertAll cs _ _).eraseIdx _) hv
          · injection h with h; injection h with h; subst h
            exact updateAt_any (fun _ => _) hv

theorem traverse_prefix {root : Node} {st : List Str} {pos : Pos} (h : traverse root st = some pos) :
    ∃ x a, x :: a = st ∧ locate root a = some pos := by
  cases st with
  | nil => cases h
  | cons x a =>
    refine ⟨x, a, rfl, ?_⟩
    cases a with
    | nil =>
      simp only [traverse] at h
      split at h
      · exact h
      · cases h
    | cons y ys => rw [← traverseRec_locate]; exact h

theorem patchRemove_changed {root root' : Node} {st : List Str} (h : patchRemove root st = some root') :
    ∃ pos x a, x :: a <+: st ∧ locate root a = some pos ∧ ChildrenChanged AnyChange pos root root' := by
  unfold patchRemove at h
  split at h
  · cases h
  · simp only at h
    split at h
    · cases h
    · split at h
      · cases h
      · split at h
        · cases h
        · rename_i pos hpos
          obtain ⟨x, a, ha, hl⟩ := traverse_prefix hpos
          have hv := locate_valid hl
          refine ⟨pos, x, a, ?_, hl, ?_⟩
          · rw [ha]; exact List.dropLast_prefix _
          · repeat' split at h
            all_goals first
              | (injection h with h; subst h; exact updateAt_any (fun cs => cs.eraseIdx _) hv)
              | cases h

/-- What a changed tree answers at a path that is not involved. -/
theorem lookup_elsewhere {f : List Node → List Node → Prop} {pos : Pos} {t t' : Node} (h : ChildrenChanged f pos t t')
    {a : List Str} (ha : locate t a = some pos) (hn : notReduced t' pos) {q : List Str} (h1 : ¬ passes t q pos)
    (h2 : ¬ leadsAbove t q pos) : lookup t' q = lookup t q := by
  have hane : a ≠ [] := by
    rintro rfl
    exact h1 ⟨[], List.nil_prefix, ha⟩
  have hcom : ∀ m m', nodeAt t pos = some m → nodeAt t' pos = some m' → m'.isComment = m.isComment := by
    intro m m' hm hm'
    rw [locate_real hane ha hm, hn m' hm']
  obtain ⟨k1, k2⟩ := locate_changed h hcom q (fun b hb _ hl => h1 ⟨b, hb, hl⟩)
  rw [← locate_lookup, ← locate_lookup, k1]
  cases hq : locate t q with
  | none => rfl
  | some Q =>
    simp only [Option.bind_some]
    exact k2 Q hq (fun hp => h2 ⟨Q, hq, hp⟩)

/-- Which subtree an absolute path reads. -/
theorem getValueIn_lookup {E : Env} {t t' : Node} {q : List Str} (hq : q ≠ []) (hc : ∀ c ∈ q, Component c)
    (h : lookup t' q = lookup t q) (d : Option PyVal) (ctx : Option JinjaCtx) :
    getValueIn E t' (absPath q) d ctx = getValueIn E t (absPath q) d ctx := by
  unfold getValueIn
  simp only [strToStack_absPath q hq hc, bind, Except.bind, traverse_locate, locate_lookup, h]

theorem containsValue_lookup {r r' : Recipe} {q : List Str} (hq : q ≠ []) (hc : ∀ c ∈ q, Component c)
    (h : lookup r'.root q = lookup r.root q) : r'.containsValue (absPath q) = r.containsValue (absPath q) := by
  have key : ∀ t : Node, (locate t q).isSome = (lookup t q).isSome := by
    intro t
    rw [← locate_lookup]
    cases hl : locate t q with
    | none => rfl
    | some p => obtain ⟨m, hm⟩ := locate_valid hl; simp [hm]
  unfold Recipe.containsValue
  simp only [strToStack_absPath q hq hc, bind, Except.bind, traverse_locate, key, h]

end Crm
