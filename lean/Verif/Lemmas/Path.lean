import Verif.Lemmas.Str
import Verif.Model.Traverse
import Verif.Spec.Path

namespace Crm
open Spec

theorem absPath_cons (c : Str) (cs : List Str) : absPath (c :: cs) = '/' :: c ++ absPath cs := by
  simp [absPath]

theorem absPath_append (a b : List Str) : absPath (a ++ b) = absPath a ++ absPath b := by
  simp [absPath]

theorem absPath_eq_join (comps : List Str) (h : comps ≠ []) :
    absPath comps = joinStr ['/'] ([] :: comps) := by
  induction comps with
  | nil => exact absurd rfl h
  | cons c cs ih =>
    rw [absPath_cons, joinStr_cons _ _ _ (by simp)]
    cases cs with
    | nil => simp [absPath, joinStr]
    | cons d ds =>
      rw [ih (by simp), joinStr_cons _ [] _ (by simp), joinStr_cons _ c _ (by simp)]; simp

theorem absPath_getLast (comps : List Str) (h : comps ≠ []) (hc : ∀ c ∈ comps, Component c) :
    (absPath comps).getLast? ≠ some '/' := by
  have hl := hc _ (List.getLast_mem h)
  have he : comps = comps.dropLast ++ [comps.getLast h] := (List.dropLast_concat_getLast h).symm
  rw [he, absPath_append]
  simp only [absPath, List.flatMap_cons, List.flatMap_nil, List.append_nil]
  rw [List.getLast?_append, List.getLast?_cons, List.getLast?_eq_some_getLast hl.1]
  simp only [Option.getD_some, ne_eq, Option.some_or, Option.some.injEq]
  intro h'
  exact hl.2 (h' ▸ List.getLast_mem hl.1)

theorem absPath_ne_nil (comps : List Str) (h : comps ≠ []) : absPath comps ≠ [] := by
  cases comps with
  | nil => exact absurd rfl h
  | cons c cs => simp [absPath]

theorem strToStack_absPath (comps : List Str) (h : comps ≠ []) (hc : ∀ c ∈ comps, Component c) :
    strToStack (absPath comps) = .ok (rootValue :: comps) := by
  have h1 := absPath_getLast comps h hc
  have h2 := absPath_ne_nil comps h
  simp only [strToStack, if_neg h2, if_neg h1]
  rw [absPath_eq_join comps h, splitChar_join '/' _ (by simp)]
  · simp only [List.map_cons, if_true]
    congr 2
    rw [List.map_congr_left (g := id)]
    · simp
    · intro c hcm; simp [(hc c hcm).1]
  · intro p hp
    rcases List.mem_cons.1 hp with rfl | hp
    · simp
    · exact (hc p hp).2

theorem strToStack_trailing (p : Str) (h1 : p ≠ []) (h2 : p.getLast? ≠ some '/') :
    strToStack (p ++ ['/']) = strToStack p := by
  simp [strToStack, h1, h2]

theorem component_ne_root {c : Str} (h : Component c) : c ≠ rootValue := by
  rintro rfl; exact h.2 (by decide)

theorem stackToStr_comps (comps : List Str) (hc : ∀ c ∈ comps, Component c) : stackToStr comps = absPath comps := by
  induction comps with
  | nil => rfl
  | cons c cs ih =>
    have := component_ne_root (hc c (by simp))
    rw [stackToStr, if_neg this, absPath_cons, ih (fun x hx => hc x (by simp [hx]))]

theorem stackToStr_root (comps : List Str) (hc : ∀ c ∈ comps, Component c) :
    stackToStr (rootValue :: comps) = absPath comps := by
  rw [stackToStr, if_pos rfl, stackToStr_comps comps hc]

theorem strToStack_ne_nil {p : Str} {st : List Str} (h : strToStack p = .ok st) : st ≠ [] := by
  unfold strToStack at h
  split at h
  · cases h
  · injection h with h
    rw [← h]
    simp [splitChar_ne_nil]

/-! ### Walking a path -/

theorem nodeAt_append (n : Node) (p q : Pos) : nodeAt n (p ++ q) = (nodeAt n p).bind (nodeAt · q) := by
  induction p generalizing n with
  | nil => rfl
  | cons i p ih =>
    simp only [List.cons_append, nodeAt]
    cases n.children[i]? with
    | none => rfl
    | some c => exact ih c

/-- Walking `a ++ b` is walking `a` and then, from there, `b`. -/
theorem traverseRec_append (n : Node) (a b : List Str) :
    traverseRec n (a ++ b) =
      (traverseRec n a).bind fun p => (nodeAt n p).bind fun m => (traverseRec m b).map (p ++ ·) := by
  induction a generalizing n with
  | nil => simp [traverseRec, nodeAt]
  | cons part rest ih =>
    simp only [List.cons_append, traverseRec]
    split
    · split
      · simp
      · split
        · simp
        · rename_i phys _ _ c hc
          split
          · rw [ih]
            cases traverseRec c rest with
            | none => simp
            | some q =>
              simp only [Option.bind_some, Option.map_some, nodeAt, hc]
              cases nodeAt c q <;> simp [Function.comp_def]
          · simp
    · split
      · simp
      · split
        · simp
        · rename_i i _ _ c hc
          rw [ih]
          cases traverseRec c rest with
          | none => simp
          | some q =>
            simp only [Option.bind_some, Option.map_some, nodeAt, hc]
            cases nodeAt c q <;> simp [Function.comp_def]

end Crm
