import Verif.Lemmas.Patch
import Verif.Lemmas.Errors
import Verif.Props.Lookup

/-!
# Calling `patch` (C07, C08, C15)
-/

namespace Crm
open Spec

/-- A patch operation as a dictionary, for examples. -/
def mkPatch (op path : Str) (extra : List (Str × PyVal) := []) : PyVal :=
  .dict ((§"op", .str op) :: (§"path", .str path) :: extra)

/-! ## C15 -/

/-- C15: exactly the payloads that do not have the RFC 6902 shape are rejected as invalid (no YAML loader raises the
library's own validation exception). -/
theorem C15_rejected_iff (E : Env) (hE : ∀ s, E.load s ≠ .error .jsonPatchValidation) (r : Recipe) (p : PyVal) :
    (r.patch E p).1 = .error .jsonPatchValidation ↔ ¬ RfcPatch p := by
  rw [← schemaValid_iff]
  constructor
  · intro h hv
    have hr := (schemaValid_iff p).1 hv
    obtain ⟨o, ho, hop⟩ := hr.op
    obtain ⟨s, hs, hpath⟩ := hr.path
    obtain ⟨d, _, hpe⟩ := patch_eq (E := E) ⟨hr, hop, hpath⟩ r
    rw [hpe] at h
    split at h
    · cases h
    · have := callPatchOp_error (E := E) (e := .jsonPatchValidation) ⟨by decide, by decide, by decide⟩ hE r.root o s d
      unfold finishPatch at h
      split at h
      · rename_i hc
        split at h <;> cases h
      · rename_i res root _ hc
        rw [hc] at this
        exact this h
  · intro h
    simp [Recipe.patch, h]

/-- C15: a rejected payload has no effect. -/
theorem C15_no_effect (E : Env) (r : Recipe) (p : PyVal) (h : ¬ RfcPatch p) :
    r.patch E p = (.error .jsonPatchValidation, r) := by
  rw [← schemaValid_iff] at h
  simp [Recipe.patch, h]

example : RfcPatch (mkPatch §"add" §"/a" [(§"value", .none)]) :=
  (schemaValid_iff _).1 (by decide)
example : ¬ RfcPatch (mkPatch §"add" §"/a") ∧ ¬ RfcPatch (mkPatch §"move" §"/a") ∧ ¬ RfcPatch (mkPatch §"remove" §"") ∧
    ¬ RfcPatch (mkPatch §"jump" §"/a") ∧ ¬ RfcPatch (.dict [(§"op", .str §"remove")]) ∧
    ¬ RfcPatch (mkPatch §"remove" §"/a" [(§"x", .none)]) ∧ ¬ RfcPatch (mkPatch §"copy" §"/a" [(§"from", .int 1)]) := by
  simp only [← schemaValid_iff]; decide
example : ∀ s, Toy.env.load s ≠ .error .jsonPatchValidation := by
  intro s h
  have hs : ∀ s, Toy.scalar s ≠ .error .jsonPatchValidation := by
    intro s; unfold Toy.scalar; repeat' split
    all_goals simp
  have key : ∀ fuel, (∀ ls, Toy.block fuel ls ≠ .error .jsonPatchValidation) ∧
      (∀ i ls, Toy.items fuel i ls ≠ .error .jsonPatchValidation) ∧
      (∀ i ls, Toy.pairs fuel i ls ≠ .error .jsonPatchValidation) := by
    intro fuel
    induction fuel with
    | zero => refine ⟨?_, ?_, ?_⟩ <;> intros <;> simp [Toy.block, Toy.items, Toy.pairs]
    | succ fuel ih =>
      obtain ⟨h1, h2, h3⟩ := ih
      refine ⟨?_, ?_, ?_⟩
      · intro ls
        cases ls with
        | nil => simp [Toy.block]
        | cons l ls =>
          simp only [Toy.block]
          split
          · intro h; cases hx : Toy.items fuel l.1 ((l.1, l.2) :: ls) with
            | error e => rw [hx] at h; injection h with h; subst h; exact h2 _ _ hx
            | ok v => rw [hx] at h; cases h
          · split
            · intro h; cases hx : Toy.pairs fuel l.1 ((l.1, l.2) :: ls) with
              | error e => rw [hx] at h; injection h with h; subst h; exact h3 _ _ hx
              | ok v => rw [hx] at h; cases h
            · exact hs _
      · intro i ls
        cases ls with
        | nil => simp [Toy.items]
        | cons l ls =>
          simp only [Toy.items, bind, Except.bind]
          split
          · rename_i e hx; intro h; injection h with h; subst h; exact h1 _ hx
          · split
            · rename_i e hx; intro h; injection h with h; subst h; exact h2 _ _ hx
            · simp
      · intro i ls
        cases ls with
        | nil => simp [Toy.pairs]
        | cons l ls =>
          simp only [Toy.pairs, bind, Except.bind]
          repeat' split
          all_goals first
            | (simp; done)
            | (rename_i e hx; intro h; injection h with h; subst h; first | exact h1 _ hx | exact h3 _ _ hx | exact hs _ hx)
  simp only [Toy.env, Toy.load] at h
  split at h
  · split at h
    · cases h
    · exact (key _).1 _ h
  · cases h

/-! ## C07 -/

/-- C07: a `test` operation changes nothing, and answers whether `get_value` gives an equal value; a missing path
answers `False`, and the only exceptions are those of `get_value` itself. -/
theorem C07_test (E : Env) (r : Recipe) (p : PyVal) (path : Str) (v : PyVal) (hp : IsPatch p §"test" path)
    (hv : field p §"value" = some v) :
    (r.patch E p).2 = r ∧
    (r.patch E p).1 = (match r.getValue E path with
      | .ok w => .ok (pyEq w v)
      | .error .keyError => .ok false
      | .error e => .error e) := by
  obtain ⟨d, rfl, h⟩ := patch_eq (E := E) hp r
  obtain ⟨st, hst⟩ := strToStack_ok (isPatch_path_ne hp)
  simp only [field] at hv
  have hne : ¬ (§"test" = §"move" ∧ field (.dict d) §"from" = some (.str path)) := by rintro ⟨h1, _⟩; revert h1; decide
  rw [h, if_neg hne, call_test hst hv]
  have hg : patchTest E r.root path v = (match r.getValue E path with
      | .ok w => .ok (pyEq w v)
      | .error .keyError => .ok false
      | .error e => .error e) := by
    unfold patchTest Recipe.getValue
    simp only [Bool.false_eq_true, if_false]
    cases getValueIn E r.root path with
    | ok w => rfl
    | error e => cases e <;> rfl
  rw [← hg]
  cases hx : patchTest E r.root path v with
  | error e => exact ⟨rfl, rfl⟩
  | ok b => cases b <;> exact ⟨rfl, rfl⟩

/-- C07: a path that does not exist tests as `False`. -/
theorem C07_missing (E : Env) (r : Recipe) (p : PyVal) (path : Str) (hp : IsPatch p §"test" path)
    (hc : r.containsValue path = .ok false) : r.patch E p = (.ok false, r) := by
  have hv : ∃ v, field p §"value" = some v :=
    Option.isSome_iff_exists.1 (hp.value §"test" (by simp) hp.isOp)
  obtain ⟨v, hv⟩ := hv
  obtain ⟨h1, h2⟩ := C07_test E r p path v hp hv
  have hk : r.getValue E path = .error .keyError := by
    unfold Recipe.getValue Recipe.containsValue at *
    cases hs : strToStack path with
    | error e => rw [hs] at hc; cases hc
    | ok st =>
      rw [hs] at hc
      simp only [bind, Except.bind] at hc
      cases ht : traverse r.root st with
      | none => exact getValueIn_missing hs ht none _
      | some p => rw [ht] at hc; simp at hc
  rw [hk] at h2
  exact Prod.ext h2 h1

/-- Example recipe. -/
def exPatch : Recipe := Toy.recipe "a:\n  x: 1\nl:\n  - p\n  - q\n"

example : IsPatch (mkPatch §"test" §"/a/x" [(§"value", .int 1)]) §"test" §"/a/x" :=
  ⟨(schemaValid_iff _).1 (by decide), by decide, by decide⟩
example : exPatch.patch Toy.env (mkPatch §"test" §"/a/x" [(§"value", .int 1)]) = (.ok true, exPatch) ∧
    exPatch.patch Toy.env (mkPatch §"test" §"/a/x" [(§"value", .int 2)]) = (.ok false, exPatch) ∧
    exPatch.patch Toy.env (mkPatch §"test" §"/a/y" [(§"value", .int 2)]) = (.ok false, exPatch) := by decide +kernel

/-! ## C08 -/

/-- C08 for every operation except `move`: unless `patch` returns `True`, the recipe is exactly as before.  Missing:
`move`, for which the claim is false (`C08_move_loses_source`). -/
theorem C08_rejected_unchanged_partial (E : Env) (r : Recipe) (p : PyVal) (hm : field p §"op" ≠ some (.str §"move"))
    (h : (r.patch E p).1 ≠ .ok true) : (r.patch E p).2 = r := by
  by_cases hr : RfcPatch p
  · obtain ⟨o, ho, hop⟩ := hr.op
    obtain ⟨s, hs, hpath⟩ := hr.path
    obtain ⟨d, rfl, hpe⟩ := patch_eq (E := E) ⟨hr, hop, hpath⟩ r
    have hne : o ≠ §"move" := by rintro rfl; exact hm hop
    rw [hpe, if_neg (fun h => hne h.1)] at h ⊢
    have hof : ∀ x : Except PyErr (Option Node), (opOutcome r.root x).1 ≠ .ok true →
        (opOutcome r.root x).2 = r.root := by
      intro x
      unfold opOutcome
      split <;> simp
    have hroot : (callPatchOp E r.root o s d).1 ≠ .ok true → (callPatchOp E r.root o s d).2 = r.root := by
      unfold callPatchOp
      repeat' split
      all_goals first
        | exact hof _
        | (intro _; rfl)
        | contradiction
    generalize callPatchOp E r.root o s d = out at h hroot ⊢
    obtain ⟨res, root⟩ := out
    unfold finishPatch at h ⊢
    cases res with
    | error e => have : root = r.root := hroot (by simp); subst this; rfl
    | ok b =>
      cases b with
      | true => simp only [] at h; split at h <;> exact absurd rfl h
      | false => have : root = r.root := hroot (by simp); subst this; rfl
  · rw [C15_no_effect E r p hr]

/-- C08 for `move`: unless it returns `True`, either nothing happened, or exactly the source was removed (in which
case neither the modification flag nor the selector index is updated). -/
theorem C08_move_residue (E : Env) (r : Recipe) (p : PyVal) (path src : Str) (hp : IsPatch p §"move" path)
    (hs : field p §"from" = some (.str src)) (h : (r.patch E p).1 ≠ .ok true) :
    (r.patch E p).2 = r ∨
    ∃ root', (r.patch E (mkPatch §"remove" src)) = (.ok true, edited r root') ∧ (r.patch E p).2 = { r with root := root' } := by
  obtain ⟨d, rfl, hpe⟩ := patch_eq (E := E) hp r
  obtain ⟨st, hst⟩ := strToStack_ok (isPatch_path_ne hp)
  have hs' : lookupD §"from" d = some (.str src) := hs
  have hcall : callPatchOp E r.root §"move" path d = patchMove E r.root st src := call_move hst hs'
  rw [hpe] at h ⊢
  split at h
  · exact absurd rfl h
  · rename_i hmv
    rw [if_neg hmv]
    rw [hcall] at h ⊢
    unfold patchMove at h ⊢
    split at h
    · left; rfl
    · left; rfl
    · split at h
      · left; rfl
      · split at h
        · left; rename_i hv; simp only [hv, if_true]; rfl
        · rename_i hv
          simp only [hv]
          split at h
          · left; rfl
          · rename_i srcStack hsrc
            split at h
            · left; rfl
            · rename_i root' hrm
              have hne : src ≠ [] := by rintro rfl; simp [strToStack] at hsrc
              have hrem : IsPatch (mkPatch §"remove" src) §"remove" src := by
                refine ⟨(schemaValid_iff _).1 ?_, rfl, rfl⟩
                cases src with
                | nil => exact absurd rfl hne
                | cons c cs => simp [schemaValid, mkPatch, lookupD, patchOps]
              obtain ⟨d2, _, hpe2⟩ := patch_eq' (E := E) hrem (by decide) r
              have hrr : r.patch E (mkPatch §"remove" src) = (.ok true, edited r root') := by
                rw [hpe2, call_remove hsrc, finish_outcome (by decide), hrm]
              right
              refine ⟨root', hrr, ?_⟩
              split at h
              · rfl
              · rfl
              · exact absurd rfl h

/-- C08 is false for `move`: moving `/a` below itself returns `False` after `/a` has been deleted. -/
theorem C08_move_loses_source :
    let out := exPatch.patch Toy.env (mkPatch §"move" §"/a/b" [(§"from", .str §"/a")])
    out.1 = .ok false ∧ exPatch.containsValue §"/a/x" = .ok true ∧ out.2.containsValue §"/a/x" = .ok false ∧
      out.2.modified = false := by decide +kernel

example : (exPatch.patch Toy.env (mkPatch §"remove" §"/a/zz")).1 = .ok false ∧
    (exPatch.patch Toy.env (mkPatch §"replace" §"/l/7" [(§"value", .int 1)])).1 = .error .indexError := by decide +kernel

end Crm
