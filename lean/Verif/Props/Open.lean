import Verif.Lemmas.DocVars
import Verif.Examples.ToyYaml

/-!
# C77: what a recipe is right after it was opened
-/

namespace Crm
open Spec Spec.Doc

/-- The parts of an opened recipe. -/
theorem ofString_parts {E : Env} {content : Str} {r : Recipe} (h : Recipe.ofString E content = .ok r) :
    ∃ root sv, parseTree E content = .ok root ∧ getValueIn E root §"/schema_version" (some (.int 0)) = .ok sv ∧
      r.init = content ∧ r.root = root ∧ r.schema = schemaOf sv ∧ r.modified = false ∧ r.selTbl = rebuildSelectors root ∧
      (schemaOf sv = .v0 → r.vars = initVarsV0 E content) ∧
      (schemaOf sv = .v1 → ∃ v, getValueIn E root §"/context" (some (.dict [])) = .ok v ∧
        r.vars = match v with | .dict kvs => kvs | _ => []) := by
  unfold Recipe.ofString at h
  cases hp : parseTree E content with
  | error e => rw [hp] at h; cases h
  | ok root =>
    cases hs : getValueIn E root §"/schema_version" (some (.int 0)) with
    | error e => simp only [hp, hs, bind, Except.bind] at h; cases h
    | ok sv =>
      simp only [hp, hs, bind, Except.bind] at h
      refine ⟨root, sv, rfl, hs, ?_⟩
      cases hsv : schemaOf sv with
      | v0 =>
        simp only [hsv] at h
        injection h with h; subst h
        exact ⟨rfl, rfl, rfl, rfl, rfl, fun _ => rfl, by simp⟩
      | v1 =>
        simp only [hsv] at h
        cases hx : getValueIn E root §"/context" (some (.dict [])) with
        | error e => rw [hx] at h; cases h
        | ok v =>
          rw [hx] at h
          simp only at h
          injection h with h
          subst h
          exact ⟨rfl, rfl, rfl, rfl, rfl, by simp, fun _ => ⟨v, rfl, rfl⟩⟩

/-- C77: a recipe is a V1 recipe exactly if its `schema_version` is the number 1 (which `true` is to Python). -/
theorem C77_schema_version (E : Env) (content : Str) (r : Recipe) (h : Recipe.ofString E content = .ok r) :
    r.schema = .v1 ↔ (r.getValue E §"/schema_version" (some (.int 0)) = .ok (.int 1) ∨
      r.getValue E §"/schema_version" (some (.int 0)) = .ok (.bool true)) := by
  obtain ⟨root, sv, _, hs, _, hr, hsc, _⟩ := ofString_parts h
  have hg : r.getValue E §"/schema_version" (some (.int 0)) = .ok sv := by
    unfold Recipe.getValue
    rw [hr]
    exact hs
  rw [hg, hsc]
  constructor
  · intro hv
    unfold schemaOf at hv
    split at hv
    · exact Or.inl rfl
    · exact Or.inr rfl
    · cases hv
  · rintro (h | h) <;> (injection h with h; subst h; rfl)

/-- C77: the variables of a V1 recipe are the entries of `/context`. -/
theorem C77_v1_variables (E : Env) (content : Str) (r : Recipe) (h : Recipe.ofString E content = .ok r) (hv : r.schema = .v1)
    (kvs : List (Str × PyVal)) (hc : r.getValue E §"/context" (some (.dict [])) = .ok (.dict kvs)) : r.vars = kvs := by
  obtain ⟨root, sv, _, _, _, hr, hsc, _, _, _, hv1⟩ := ofString_parts h
  obtain ⟨v, hx, hvars⟩ := hv1 (hsc.symm.trans hv)
  unfold Recipe.getValue at hc
  simp only [Bool.false_eq_true, if_false, hr] at hc
  rw [hx] at hc
  injection hc with hc
  rw [hvars, hc]

/-- C77: the variables of a V0 recipe that begins with definitions are these definitions, with the values Python reads. -/
theorem C77_v0_variables (E : Env) (vars : List (Str × PyVal)) (body : Str) (r : Recipe) (hw : Writable E vars)
    (hb : inStr §"{%" body = false)
    (h : Recipe.ofString E ((vars.flatMap fun kv => defLine kv.1 kv.2 ++ §"\n") ++ body) = .ok r) (hv : r.schema = .v0) :
    r.vars = vars := by
  have ht : ∀ vars : List (Str × PyVal), (vars.flatMap fun kv => defLine kv.1 kv.2 ++ §"\n") ++ body = defText vars body := by
    intro vars
    induction vars with
    | nil => rfl
    | cons kv vars ih =>
      rw [List.flatMap_cons, List.append_assoc, ih, List.append_assoc]
      rfl
  rw [ht] at h
  obtain ⟨root, sv, _, _, _, hr, hsc, _, _, hv0, _⟩ := ofString_parts h
  rw [hv0 (hsc.symm.trans hv)]
  exact initVars_defs E vars hw body hb

/-- C77: a recipe that was just opened counts as unchanged. -/
theorem C77_unchanged (E : Env) (content : Str) (r : Recipe) (h : Recipe.ofString E content = .ok r) :
    r.modified = false ∧ r.init = content := by
  obtain ⟨root, sv, _, _, hi, _, _, hm, _⟩ := ofString_parts h
  exact ⟨hm, hi⟩

/-- The recipes of the examples open: a V1 recipe with two variables, and a V0 recipe with definitions. -/
def exV1 : Str := §"schema_version: 1\n\ncontext:\n  name: foo\n  version: 2\n\npackage:\n  name: ${{ name }}\n"

def exV0Vars : List (Str × PyVal) := [(§"name", .str §"foo"), (§"n", .int 3), (§"b", .bool true)]

def exV0 : Str := (exV0Vars.flatMap fun kv => defLine kv.1 kv.2 ++ §"\n") ++ §"\nabout:\n  home: x\n"

example : (match Recipe.ofString Toy.env exV1 with
    | .ok r => decide (r.schema = .v1 ∧ r.vars = [(§"name", .str §"foo"), (§"version", .int 2)]) &&
        (r.getValue Toy.env §"/context" (some (.dict [])) == .ok (.dict r.vars))
    | .error _ => false) = true := by decide +kernel

example : (match Recipe.ofString Toy.env exV0 with
    | .ok r => decide (r.schema = .v0 ∧ r.vars = exV0Vars) | .error _ => false) = true := by decide +kernel

example : Writable Toy.env exV0Vars :=
  ⟨by decide +kernel, by decide +kernel, by decide +kernel, by decide +kernel, by decide +kernel⟩

end Crm
