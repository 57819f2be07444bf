import Verif.Props.Deps
import Verif.Lemmas.PatchFrame
import Verif.Props.Paths

/-!
# C96: where the names of a recipe and its packages are written
-/

namespace Crm
open Spec

theorem containsValue_isSome (r : Recipe) {q : List Str} (hq : q ≠ []) (hc : ∀ c ∈ q, Component c) :
    r.containsValue (absPath q) = .ok (lookup r.root q).isSome := by
  unfold Recipe.containsValue
  simp only [strToStack_absPath q hq hc, traverse_locate, bind, Except.bind, ← locate_lookup]
  cases hl : locate r.root q with
  | none => rfl
  | some p => obtain ⟨m, hm⟩ := locate_valid hl; simp [hm]

theorem isMultiOutput_iff (r : Recipe) : r.isMultiOutput = (lookup r.root [§"outputs"]).isSome := by
  unfold Recipe.isMultiOutput
  rw [show §"/outputs" = absPath [§"outputs"] from rfl, containsValue_isSome r (by decide) (by decide)]

/-- Where the name of the recipe is written: in V1 recipes with outputs, in the `recipe` section; else in the `package` section. -/
def Spec.recipeNameAt (r : Recipe) : List Str :=
  if r.schema = .v1 ∧ (lookup r.root [§"outputs"]).isSome then [§"recipe", §"name"] else [§"package", §"name"]

/-- Where the name of a package other than the recipe itself is written, seen from the package. -/
def Spec.outputNameAt (r : Recipe) : List Str :=
  if r.schema = .v1 ∧ (lookup r.root [§"outputs"]).isSome then [§"package", §"name"] else [§"name"]

/-- A name as a text; `None` is no name. -/
def Spec.nameText : PyVal → Option Str
  | .none => none
  | v => some (pyStr v)

theorem rootNamePath_eq (r : Recipe) : rootNamePath r = absPath (recipeNameAt r) := by
  unfold rootNamePath recipeNameAt
  rw [isMultiOutput_iff]
  cases r.schema <;> cases lookup r.root [§"outputs"] <;> rfl

/-- C96: the name of a package is read from where the schema of the recipe has it, with its variables replaced. -/
theorem C96_name_places (E : Env) (r : Recipe) :
    r.packageName E §"/" = r.getValue E (absPath (recipeNameAt r)) none true ∧
    ∀ comps, comps ≠ [] → (∀ c ∈ comps, Component c) →
      r.packageName E (absPath comps) = r.getValue E (absPath (comps ++ outputNameAt r)) none true := by
  constructor
  · unfold Recipe.packageName
    rw [if_pos rfl, rootNamePath_eq]
  · intro comps hne hc
    unfold Recipe.packageName
    have h1 : absPath comps ≠ §"/" := by
      intro h
      have := absPath_getLast comps hne hc
      rw [h] at this
      exact this rfl
    rw [if_neg h1]
    have h2 : outputNamePath r = absPath (outputNameAt r) := by
      unfold outputNamePath outputNameAt
      rw [isMultiOutput_iff]
      cases r.schema <;> cases lookup r.root [§"outputs"] <;> rfl
    have h3 : (∀ c ∈ outputNameAt r, Component c) ∧ outputNameAt r ≠ [] := by
      unfold outputNameAt
      split <;> decide
    rw [h2, (C02_append_walks {} comps (outputNameAt r) hc h3.1 h3.2 (absPath comps) _ (.inl rfl) (.inl rfl)).1]

/-- C96: `get_recipe_name` gives the name of the recipe as a text, with its variables replaced, or `None` when there is none. -/
theorem C96_recipe_name (E : Env) (r : Recipe) :
    (lookup r.root (recipeNameAt r) = none → r.getRecipeName E = .ok none) ∧
    ((lookup r.root (recipeNameAt r)).isSome → ∀ v, r.getValue E (absPath (recipeNameAt r)) none true = .ok v →
      r.getRecipeName E = .ok (nameText v)) ∧
    ((lookup r.root (recipeNameAt r)).isSome → ∀ e, r.getValue E (absPath (recipeNameAt r)) none true = .error e →
      r.getRecipeName E = .error e) := by
  have hc : (∀ c ∈ recipeNameAt r, Component c) ∧ recipeNameAt r ≠ [] := by
    unfold recipeNameAt
    split <;> decide
  have hcv := containsValue_isSome r hc.2 hc.1
  unfold Recipe.getRecipeName
  rw [rootNamePath_eq]
  refine ⟨?_, ?_, ?_⟩
  · intro h
    rw [h] at hcv
    rw [C04_default_missing E r _ _ true hcv]
    rfl
  · intro h v hv
    rw [h] at hcv
    rw [C04_default_existing E r _ _ true hcv, hv]
    cases v <;> rfl
  · intro h e he
    rw [h] at hcv
    rw [C04_default_existing E r _ _ true hcv, he]
    rfl

/-- C96: it is the name under which `get_package_names_to_path` lists the recipe itself. -/
theorem C96_name_of_the_root (E : Env) (r : Recipe) (tbl : List (PyVal × Str)) (h : r.packageNamesToPath E = .ok tbl) (v : PyVal)
    (hv : (v, §"/") ∈ tbl) : r.getRecipeName E = .ok (nameText v) := by
  have h1 := (((C35_names_to_path E r tbl).1 h).2.1 _ hv).1
  rw [(C96_name_places E r).1] at h1
  obtain ⟨a, b, _⟩ := C96_recipe_name E r
  cases hl : lookup r.root (recipeNameAt r) with
  | some m => exact b (by rw [hl]; rfl) v h1
  | none =>
    exfalso
    have hc : (∀ c ∈ recipeNameAt r, Component c) ∧ recipeNameAt r ≠ [] := by
      unfold recipeNameAt
      split <;> decide
    have hst := strToStack_absPath _ hc.2 hc.1
    have hn : traverse r.root (rootValue :: recipeNameAt r) = none := by
      rw [traverse_locate]
      rw [← locate_lookup] at hl
      cases h' : locate r.root (recipeNameAt r) with
      | none => rfl
      | some p => obtain ⟨m, hm⟩ := locate_valid h'; rw [h'] at hl; simp [hm] at hl
    unfold Recipe.getValue at h1
    rw [getValueIn_missing hst hn none _] at h1
    cases h1

def exNames1 : Recipe := Toy.recipe "schema_version: 1\nrecipe:\n  name: p\noutputs:\n  - package:\n      name: a\n"
def exNames2 : Recipe := Toy.recipe "schema_version: 1\npackage:\n  name: q\nrecipe:\n  name: p\n"
def exNames3 : Recipe := Toy.recipe "package:\n  name: 12\nrecipe:\n  name: p\noutputs:\n  - name: a\n    package:\n      name: b\n"

example : exNames1.packageNamesToPath Toy.env = .ok [(.str §"p", §"/"), (.str §"a", §"/outputs/0")] ∧
    exNames1.getRecipeName Toy.env = .ok (some §"p") := by decide +kernel
example : exNames2.packageNamesToPath Toy.env = .ok [(.str §"q", §"/")] ∧ exNames2.getRecipeName Toy.env = .ok (some §"q") := by
  decide +kernel
example : exNames3.packageNamesToPath Toy.env = .ok [(.int 12, §"/"), (.str §"a", §"/outputs/0")] ∧
    exNames3.getRecipeName Toy.env = .ok (some §"12") := by decide +kernel
example : (Toy.recipe "build:\n  number: 0\n").getRecipeName Toy.env = .ok none := by decide +kernel

end Crm
