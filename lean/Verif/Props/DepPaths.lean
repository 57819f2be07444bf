import Verif.Props.Deps

/-! # The paths of dependencies (C92) -/

namespace Crm

namespace Spec

/-- How many elements a value has, if it has elements. -/
def size : PyVal → Option Nat
  | .str s => some s.length
  | .list l => some l.length
  | .dict d => some d.length
  | _ => none

/-- The value at a path, an empty list if there is none, has so many elements. -/
def SizeAt (E : Env) (r : Recipe) (path : Str) (n : Nat) : Prop :=
  ∃ v, r.getValue E path (some (.list [])) = .ok v ∧ size v = some n

/-- The sections of `requirements` that list packages. -/
def packageSections : Schema → List Str
  | .v0 => [§"build", §"host", §"run", §"run_constrained"]
  | .v1 => [§"build", §"host", §"run", §"run_constraints"]

/-- Where packages are described: at the top, and in `n` outputs. -/
def packagePlaces (n : Nat) : List Str := [] :: (List.range n).map fun i => §"/outputs/" ++ natStr i

/-- The sections with packages of the top level and of `n` outputs, in order. -/
def sectionPlaces (schema : Schema) (n : Nat) : List Str :=
  (packagePlaces n).flatMap fun place => (packageSections schema).map fun s => place ++ §"/requirements/" ++ s

/-- The paths of the elements of the values at some places, in order. -/
inductive ElementPaths (E : Env) (r : Recipe) : List Str → List Str → Prop
  | nil : ElementPaths E r [] []
  | cons {place : Str} {n : Nat} {places paths : List Str} : SizeAt E r place n → ElementPaths E r places paths →
      ElementPaths E r (place :: places) ((List.range n).map (fun i => place ++ §"/" ++ natStr i) ++ paths)

end Spec
open Spec

theorem pyLen_size {v : PyVal} {n : Nat} : Recipe.pyLen v = .ok n ↔ size v = some n := by
  cases v <;> simp [Recipe.pyLen, size]

theorem reqSections_eq (schema : Schema) : Recipe.reqSections schema = packageSections schema := by cases schema <;> rfl

theorem Spec.ElementPaths.append {E : Env} {r : Recipe} {a b pa pb : List Str} (ha : ElementPaths E r a pa) (hb : ElementPaths E r b pb) :
    ElementPaths E r (a ++ b) (pa ++ pb) := by
  induction ha with
  | nil => exact hb
  | cons h _ ih => rw [List.cons_append, List.append_assoc]; exact .cons h ih

theorem Spec.ElementPaths.split {E : Env} {r : Recipe} {a b ps : List Str} (h : ElementPaths E r (a ++ b) ps) :
    ∃ pa pb, ps = pa ++ pb ∧ ElementPaths E r a pa ∧ ElementPaths E r b pb := by
  induction a generalizing ps with
  | nil => exact ⟨[], ps, rfl, .nil, h⟩
  | cons x a ih =>
    cases h with
    | cons h1 h2 =>
      obtain ⟨pa, pb, rfl, h3, h4⟩ := ih h2
      exact ⟨_, pb, by rw [List.append_assoc], .cons h1 h3, h4⟩

theorem scanRequirements_ok (E : Env) (r : Recipe) (pre : Str) (secs ps : List Str) : Recipe.scanRequirements E r pre secs = .ok ps ↔
    ElementPaths E r (secs.map fun s => pre ++ §"/requirements/" ++ s) ps := by
  induction secs generalizing ps with
  | nil =>
    simp only [Recipe.scanRequirements]
    constructor
    · intro h; injection h with h; exact h ▸ .nil
    · rintro ⟨⟩; rfl
  | cons s secs ih =>
    simp only [Recipe.scanRequirements, List.map_cons]
    constructor
    · intro h
      cases hv : r.getValue E (pre ++ §"/requirements/" ++ s) (some (.list [])) with
      | error e => rw [hv] at h; cases h
      | ok v =>
        cases hn : Recipe.pyLen v with
        | error e => simp only [hv, bind, Except.bind, hn] at h; cases h
        | ok n =>
          cases hm : Recipe.scanRequirements E r pre secs with
          | error e => simp only [hv, bind, Except.bind, hn, hm] at h; cases h
          | ok more =>
            simp only [hv, bind, Except.bind, hn, hm] at h
            injection h with h
            rw [← h]
            exact .cons ⟨v, hv, pyLen_size.1 hn⟩ ((ih more).1 hm)
    · intro h
      cases h with
      | cons h1 h2 =>
        obtain ⟨v, hv, hn⟩ := h1
        simp only [hv, bind, Except.bind, pyLen_size.2 hn, (ih _).2 h2]

theorem scanOutputs_ok (E : Env) (r : Recipe) (is : List Nat) (ps : List Str) : Recipe.scanOutputs E r is = .ok ps ↔
    ElementPaths E r (is.flatMap fun i => (packageSections r.schema).map fun s => §"/outputs/" ++ natStr i ++ §"/requirements/" ++ s) ps := by
  induction is generalizing ps with
  | nil =>
    simp only [Recipe.scanOutputs]
    constructor
    · intro h; injection h with h; exact h ▸ .nil
    · rintro ⟨⟩; rfl
  | cons i is ih =>
    simp only [Recipe.scanOutputs, List.flatMap_cons, reqSections_eq]
    constructor
    · intro h
      cases h1 : Recipe.scanRequirements E r (§"/outputs/" ++ natStr i) (packageSections r.schema) with
      | error e => rw [h1] at h; cases h
      | ok here =>
        cases h2 : Recipe.scanOutputs E r is with
        | error e => simp only [h1, bind, Except.bind, h2] at h; cases h
        | ok more =>
          simp only [h1, bind, Except.bind, h2] at h
          injection h with h
          rw [← h]
          exact ((scanRequirements_ok E r _ _ _).1 h1).append ((ih more).1 h2)
    · intro h
      obtain ⟨pa, pb, rfl, h1, h2⟩ := ElementPaths.split h
      simp only [(scanRequirements_ok E r _ _ _).2 h1, (ih _).2 h2, bind, Except.bind]

/-- C92: `get_dependency_paths` lists one path per element of each section with packages, first those at the top and then
those of each output, in order, and nothing else; it raises exactly if one of these sections (or `/outputs`) cannot be read
or has no elements to count. -/
theorem C92_dependency_paths (E : Env) (r : Recipe) (ps : List Str) : r.getDependencyPaths E = .ok ps ↔
    ∃ n, SizeAt E r §"/outputs" n ∧ ElementPaths E r (sectionPlaces r.schema n) ps := by
  have hsp : ∀ n, sectionPlaces r.schema n = (packageSections r.schema).map (fun s => [] ++ §"/requirements/" ++ s) ++
      (List.range n).flatMap fun i => (packageSections r.schema).map fun s => §"/outputs/" ++ natStr i ++ §"/requirements/" ++ s := by
    intro n
    simp [sectionPlaces, packagePlaces, List.flatMap_map]
  unfold Recipe.getDependencyPaths
  rw [reqSections_eq]
  constructor
  · intro h
    cases h1 : Recipe.scanRequirements E r [] (packageSections r.schema) with
    | error e => rw [h1] at h; cases h
    | ok top =>
      cases hv : r.getValue E §"/outputs" (some (.list [])) with
      | error e => simp only [h1, bind, Except.bind, hv] at h; cases h
      | ok v =>
        cases hn : Recipe.pyLen v with
        | error e => simp only [h1, bind, Except.bind, hv, hn] at h; cases h
        | ok n =>
          cases h2 : Recipe.scanOutputs E r (List.range n) with
          | error e => simp only [h1, bind, Except.bind, hv, hn, h2] at h; cases h
          | ok more =>
            simp only [h1, bind, Except.bind, hv, hn, h2] at h
            injection h with h
            refine ⟨n, ⟨v, hv, pyLen_size.1 hn⟩, ?_⟩
            rw [← h, hsp]
            exact ((scanRequirements_ok E r _ _ _).1 h1).append ((scanOutputs_ok E r _ _).1 h2)
  · rintro ⟨n, ⟨v, hv, hn⟩, h⟩
    rw [hsp] at h
    obtain ⟨pa, pb, rfl, h1, h2⟩ := ElementPaths.split h
    simp only [(scanRequirements_ok E r _ _ _).2 h1, (scanOutputs_ok E r _ _).2 h2, hv, pyLen_size.2 hn, bind, Except.bind]

example : exDeps.getDependencyPaths Toy.env =
    .ok [§"/requirements/run/0", §"/outputs/0/requirements/host/0", §"/outputs/0/requirements/host/1"] := by decide +kernel

/-- A section written as one text has as many paths as letters, and none of them leads anywhere. -/
theorem C92_text_section :
    let r := Toy.recipe "requirements:\n  run: py\n"
    r.getDependencyPaths Toy.env = .ok [§"/requirements/run/0", §"/requirements/run/1"] ∧
    r.containsValue §"/requirements/run/0" = .ok false := by decide +kernel

/-- A section that is a number ends the call. -/
theorem C92_number_section :
    (Toy.recipe "requirements:\n  run: 7\n  host:\n    - a\n").getDependencyPaths Toy.env = .error .typeError := by decide +kernel

end Crm
