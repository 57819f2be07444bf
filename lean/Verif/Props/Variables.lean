import Verif.Lemmas.Dict
import Verif.Spec.Vars
import Verif.Examples.ToyYaml

/-!
# Recipe variables (C29, C30)
-/

namespace Crm
open Spec

/-- Perform one variable edit through the API. -/
def Recipe.varStep (r : Recipe) : VarOp → Recipe
  | .set n v => r.setVariable n v
  | .del n => r.delVariable n

/-- Perform a history of variable edits. -/
def Recipe.varRun (r : Recipe) (ops : List VarOp) : Recipe := ops.foldl Recipe.varStep r

theorem varStep_lookup (r : Recipe) (hn : r.listVariables.Nodup) (op : VarOp) (k : Str) :
    lookupD k (r.varStep op).vars = if op.name = k then op.result else lookupD k r.vars := by
  cases op with
  | set n v =>
    simp only [Recipe.varStep, Recipe.setVariable, VarOp.name, VarOp.result, lookupD_insertD]
    by_cases h : n = k
    · simp [h]
    · simp [h, Ne.symm h]
  | del n =>
    simp only [Recipe.varStep, Recipe.delVariable, VarOp.name, VarOp.result]
    by_cases h : n = k
    · subst h
      split
      · rename_i h'; simpa using h'
      · simpa using (lookupD_eraseD n n r.vars hn)
    · split
      · simp [h]
      · simpa [h, Ne.symm h] using (lookupD_eraseD n k r.vars hn)

theorem filter_ne_eq_erase (l : List Str) (hn : l.Nodup) (k : Str) : l.filter (· ≠ k) = l.erase k := by
  rw [List.Nodup.erase_eq_filter hn]; congr 1; funext x; rw [Bool.eq_iff_iff]; simp

theorem varStep_names (r : Recipe) (hn : r.listVariables.Nodup) (op : VarOp) :
    (r.varStep op).listVariables = orderAfter r.listVariables [op] := by
  cases op with
  | set n v =>
    simp only [Recipe.varStep, Recipe.setVariable, Recipe.listVariables, orderAfter, keys_insertD]
    by_cases h : n ∈ r.vars.map (·.1) <;> simp only [h, if_true, if_false]
  | del n =>
    simp only [Recipe.varStep, Recipe.delVariable, orderAfter]
    split
    · rename_i h
      have : n ∉ r.listVariables := (lookupD_none n r.vars).1 (by simpa using h)
      rw [eq_comm, List.filter_eq_self]
      intro a ha; simp; rintro rfl; exact this ha
    · rw [filter_ne_eq_erase _ hn]; simp only [Recipe.listVariables, keys_eraseD]

theorem varStep_nodup (r : Recipe) (hn : r.listVariables.Nodup) (op : VarOp) :
    (r.varStep op).listVariables.Nodup := by
  cases op with
  | set n v => exact nodup_insertD n v r.vars hn
  | del n =>
    simp only [Recipe.varStep, Recipe.delVariable]
    split
    · exact hn
    · exact nodup_eraseD n r.vars hn

/-! ## C29 -/

/-- C29: after any history of edits, a variable has the value the last edit of its name left (or its original value),
`get_variable` raises `KeyError` exactly when there is none, a default is used exactly then, and the other accessors
agree. -/
theorem C29_values (r : Recipe) (hn : r.listVariables.Nodup) (ops : List VarOp) (k : Str) :
    (∀ d, (r.varRun ops).getVariable k d =
      match valueAfter (lookupD k r.vars) ops k, d with
      | some v, _ => .ok v
      | none, some d => .ok d
      | none, none => .error .keyError) ∧
    (r.varRun ops).containsVariable k = (valueAfter (lookupD k r.vars) ops k).isSome ∧
    (k ∈ (r.varRun ops).listVariables ↔ (valueAfter (lookupD k r.vars) ops k).isSome = true) := by
  have key : ∀ ops (r : Recipe), r.listVariables.Nodup →
      lookupD k (r.varRun ops).vars = valueAfter (lookupD k r.vars) ops k := by
    intro ops
    induction ops with
    | nil => intro r _; rfl
    | cons op ops ih =>
      intro r hn
      have h1 := ih (r.varStep op) (varStep_nodup r hn op)
      show lookupD k ((r.varStep op).varRun ops).vars = _
      rw [h1, varStep_lookup r hn op k]
      simp only [valueAfter, List.reverse_cons, List.find?_append]
      cases h : ops.reverse.find? (fun o => o.name == k) with
      | some o => simp
      | none => by_cases h2 : op.name = k <;> simp [h2]
  have h := key ops r hn
  refine ⟨fun d => ?_, ?_, ?_⟩
  · unfold Recipe.getVariable
    rw [h]
    cases valueAfter (lookupD k r.vars) ops k <;> cases d <;> rfl
  · unfold Recipe.containsVariable; rw [h]
  · rw [← h, lookupD_isSome]; rfl

/-- C29: after any history the names are listed once each and in dictionary order; nothing but the variable table and
the modification flag changes. -/
theorem C29_order (r : Recipe) (hn : r.listVariables.Nodup) (ops : List VarOp) :
    (r.varRun ops).listVariables = orderAfter r.listVariables ops ∧
    (r.varRun ops).listVariables.Nodup ∧
    (r.varRun ops).root = r.root ∧ (r.varRun ops).selTbl = r.selTbl ∧ (r.varRun ops).init = r.init ∧
    (r.varRun ops).schema = r.schema := by
  induction ops generalizing r with
  | nil => exact ⟨rfl, hn, rfl, rfl, rfl, rfl⟩
  | cons op ops ih =>
    obtain ⟨h1, h2, h3, h4, h5, h6⟩ := ih (r.varStep op) (varStep_nodup r hn op)
    have hs : (r.varStep op).root = r.root ∧ (r.varStep op).selTbl = r.selTbl ∧ (r.varStep op).init = r.init ∧
        (r.varStep op).schema = r.schema := by
      cases op with
      | set n v => exact ⟨rfl, rfl, rfl, rfl⟩
      | del n => simp only [Recipe.varStep, Recipe.delVariable]; split <;> exact ⟨rfl, rfl, rfl, rfl⟩
    refine ⟨?_, h2, h3.trans hs.1, h4.trans hs.2.1, h5.trans hs.2.2.1, h6.trans hs.2.2.2⟩
    show ((r.varStep op).varRun ops).listVariables = _
    rw [h1, varStep_names r hn op]
    cases op <;> rfl

/-- C29: deleting an unknown variable does nothing at all. -/
theorem C29_del_unknown (r : Recipe) (k : Str) (h : r.containsVariable k = false) : r.delVariable k = r := by
  unfold Recipe.delVariable Recipe.containsVariable at *
  rw [if_pos]; cases hl : lookupD k r.vars <;> simp [hl] at h ⊢

/-- C29: a freshly read old-format recipe lists each variable once, so the theorems above apply to it. -/
theorem C29_initial_nodup (E : Env) (content : Str) (r : Recipe) (h : Recipe.ofString E content = .ok r)
    (hv : r.schema = .v0) : r.listVariables.Nodup := by
  have key : ((initVarsV0 E content).map (·.1)).Nodup := by
    unfold initVarsV0
    generalize Regex.jinjaV0SetLine.findall content = ls
    suffices H : ∀ (tbl : List (Str × PyVal)), (tbl.map (·.1)).Nodup →
        ((ls.foldl (init := tbl) fun tbl line =>
          let eq := (findSub §"=" line).getD 0
          let key := strip (sliceS ((findSub §"set" line).getD 0 + 3) eq line)
          let value := strip (sliceS (eq + 1) ((findSub §"%}" line).getD 0) line)
          insertD key ((E.literalEval value).getD (.str value)) tbl).map (·.1)).Nodup from H [] (by simp)
    induction ls with
    | nil => intro tbl h; exact h
    | cons l ls ih => intro tbl h; exact ih _ (nodup_insertD _ _ _ h)
  unfold Recipe.ofString at h
  simp only [bind, Except.bind] at h
  cases h1 : parseTree E content with
  | error e => rw [h1] at h; cases h
  | ok root =>
    rw [h1] at h
    simp only at h
    cases h2 : getValueIn E root §"/schema_version" (some (.int 0)) with
    | error e => rw [h2] at h; cases h
    | ok sv =>
      rw [h2] at h
      simp only at h
      generalize schemaOf sv = sch at h
      cases sch with
      | v0 => injection h with h; subst h; exact key
      | v1 =>
        dsimp only at h
        cases h3 : getValueIn E root §"/context" (some (.dict [])) with
        | error e => rw [h3] at h; cases h
        | ok v => rw [h3] at h; injection h with h; subst h; cases hv

/-- Old-format example with two variables. -/
def exVars : Recipe := Toy.recipe "{% set a = 1 %}\n{% set b = \"x\" %}\nfoo: {{ a }}\n"

example : exVars.schema = .v0 ∧ exVars.vars = [(§"a", .int 1), (§"b", .str §"x")] ∧
    (exVars.varRun [.set §"c" (.int 3), .del §"a", .set §"b" (.int 2), .set §"a" (.int 9)]).vars =
      [(§"b", .int 2), (§"c", .int 3), (§"a", .int 9)] := by decide +kernel

/-! ## C30 -/

/-- The line that defines a variable: strings are put between double quotes. -/
def Spec.defLine (k : Str) (v : PyVal) : Str :=
  match v with
  | .str s => §"{% set " ++ k ++ §" = \"" ++ s ++ §"\" %}"
  | v => §"{% set " ++ k ++ §" = " ++ pyStr v ++ §" %}"

theorem renderVars_eq (vars : List (Str × PyVal)) :
    Recipe.renderVars vars = (vars.map fun kv => defLine kv.1 kv.2) ++ (if vars = [] then [] else [[]]) := by
  unfold Recipe.renderVars
  congr 1
  · apply List.map_congr_left
    intro kv _
    obtain ⟨k, v⟩ := kv
    cases v <;> simp [defLine]
  · cases vars <;> simp

/-- C30 (old format): the rendered file consists of one definition per variable, in order, a blank line, and a body
that does not depend on the variables.  So after any history of edits the file defines exactly the current variables
with their current values. -/
theorem C30_v0_definitions_partial (r : Recipe) (hs : r.schema = .v0) (ops : List VarOp) :
    ∃ body : List Str, r.render = joinStr §"\n" ((r.vars.map fun kv => defLine kv.1 kv.2) ++
        (if r.vars = [] then [] else [[]]) ++ body) ∧
      (r.varRun ops).render = joinStr §"\n" (((r.varRun ops).vars.map fun kv => defLine kv.1 kv.2) ++
        (if (r.varRun ops).vars = [] then [] else [[]]) ++ body) := by
  have hroot : ∀ ops (r : Recipe), (r.varRun ops).root = r.root ∧ (r.varRun ops).schema = r.schema := by
    intro ops
    induction ops with
    | nil => intro r; exact ⟨rfl, rfl⟩
    | cons op ops ih =>
      intro r
      obtain ⟨h1, h2⟩ := ih (r.varStep op)
      have : (r.varStep op).root = r.root ∧ (r.varStep op).schema = r.schema := by
        cases op with
        | set n v => exact ⟨rfl, rfl⟩
        | del n => simp only [Recipe.varStep, Recipe.delVariable]; split <;> exact ⟨rfl, rfl⟩
      exact ⟨h1.trans this.1, h2.trans this.2⟩
  refine ⟨renderTree (-1) none r.root, ?_, ?_⟩
  · simp only [Recipe.render, hs, renderVars_eq]
  · simp only [Recipe.render, (hroot ops r).1, (hroot ops r).2, hs, renderVars_eq]

/-- C30 (old format): after `set_variable` the definition is among the lines, after `del_variable` no line of the
variable section defines the name. -/
theorem C30_v0_set_del_partial (r : Recipe) (k : Str) (v : PyVal) (hn : r.listVariables.Nodup) :
    defLine k v ∈ Recipe.renderVars (r.setVariable k v).vars ∧
    (∀ k' v', k' ≠ k → lookupD k' r.vars = some v' → defLine k' v' ∈ Recipe.renderVars (r.setVariable k v).vars) ∧
    (∃ vs : List (Str × PyVal), Recipe.renderVars (r.delVariable k).vars =
        (vs.map fun kv => defLine kv.1 kv.2) ++ (if vs = [] then [] else [[]]) ∧
      ∀ k' v', (k', v') ∈ vs ↔ k' ≠ k ∧ (k', v') ∈ r.vars) := by
  have mem_of_lookup : ∀ (d : List (Str × PyVal)) k v, lookupD k d = some v → (k, v) ∈ d := by
    intro d
    induction d with
    | nil => intro k v h; cases h
    | cons e es ih =>
      intro k v h
      obtain ⟨l, w⟩ := e
      simp only [lookupD] at h
      split at h
      · rename_i hl; subst hl; injection h with h; subst h; simp
      · exact List.mem_cons_of_mem _ (ih k v h)
  have lookup_of_mem : ∀ (d : List (Str × PyVal)) k v, (d.map (·.1)).Nodup → (k, v) ∈ d → lookupD k d = some v := by
    intro d
    induction d with
    | nil => intro k v _ h; simp at h
    | cons e es ih =>
      intro k v hn h
      obtain ⟨l, w⟩ := e
      simp only [List.map_cons, List.nodup_cons] at hn
      rcases List.mem_cons.1 h with h | h
      · injection h with h1 h2; subst h1; subst h2; simp [lookupD]
      · have : l ≠ k := by rintro rfl; exact hn.1 (List.mem_map.2 ⟨_, h, rfl⟩)
        simp [lookupD, this, ih k v hn.2 h]
  have line : ∀ (d : List (Str × PyVal)) k v, (k, v) ∈ d → defLine k v ∈ Recipe.renderVars d := by
    intro d k v h
    rw [renderVars_eq]
    exact List.mem_append_left _ (List.mem_map.2 ⟨(k, v), h, rfl⟩)
  refine ⟨line _ _ _ (mem_of_lookup _ _ _ (by simp [Recipe.setVariable, lookupD_insertD])), ?_, ?_⟩
  · intro k' v' hne h
    exact line _ _ _ (mem_of_lookup _ _ _ (by simp [Recipe.setVariable, lookupD_insertD, hne, h]))
  · refine ⟨(r.delVariable k).vars, renderVars_eq _, fun k' v' => ?_⟩
    have hl := varStep_lookup r hn (.del k) k'
    have hnd := varStep_nodup r hn (.del k)
    simp only [Recipe.varStep, VarOp.name, VarOp.result] at hl hnd
    constructor
    · intro h
      have h1 := lookup_of_mem _ _ _ hnd h
      rw [hl] at h1
      by_cases hk : k = k'
      · simp [hk] at h1
      · simp [hk] at h1; exact ⟨Ne.symm hk, mem_of_lookup _ _ _ h1⟩
    · rintro ⟨hk, h⟩
      have h1 := lookup_of_mem _ _ _ hn h
      exact mem_of_lookup _ _ _ (by rw [hl]; simp [Ne.symm hk, h1])

example : (exVars.varRun [.set §"b" (.str §"y"), .del §"a"]).render =
    §"{% set b = \"y\" %}\n\nfoo: {{ a }}\n" := by decide +kernel

/-- C30 is false for new-format recipes: variable edits never show up in the rendering. -/
theorem C30_v1_edits_invisible (r : Recipe) (hs : r.schema = .v1) (ops : List VarOp) :
    (r.varRun ops).render = r.render := by
  induction ops generalizing r with
  | nil => rfl
  | cons op ops ih =>
    have : (r.varStep op).root = r.root ∧ (r.varStep op).schema = r.schema := by
      cases op with
      | set n v => exact ⟨rfl, rfl⟩
      | del n => simp only [Recipe.varStep, Recipe.delVariable]; split <;> exact ⟨rfl, rfl⟩
    have h := ih (r.varStep op) (by rw [this.2, hs])
    show ((r.varStep op).varRun ops).render = _
    rw [h]; simp only [Recipe.render, this.1, this.2, hs]

/-- New-format example. -/
def exVars1 : Recipe := Toy.recipe "schema_version: 1\ncontext:\n  v: 1\nfoo: ${{ v }}\n"

theorem C30_v1_violation : ∃ r : Recipe, r.schema = .v1 ∧ r.getVariable §"v" = .ok (.int 1) ∧
    (r.setVariable §"v" (.int 2)).getVariable §"v" = .ok (.int 2) ∧
    (r.setVariable §"v" (.int 2)).render = r.render ∧
    (r.setVariable §"v" (.int 2)).getValue Toy.env §"/context/v" = .ok (.int 1) :=
  ⟨exVars1, by decide +kernel, by decide +kernel, by decide +kernel, by decide +kernel, by decide +kernel⟩

end Crm
