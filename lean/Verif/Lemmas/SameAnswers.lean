import Verif.Spec.DocComment

/-! # Two recipes with the same tree, variables and format answer alike -/

namespace Crm
open Spec

section
variable {r r' : Recipe} (h1 : r.root = r'.root) (h2 : r.vars = r'.vars) (h3 : r.schema = r'.schema)
include h1 h2 h3

theorem same_getValue (E : Env) (path : Str) (default : Option PyVal) (sv : Bool) :
    r.getValue E path default sv = r'.getValue E path default sv := by
  simp only [Recipe.getValue, Recipe.ctx, h1, h2, h3]

theorem same_containsValue (path : Str) : r.containsValue path = r'.containsValue path := by
  simp only [Recipe.containsValue, h1]

theorem same_isMultiOutput : r.isMultiOutput = r'.isMultiOutput := by
  simp only [Recipe.isMultiOutput, same_containsValue h1 h2 h3]

theorem same_selectorAt (path : Str) (default : Option Str) : r.getSelectorAtPath path default = r'.getSelectorAtPath path default := by
  simp only [Recipe.getSelectorAtPath, Recipe.nodeAtPath, h1]

theorem same_packageName (E : Env) (path : Str) : r.packageName E path = r'.packageName E path := by
  simp only [Recipe.packageName, rootNamePath, outputNamePath, same_isMultiOutput h1 h2 h3, h3, same_getValue h1 h2 h3]

theorem same_packageNamesGo (E : Env) (l : List Str) : ∀ tbl, r.packageNamesGo E l tbl = r'.packageNamesGo E l tbl := by
  induction l with
  | nil => intro; rfl
  | cons p l ih => intro tbl; simp only [Recipe.packageNamesGo, same_packageName h1 h2 h3, ih]

theorem same_packagePaths (E : Env) : r.getPackagePaths E = r'.getPackagePaths E := by
  simp only [Recipe.getPackagePaths, same_getValue h1 h2 h3]

theorem same_packages (E : Env) : r.packageNamesToPath E = r'.packageNamesToPath E := by
  simp only [Recipe.packageNamesToPath, same_packagePaths h1 h2 h3, same_packageNamesGo h1 h2 h3]

theorem same_sectionDeps (M : Str → Option Str) (package : PyVal) (path sec : Str) (s : DepSection) (l : List PyVal) :
    ∀ i, r.sectionDeps M package path sec s i l = r'.sectionDeps M package path sec s i l := by
  induction l with
  | nil => intro; rfl
  | cons d l ih =>
    intro i
    simp only [Recipe.sectionDeps, Recipe.fetchOptionalSelector, same_selectorAt h1 h2 h3, h3, ih]

theorem same_packageDeps (M : Str → Option Str) (package : PyVal) (path : Str) (l : List (Str × PyVal)) :
    r.packageDeps M package path l = r'.packageDeps M package path l := by
  induction l with
  | nil => rfl
  | cons e l ih => obtain ⟨a, b⟩ := e; simp only [Recipe.packageDeps, same_sectionDeps h1 h2 h3, ih]

theorem same_allDepsGo (E : Env) (M : Str → Option Str) (l : List (PyVal × Str)) : r.allDepsGo E M l = r'.allDepsGo E M l := by
  induction l with
  | nil => rfl
  | cons e l ih => obtain ⟨a, b⟩ := e; simp only [Recipe.allDepsGo, same_getValue h1 h2 h3, same_packageDeps h1 h2 h3, ih]

theorem same_dependencies (E : Env) (M : Str → Option Str) : r.getAllDependencies E M = r'.getAllDependencies E M := by
  simp only [Recipe.getAllDependencies, same_packages h1 h2 h3, same_allDepsGo h1 h2 h3]

theorem same_scanRequirements (E : Env) (pre : Str) (l : List Str) : r.scanRequirements E pre l = r'.scanRequirements E pre l := by
  induction l with
  | nil => rfl
  | cons e l ih => simp only [Recipe.scanRequirements, same_getValue h1 h2 h3, ih]

theorem same_scanOutputs (E : Env) (l : List Nat) : r.scanOutputs E l = r'.scanOutputs E l := by
  induction l with
  | nil => rfl
  | cons e l ih => simp only [Recipe.scanOutputs, same_scanRequirements h1 h2 h3, h3, ih]

theorem same_answers (E : Env) : SameAnswers E r r' where
  value := same_getValue h1 h2 h3 E
  present := same_containsValue h1 h2 h3
  paths := by simp only [Recipe.listValuePaths, h1]
  selectorAt := same_selectorAt h1 h2 h3
  hasSelector := fun p => by simp only [Recipe.containsSelectorAtPath, Recipe.nodeAtPath, h1]
  comments := by simp only [Recipe.getCommentsTable, h1]
  var := fun v d => by simp only [Recipe.getVariable, h2]
  vars := by simp only [Recipe.listVariables, h2]
  packages := same_packages h1 h2 h3 E
  dependencies := same_dependencies h1 h2 h3 E
  dependencyPaths := by simp only [Recipe.getDependencyPaths, same_scanRequirements h1 h2 h3, same_scanOutputs h1 h2 h3, same_getValue h1 h2 h3, h3]

theorem same_render : r'.render = r.render := by
  simp only [Recipe.render, h1, h2, h3]

end

theorem same_selectors {r r' : Recipe} (h : r.selTbl = r'.selTbl) : SameSelectors r r' where
  list := by simp only [Recipe.listSelectors, h]
  contains := fun s => by simp only [Recipe.containsSelector, h]
  paths := fun s => by
    simp only [Recipe.getSelectorPaths, h]
    split <;> rfl

end Crm
