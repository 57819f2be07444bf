import Verif.Spec.FileDeps
import Verif.Spec.Layout
import Verif.Props.FileDeps

/-!
# A directory of recipe files and the dependencies it lists
-/

namespace Crm.Spec
open Doc

/-- A recipe file: its path, its text, and what stands in it.  `packages`: the names of its packages with the places of the packages;
`reqs`: the `requirements` block of the package at a place, `mapping` what YAML reads it as, `fill` the texts of the dependency lines
with the variables replaced. -/
structure RecipeFile where
  path : Str
  text : Str
  vars : List (Str × PyVal)
  ds : List Doc
  recipe : Recipe
  packages : List (PyVal × Str)
  reqs : Str → List Doc
  mapping : Str → List (Str × PyVal)
  fill : Str → Str

/-- The file is what `RecipeFile` says. -/
structure RecipeFile.Sound (E : Env) (f : RecipeFile) : Prop where
  /-- the text is the document, in the layout of `render` or in another one -/
  laid : (Writable E f.vars ∧ Document E f.ds ∧ f.text = recipeText f.vars f.ds ∧ (f.recipe.schema = .v1 → f.vars = [])) ∨
    (OkL E f.ds ∧ ∃ fs, FreeFile E f.vars f.ds fs ∧ f.text = fileText fs)
  opened : Recipe.ofString E f.text = .ok f.recipe
  names : f.recipe.packageNamesToPath E = .ok f.packages
  listed : ∀ e ∈ f.packages, RequirementsOf f.ds e.2 (f.reqs e.2) ∧ YamlReads E (f.reqs e.2) (f.mapping e.2) ∧
    ∃ w, Filled E f.recipe.schema f.recipe.vars E.recLimit (.dict (f.mapping e.2)) w
  filled : ∀ e ∈ f.packages, ∀ l ∈ dependencyLines (f.reqs e.2),
    Fills E f.recipe.schema f.recipe.vars l.text (.str (f.fill l.text))

/-- The dependency lines of the package at a place: those of its own `requirements` and those of the whole recipe. -/
def RecipeFile.linesOf (f : RecipeFile) (place : Str) : List DepLine :=
  dependencyLines (f.reqs place) ++ if place = §"/" then [] else dependencyLines (f.reqs §"/")

/-- Some file has a package `p` and for it, in a section that satisfies `sec`, a line with the dependency `d`. -/
def LineFor (M : Str → Option Str) (files : List RecipeFile) (sec : DepSection → Prop) (p : PyVal) (d : Str) : Prop :=
  ∃ f ∈ files, ∃ place, (p, place) ∈ f.packages ∧ ∃ l ∈ f.linesOf place, sec l.type ∧
    strip (f.fill l.text) ≠ [] ∧ (depDataFromStr M (strip (f.fill l.text))).name = d

/-- The names of all packages. -/
def allNames (files : List RecipeFile) : List PyVal := files.flatMap fun f => f.packages.map (·.1)

end Crm.Spec
