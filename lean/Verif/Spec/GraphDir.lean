import Verif.Spec.GraphFiles

/-!
# A directory in which some files are no recipes and some packages have the same name
-/

namespace Crm.Spec

/-- A file of a directory: a recipe file, or one that cannot be read (`content` is `none`) or is no recipe. -/
inductive DirFile where
  | recipe (f : RecipeFile)
  | other (path : Str) (content : Option Str)

/-- Its path. -/
def DirFile.path : DirFile → Str
  | recipe f => f.path
  | other p _ => p

/-- Its text, if it can be read. -/
def DirFile.content : DirFile → Option Str
  | recipe f => some f.text
  | other _ c => c

/-- The file is what `DirFile` says. -/
def DirFile.Sound (E : Env) : DirFile → Prop
  | recipe f => f.Sound E
  | other _ c => ∀ t, c = some t → ∃ e, Recipe.ofString E t = .error e

/-- The recipe files of a directory. -/
def recipeFiles (dir : List DirFile) : List RecipeFile := dir.filterMap fun | .recipe f => some f | .other .. => none

/-- The paths of the other files. -/
def otherPaths (dir : List DirFile) : List Str := dir.filterMap fun | .recipe _ => none | .other p _ => some p

/-- The first package called `p`: it is in the file `f`, at `place`. -/
def FirstPackage (files : List RecipeFile) (p : PyVal) (f : RecipeFile) (place : Str) : Prop :=
  ∃ before after a b, files = before ++ f :: after ∧ f.packages = a ++ (p, place) :: b ∧ p ∉ allNames before ∧ p ∉ a.map (·.1)

/-- There is, for the first package called `p`, a line with the dependency `d` in a section that satisfies `sec`. -/
def FirstLineFor (M : Str → Option Str) (files : List RecipeFile) (sec : DepSection → Prop) (p : PyVal) (d : Str) : Prop :=
  ∃ f place, FirstPackage files p f place ∧ ∃ l ∈ f.linesOf place, sec l.type ∧
    strip (f.fill l.text) ≠ [] ∧ (depDataFromStr M (strip (f.fill l.text))).name = d

end Crm.Spec
