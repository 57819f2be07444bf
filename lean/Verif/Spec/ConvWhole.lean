import Verif.Spec.ConvPackage
import Verif.Spec.ConvEnd
import Verif.Spec.ConvSelectors
import Verif.Spec.SelTable

/-! # Specification vocabulary: recipes with several outputs, and the conversion as a whole -/

namespace Crm.Spec

/-- How many outputs a recipe has: none without the key `outputs`, otherwise as many as its list has elements. -/
inductive OutputCount (E : Env) (ks : List Node) : Nat → Prop
  | none : Absent §"outputs" ks → OutputCount E ks 0
  | list {xs : List PyVal} : ValueOf E §"outputs" ks (some (.list xs)) → OutputCount E ks xs.length

/-- The outputs `i`, `i + 1`, … change, one after the other; there are `n` of them.  `R` gets the path of the output. -/
inductive EachOutput (R : List Str → Step) : (i n : Nat) → Step
  | done {i : Nat} {ks : List Node} : EachOutput R i 0 ks ks []
  | step {i n : Nat} {ks ks1 ks2 : List Node} {s1 s2 : List (Category × Str)} :
      AtElement i (fun e cs cs' s => ElementWithKeys e cs ∧ cs' ≠ [] ∧ R [§"outputs", natStr i] cs cs' s) ks ks1 s1 →
      EachOutput R (i + 1) n ks1 ks2 s2 → EachOutput R i (n + 1) ks ks2 (s1 ++ s2)

/-- All outputs change, one after the other. -/
inductive Outputs (R : List Str → Step) (n : Nat) : Step
  | none {ks : List Node} : n = 0 → Outputs R n ks ks []
  | some {ks ks' : List Node} {says : List (Category × Str)} : n ≠ 0 → Below §"outputs" (EachOutput R 0 n) ks ks' says →
      Outputs R n ks ks' says

/-- The package at the top changes, then the outputs do. -/
inductive Packages (R : List Str → Step) (n : Nat) : Step
  | mk {ks ks1 ks2 : List Node} {s1 s2 : List (Category × Str)} : R [] ks ks1 s1 → Outputs R n ks1 ks2 s2 →
      Packages R n ks ks2 (s1 ++ s2)

/-- What a conversion does to one output: `name` and `version` go below `package`, and the sections are put into order. -/
inductive OutputUpgraded (E : Env) : List Node → List Node → Prop
  | plain {ks ks' : List Node} : Absent §"name" ks → Absent §"version" ks → Ordered topSections ks ks' → OutputUpgraded E ks ks'
  | packaged {ks k1 k2 k3 ks' : List Node} : ¬ (Absent §"name" ks ∧ Absent §"version" ks) →
      Ensured E (· ≠ []) §"package" ks k1 → MovedInto E §"name" §"package" §"name" k1 k2 →
      MovedInto E §"version" §"package" §"version" k2 k3 → Ordered topSections k3 ks' → OutputUpgraded E ks ks'

/-- What a conversion does to a recipe because of its outputs: `package` is called `recipe`, and each output is changed. -/
inductive OutputsUpgraded (E : Env) (n : Nat) : List Node → List Node → Prop
  | without {ks : List Node} : Absent §"outputs" ks → OutputsUpgraded E n ks ks
  | «with» {ks ks1 ks2 : List Node} : ¬ Absent §"outputs" ks → Renamed E (· ≠ []) §"package" §"recipe" ks ks1 →
      Outputs (fun _ => quiet (OutputUpgraded E)) n ks1 ks2 [] → OutputsUpgraded E n ks ks2

/-- What a conversion does to the sections of all packages: one kind of section after the other. -/
inductive SectionsUpgraded (E : Env) (recognised : Str → Option Str) (n : Nat) (ks ks' : List Node) :
    List (Category × Str) → Prop
  | mk {k1 k2 k3 k4 k5 : List Node} {s1 s2 s3 s4 s5 s6 : List (Category × Str)} :
      Packages (fun _ => quiet (SpellingCorrected E)) n ks k1 s1 →
      Packages (fun _ => SourcesUpgraded E) n k1 k2 s2 →
      Packages (fun comps => BuildMoved E comps) n k2 k3 s3 →
      Packages (fun _ => InKey §"requirements" (quiet (Renamed E (fun _ => True) §"run_constrained" §"run_constraints"))) n k3 k4 s4 →
      Packages (fun comps => InKey §"about" (AboutUpgraded E recognised (fun _ => True) (comps ++ [§"about"]))) n k4 k5 s5 →
      Packages (fun _ => quiet (TestsUpgraded E)) n k5 ks' s6 →
      SectionsUpgraded E recognised n ks ks' (s1 ++ s2 ++ s3 ++ s4 ++ s5 ++ s6)

/-- The variables of a recipe in the new format: the entries of `context`. -/
def contextEntries : Option PyVal → List (Str × PyVal)
  | some (.dict kvs) => kvs
  | _ => []

/-- What a conversion makes of a recipe: the new tree, its variables, and the messages.  The selectors are replaced first,
then the variables and substitutions; then the sections of all packages, and the outputs.  In the end the comments whose
lines are gone are reported, and the sections put into order. -/
inductive ConversionBy (E : Env) (recognised : Str → Option Str) (r : Recipe) (selectorEdits subEdits : List NodeEdit) :
    Node → List (Str × PyVal) → List (Category × Str) → Prop
  | mk {n : Node} {order bad : List Str} {ctx : List (Str × PyVal)}
      {old : List (List Str × Str)} {count : Nat} {ks ks1 ks2 ks3 ks4 ks5 : List Node} {says1 says3 : List (Category × Str)}
      {context : Option PyVal} :
      oneLineComments r.root → n.value ≠ .sentinel → ks ≠ [] →
      -- selectors
      FirstOccurrences (selectorsOf r.root) order → SelectorSteps E (linesWith r.root order) selectorEdits says1 →
      (∀ e ∈ selectorEdits, e.At r.root) → Independent selectorEdits →
      putNodes selectorEdits r.root = { n with children := ks } →
      -- variables and substitutions
      (r.vars.map (·.1)).Nodup → ContextOf r.vars ctx bad → HeadPut E ctx ks ks1 →
      SubstitutionEdits E { r with root := { n with children := ks1 } } subEdits →
      putNodes subEdits { n with children := ks1 } = { n with children := ks2 } → ks2 ≠ [] →
      -- sections and outputs
      OutputCount E ks2 count → SectionsUpgraded E recognised count ks2 ks3 says3 → OutputsUpgraded E count ks3 ks4 →
      -- comments
      TableOf (noted r.root) (old.map fun e => (absPath e.1, e.2)) → (∀ e ∈ old, e.1 ≠ [] ∧ ∀ x ∈ e.1, Component x) →
      -- the end
      Ordered topSections ks4 ks5 → ValueOf E §"context" ks5 context →
      ConversionBy E recognised r selectorEdits subEdits { n with children := ks5 } (contextEntries context)
        (says1 ++ contextMessages ctx bad ++ says3 ++
          (old.filter fun e => lineGone { n with children := ks4 } e.1).map
            fun e => (.warning, §"Could not relocate comment: " ++ e.2))

/-- The same, whatever lines are replaced. -/
def Conversion (E : Env) (recognised : Str → Option Str) (r : Recipe) (root : Node) (vars : List (Str × PyVal))
    (says : List (Category × Str)) : Prop := ∃ selectorEdits subEdits, ConversionBy E recognised r selectorEdits subEdits root vars says

end Crm.Spec
