import Verif.Spec.ConvSection

/-! # Specification vocabulary: what a conversion does to the keys of one package

The package is the recipe itself or one of its outputs; what is said here is about the list of its children. -/

namespace Crm.Spec

/-- What becomes of a list of children, and what is said about it. -/
abbrev Step := List Node → List Node → List (Category × Str) → Prop

/-- A change without a word. -/
def quiet (R : List Node → List Node → Prop) : Step := fun ks ks' says => R ks ks' ∧ says = []

/-- The children of the first key of this name change. -/
inductive Below (name : Str) (R : Step) : Step
  | mk {ks a b cs : List Node} {m : Node} {says : List (Category × Str)} : ks = a ++ m :: b → First name a m →
      m.key = true → R m.children cs says → Below name R ks (a ++ { m with children := cs } :: b) says

/-- The children of the first key of this name change, if there is such a key. -/
inductive InKey (name : Str) (R : Step) : Step
  | absent {ks : List Node} : Absent name ks → InKey name R ks ks []
  | present {ks ks' : List Node} {says : List (Category × Str)} : Below name R ks ks' says → InKey name R ks ks' says

/-- There is a key `x` below the first key `g`. -/
def HasBelow (g x : Str) (ks : List Node) : Prop := ∃ a m b, ks = a ++ m :: b ∧ First g a m ∧ ¬ Absent x m.children

/-- What is written under `x` below the first key `g`, if there is anything. -/
inductive ValueBelow (E : Env) (g x : Str) (ks : List Node) : Option PyVal → Prop
  | absent : ¬ HasBelow g x ks → ValueBelow E g x ks none
  | present {a b : List Node} {m : Node} {v : PyVal} : ks = a ++ m :: b → First g a m → m.key = true →
      ValueOf E x m.children (some v) → ValueBelow E g x ks (some v)

/-- A field of `build` moves to `requirements`, which is added if it is missing. -/
inductive MovedAcross (E : Env) (field : Str) : List Node → List Node → Prop
  | absent {ks : List Node} : ¬ HasBelow §"build" field ks → MovedAcross E field ks ks
  | moved {ks ks1 ks2 ks3 : List Node} {v : PyVal} : HasBelow §"build" field ks →
      Ensured E (fun _ => True) §"requirements" ks ks1 →
      Below §"build" (quiet (Taken E field v)) ks1 ks2 [] → Below §"requirements" (quiet (Put E field v)) ks2 ks3 [] →
      MovedAcross E field ks ks3

/-- The number of children that are not comments. -/
def realCount (ks : List Node) : Nat := ks.countP real

/-- The element number `i` of a list changes below; comments are not counted. -/
inductive AtElement (i : Nat) (R : Node → Step) : Step
  | mk {ks a b cs : List Node} {m : Node} {says : List (Category × Str)} : ks = a ++ m :: b → realCount a = i →
      m.isComment = false → m.listMember = true → R m m.children cs says → AtElement i R ks (a ++ { m with children := cs } :: b) says

/-- The elements `i`, `i + 1`, … of a list change, one after the other; there are `n` of them. -/
inductive EachElement (R : Node → Step) : (i n : Nat) → Step
  | done {i : Nat} {ks : List Node} : EachElement R i 0 ks ks []
  | step {i n : Nat} {ks ks1 ks2 : List Node} {s1 s2 : List (Category × Str)} : AtElement i R ks ks1 s1 →
      EachElement R (i + 1) n ks1 ks2 s2 → EachElement R i (n + 1) ks ks2 (s1 ++ s2)

/-- An element of a list that consists of keys. -/
def ElementWithKeys (m : Node) (ks : List Node) : Prop :=
  m.value = .sentinel ∧ m.listMember = true ∧ m.comment = [] ∧ ks ≠ []

/-- What a conversion does to the key `source`. -/
inductive SourcesUpgraded (E : Env) : Step
  | absent {ks : List Node} : Absent §"source" ks → SourcesUpgraded E ks ks []
  | single {ks a b cs : List Node} {m : Node} {v : PyVal} {says : List (Category × Str)} :
      ks = a ++ m :: b → First §"source" a m → m.key = true → keyValue E §"source" m = .ok v → (∀ xs, v ≠ .list xs) →
      SourceUpgraded E (fun _ => True) m.children cs says →
      SourcesUpgraded E ks (a ++ { m with children := cs } :: b) says
  | several {ks a b cs : List Node} {m : Node} {xs : List PyVal} {says : List (Category × Str)} :
      ks = a ++ m :: b → First §"source" a m → m.key = true → keyValue E §"source" m = .ok (.list xs) →
      EachElement (fun e ks ks' s => ElementWithKeys e ks ∧ SourceUpgraded E (ElementWithKeys e) ks ks' s) 0 xs.length
        m.children cs says →
      SourcesUpgraded E ks (a ++ { m with children := cs } :: b) says

/-! ## Tests -/

/-- A key goes below another one, which must be there. -/
inductive MovedInto (E : Env) (old group new : Str) : List Node → List Node → Prop
  | absent {ks : List Node} : Absent old ks → MovedInto E old group new ks ks
  | moved {ks ks1 ks2 : List Node} {v : PyVal} : Taken E old v ks ks1 → Below group (quiet (Put E new v)) ks1 ks2 [] →
      MovedInto E old group new ks ks2

/-- `files` becomes `files/recipe`; `source_files` becomes `files/source`. -/
inductive FilesMoved (E : Env) : List Node → List Node → Prop
  | neither {ks : List Node} : Absent §"files" ks → Absent §"source_files" ks → FilesMoved E ks ks
  | sources {ks ks1 ks2 : List Node} : Absent §"files" ks → ¬ Absent §"source_files" ks →
      Put E §"files" .none ks ks1 → MovedInto E §"source_files" §"files" §"source" ks1 ks2 → FilesMoved E ks ks2
  | files {ks ks1 ks2 ks3 ks4 : List Node} {v : PyVal} : Taken E §"files" v ks ks1 → Put E §"files" .none ks1 ks2 →
      Below §"files" (quiet (Put E §"recipe" v)) ks2 ks3 [] → MovedInto E §"source_files" §"files" §"source" ks3 ks4 →
      FilesMoved E ks ks4

/-- One of the ways to write the command `pip check`. -/
def isPipCheck (v : PyVal) : Prop :=
  v = .str §"pip check" ∨ v = .str §"python -m pip check" ∨ v = .str §"python3 -m pip check"

/-- The element number `i` of a list is taken out; comments are not counted. -/
inductive ElementTaken (i : Nat) : List Node → List Node → Prop
  | mk {a b : List Node} {m : Node} : realCount a = i → m.isComment = false → m.listMember = true →
      ElementTaken i (a ++ m :: b) (a ++ b)

/-- The first key of this name is taken out, if there is one. -/
inductive Dropped (name : Str) : List Node → List Node → Prop
  | absent {ks : List Node} : Absent name ks → Dropped name ks ks
  | gone {a b : List Node} {m : Node} : First name a m → bareValue m = false → Dropped name (a ++ m :: b) (a ++ b)

/-- The command `pip check` is taken out of the commands. `found` says whether there was one; if it was the only
command, then `commands` and `requirements` go as well. -/
inductive PipCheckTaken (E : Env) : (found : Bool) → List Node → List Node → Prop
  | absent {ks : List Node} : Absent §"commands" ks → PipCheckTaken E false ks ks
  | without {ks : List Node} {xs : List PyVal} : ValueOf E §"commands" ks (some (.list xs)) →
      (∀ x ∈ xs, ¬ isPipCheck x) → PipCheckTaken E false ks ks
  | one {ks ks1 : List Node} {xs ys : List PyVal} {x : PyVal} : ValueOf E §"commands" ks (some (.list (xs ++ x :: ys))) →
      (∀ y ∈ xs, ¬ isPipCheck y) → isPipCheck x → (xs ++ x :: ys).length ≠ 1 →
      Below §"commands" (quiet (ElementTaken xs.length)) ks ks1 [] → PipCheckTaken E true ks ks1
  | only {ks ks1 ks2 ks3 : List Node} {x : PyVal} : ValueOf E §"commands" ks (some (.list [x])) → isPipCheck x →
      Below §"commands" (quiet (ElementTaken 0)) ks ks1 [] → ¬ Absent §"commands" ks1 →
      Dropped §"commands" ks1 ks2 → Dropped §"requirements" ks2 ks3 → PipCheckTaken E true ks ks3

/-- A package that needs `python` to be built gets an explicit `pip_check`. -/
inductive PipCheckSet (E : Env) (python : Bool) : List Node → List Node → Prop
  | no {ks : List Node} : python = false → PipCheckSet E python ks ks
  | yes {ks ks1 ks2 ks3 : List Node} {found : Bool} : python = true → PipCheckTaken E found ks ks1 →
      Ensured E (fun _ => True) §"python" ks1 ks2 →
      Below §"python" (quiet (Put E §"pip_check" (.bool found))) ks2 ks3 [] → PipCheckSet E python ks ks3

/-- What a conversion does below the key `test`; `python` says whether the package needs `python` to be built. -/
def TestUpgraded (E : Env) (python : Bool) (ks ks' : List Node) : Prop :=
  ∃ k1 k2 k3 k4 k5 k6, FilesMoved E ks k1 ∧
    MovedBelow E (fun _ => True) §"requires" §"requirements" §"run" k1 k2 ∧
    PipCheckSet E python k2 k3 ∧
    Renamed E (fun _ => True) §"commands" §"script" k3 k4 ∧
    MovedBelow E (fun _ => True) §"imports" §"python" §"imports" k4 k5 ∧
    Renamed E (fun _ => True) §"downstreams" §"downstream" k5 k6 ∧
    InKey §"python" (quiet (Ordered [§"imports", §"pip_check"])) k6 ks' []

/-- The list of tests made from one test: the Python test, the downstream test and what is left, each if there is any. -/
def testList (d : List (Str × PyVal)) : List PyVal :=
  (match lookupD §"python" d with | some v => [.dict [(§"python", v)]] | none => []) ++
  (match lookupD §"downstream" d with | some v => [.dict [(§"downstream", v)]] | none => []) ++
  (match d.filter fun e => e.1 ≠ §"python" ∧ e.1 ≠ §"downstream" with | [] => [] | rest => [.dict rest])

/-- The entries of a mapping. -/
def entries : PyVal → List (Str × PyVal)
  | .dict d => d
  | _ => []

/-- The package needs `python` to be built: `requirements/host` is a list with this word in it. -/
inductive NeedsPython (E : Env) (ks : List Node) : Bool → Prop
  | noHost : ValueBelow E §"requirements" §"host" ks none → NeedsPython E ks false
  | host {xs : List PyVal} : ValueBelow E §"requirements" §"host" ks (some (.list xs)) →
      NeedsPython E ks (decide (.str §"python" ∈ xs))

/-- What a conversion does to the key `test`: its content is changed, split into a list and put under `tests`. -/
inductive TestsUpgraded (E : Env) : List Node → List Node → Prop
  | absent {ks : List Node} : Absent §"test" ks → TestsUpgraded E ks ks
  | moved {ks a b cs ks2 ks3 : List Node} {m : Node} {python : Bool} {d : List (Str × PyVal)} :
      ks = a ++ m :: b → First §"test" a m → m.key = true → NeedsPython E ks python →
      TestUpgraded E python m.children cs → keyValue E §"test" { m with children := cs } = .ok (.dict d) →
      (d.map (·.1)).Nodup →
      Put E §"tests" (.list (testList d)) (a ++ { m with children := cs } :: b) ks2 → ¬ Absent §"test" ks2 →
      Dropped §"test" ks2 ks3 → ks3 ≠ [] → TestsUpgraded E ks ks3

/-! ## The package -/

/-- Misspelt keys: `skipt`, `skips` and `Skip` below `build` are meant to be `skip`, `extras` is meant to be `extra`. -/
def SpellingCorrected (E : Env) (ks ks' : List Node) : Prop :=
  ∃ k1, InKey §"build" (quiet (RenamedAll E (fun _ => True)
      [(§"skipt", §"skip"), (§"skips", §"skip"), (§"Skip", §"skip")])) ks k1 [] ∧
    Renamed E (· ≠ []) §"extras" §"extra" k1 ks'

/-- What a conversion does to the key `build`: `run_exports` and `ignore_run_exports` go to `requirements`, the rest is
converted in place. -/
def BuildMoved (E : Env) (comps : List Str) (ks ks' : List Node) (says : List (Category × Str)) : Prop :=
  ∃ k1 k2, MovedAcross E §"run_exports" ks k1 ∧ MovedAcross E §"ignore_run_exports" k1 k2 ∧
    InKey §"build" (BuildUpgraded E (fun _ => True) (comps ++ [§"build"])) k2 ks' says

/-- What a conversion does to a package, section by section. -/
structure PackageUpgraded (E : Env) (recognised : Str → Option Str) (comps : List Str) (ks ks' : List Node)
    (says : List (Category × Str)) : Prop where
  steps : ∃ k1 k2 k3 k4 k5 s2 s3 s5,
    SpellingCorrected E ks k1 ∧
    SourcesUpgraded E k1 k2 s2 ∧
    BuildMoved E comps k2 k3 s3 ∧
    InKey §"requirements" (quiet (Renamed E (fun _ => True) §"run_constrained" §"run_constraints")) k3 k4 [] ∧
    InKey §"about" (AboutUpgraded E recognised (fun _ => True) (comps ++ [§"about"])) k4 k5 s5 ∧
    TestsUpgraded E k5 ks' ∧ says = s2 ++ s3 ++ s5

end Crm.Spec
