import Verif.Spec.DocDeps
import Verif.Spec.YamlText
import Verif.Spec.SelTable

/-!
# The dependencies that a file lists

`LeadsTo path ds d`: the components of `path` lead to the entry `d` of the document `ds`.  `dependencyLines` collects the lines
`- text  # comment` of the sections of a `requirements` block.
-/

namespace Crm.Spec.Doc

/-- The entry is an element of a list. -/
def isElement : Doc → Bool
  | item _ _ _ => true
  | elem _ _ => true
  | _ => false

/-- The entry that a component of a path names: the first one with that key, or the list element with that number (comment lines do
not count). -/
def Picks (part : Str) (pre : List Doc) (d : Doc) : Prop :=
  if isDigitS part = true then d.isElement = true ∧ natOfStr part = entryCount pre else d.keyOf = some part ∧ Fresh part pre

/-- The path leads to the entry `d`. -/
inductive LeadsTo : List Str → List Doc → Doc → Prop
  | here {part pre d post} : Picks part pre d → LeadsTo [part] (pre ++ d :: post) d
  | key {k c cs pre post path d} : Picks k pre (block k c cs) → LeadsTo path cs d → LeadsTo (k :: path) (pre ++ block k c cs :: post) d
  | element {i first rest pre post path d} : Picks i pre (elem first rest) → LeadsTo path (first :: rest) d →
      LeadsTo (i :: path) (pre ++ elem first rest :: post) d

/-- The items of a list with their numbers, values and comments. -/
def numbered : Nat → List Doc → List (Nat × PyVal × Str)
  | _, [] => []
  | n, item _ v c :: ds => (n, v, c) :: numbered (n + 1) ds
  | n, d :: ds => numbered (if d.isComment then n else n + 1) ds

/-- A list of texts, with comment lines in between. -/
def TextList (cs : List Doc) : Prop := ∀ d ∈ cs, d.isComment = true ∨ ∃ vt t c, d = item vt (.str t) c

end Crm.Spec.Doc

namespace Crm.Spec
open Doc

/-- A line of a `requirements` block: the section, its name in the file, the number of the line in it, its text, its comment. -/
structure DepLine where
  type : DepSection
  name : Str
  number : Nat
  text : Str
  comment : Str

/-- The lines of an entry of a `requirements` block: there are some if it is a section with a known name. -/
def sectionLines : Doc → List DepLine
  | block k _ cs => match strToDepSection k with
    | some s => (numbered 0 cs).filterMap fun (i, v, c) => match v with
      | .str t => some ⟨s, k, i, t, c⟩
      | _ => none
    | none => []
  | _ => []

/-- The lines of the sections. -/
def dependencyLines (reqs : List Doc) : List DepLine := reqs.flatMap sectionLines

/-- `reqs` is the block of `requirements` of the package at `path`: nothing if the package has no such block. -/
inductive RequirementsOf (ds : List Doc) : Str → List Doc → Prop
  | top {c reqs} : LeadsTo [§"requirements"] ds (block §"requirements" c reqs) → RequirementsOf ds §"/" reqs
  | noTop : Fresh §"requirements" ds → RequirementsOf ds §"/" []
  | output {o c reqs} : isDigitS o = true → LeadsTo [§"outputs", o, §"requirements"] ds (block §"requirements" c reqs) →
      RequirementsOf ds (absPath [§"outputs", o]) reqs
  | noOutput {o first rest} : isDigitS o = true → LeadsTo [§"outputs", o] ds (elem first rest) →
      Fresh §"requirements" (first :: rest) → RequirementsOf ds (absPath [§"outputs", o]) []

/-- The entries of a `requirements` block are the entries of the mapping: comments leave no trace, a section with a known name is the
list of its texts, any other key has some value. -/
inductive MappingOf : List Doc → List (Str × PyVal) → Prop
  | nil : MappingOf [] []
  | comment {ds d} (t : Str) : MappingOf ds d → MappingOf (comment t :: ds) d
  | texts {ds d} (k c : Str) (cs : List Doc) : (strToDepSection k).isSome = true → '/' ∉ k → TextList cs → MappingOf ds d →
      MappingOf (block k c cs :: ds) ((k, .list ((numbered 0 cs).map (·.2.1))) :: d)
  | other {ds d} (e : Doc) (k : Str) (v : PyVal) : e.keyOf = some k → strToDepSection k = none → MappingOf ds d →
      MappingOf (e :: ds) ((k, v) :: d)

/-- YAML, with expressions taken as text, reads the block as the mapping `d`. -/
structure YamlReads (E : Env) (reqs : List Doc) (d : List (Str × PyVal)) : Prop where
  load : reqs ≠ [] → ReadsText E (text reqs) (.dict d)
  mapping : MappingOf reqs d
  distinct : (d.map (·.1)).Nodup

/-- What a dependency line of the package called `package` is reported as: `fill` is the value of a text once its variables are
replaced. -/
def reportedLine (M : Str → Option Str) (newFormat : Bool) (fill : Str → Str) (path : Str) (package : PyVal) (l : DepLine) : Option Dep :=
  if strip (fill l.text) = [] then none
  else some {
    requiredBy := package
    path := prefixOf path ++ absPath [§"requirements", l.name, natStr l.number]
    type := l.type
    data := depDataFromStr M (strip (fill l.text))
    selector := (selectorIn l.comment).map fun s => SelectorParser.mk' s newFormat }

end Crm.Spec
