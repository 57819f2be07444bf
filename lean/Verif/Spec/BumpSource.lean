import Verif.Spec.FileDeps
import Verif.Spec.FileValue
import Verif.Props.PlainValue

/-!
# The URLs of a file's sources at another version (C110)
-/

namespace Crm.Spec
open Doc

/-- The definitions with the version `t` in the variable `version`, if there is one. -/
inductive NewVersion (t : Str) : List (Str × PyVal) → List (Str × PyVal) → Prop
  | byVariable {pre old post} : (∀ e ∈ pre, e.1 ≠ §"version") → old ≠ .none →
      NewVersion t (pre ++ (§"version", old) :: post) (pre ++ (§"version", .str t) :: post)
  | noVariable {vars} : (∀ e ∈ vars, e.1 ≠ §"version") → NewVersion t vars vars

/-- The lines `cs` are the section `source` of the file; YAML reads them as `raw`, expressions as they are written.  If this is a
list, then each of its elements stands in the file as `- key: …` and the lines below it.  No value in the file is the text `sha256`. -/
structure SourceSection (E : Env) (ds : List Doc) (c : Str) (cs : List Doc) (raw : PyVal) : Prop where
  place : LeadsTo [§"source"] ds (block §"source" c cs)
  read : ReadsText E (text cs) raw
  noText : ∀ vt v c', cs ≠ [item vt v c']
  oneElement : ∀ first rest, cs = [elem first rest] → ∃ l, raw = .list l
  elements : ∀ l j, raw = .list l → j < l.length → ∃ first rest, LeadsTo [§"source", natStr j] ds (elem first rest)
  names : §"sha256" ∉ valueTextsL ds

/-- The text of the URL of the source at the path. -/
inductive UrlText : PyVal → Str → Str → Prop
  | one {d s} : lookupD §"url" d = some (.str s) → UrlText (.dict d) §"/source" s
  | element {l i d s} : l[i]? = some (.dict d) → lookupD §"url" d = some (.str s) → UrlText (.list l) (§"/source/" ++ natStr i) s

end Crm.Spec
