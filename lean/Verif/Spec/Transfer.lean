import Verif.Spec.DocEdit
import Verif.Model.Traverse

/-!
# Copies and moves within a file

What `copy` and `move` make of the entries of a file: the value that the source reads as is added at the target, and with `move` the source
goes first.
-/

namespace Crm.Spec
open Doc

/-- The entry at `path` of a file with the entries `ds` reads as `v`. -/
def EntryReads (E : Env) (path : Str) (ds : List Doc) (v : PyVal) : Prop :=
  ∀ r : Recipe, r.root = Doc.root ds → r.getValue E path = .ok v

/-- The patch that adds `v` at `path`. -/
def addition (path : Str) (v : PyVal) : PyVal := .dict [(§"op", .str §"add"), (§"path", .str path), (§"value", v)]

/-- The patch that removes what is at `path`. -/
def removal (path : Str) : PyVal := .dict [(§"op", .str §"remove"), (§"path", .str path)]

/-- What a `copy` or a `move` makes of the entries of a file. -/
inductive Transfer (E : Env) (p : PyVal) (ds ds' : List Doc) : Prop
  | copy (path src : Str) (v : PyVal) : IsPatch p §"copy" path → field p §"from" = some (.str src) → EntryReads E src ds v → v ≠ .sentinel →
      CleanEdit E (addition path v) ds ds' → Transfer E p ds ds'
  /-- the value can be added with the source there, and when it is gone -/
  | move (path src : Str) (v : PyVal) (both rest : List Doc) : IsPatch p §"move" path → field p §"from" = some (.str src) → src ≠ path →
      EntryReads E src ds v → v ≠ .sentinel → CleanEdit E (addition path v) ds both → CleanEdit E (removal src) ds rest →
      CleanEdit E (addition path v) rest ds' → Transfer E p ds ds'

end Crm.Spec
