import Verif.Spec.Document
import Verif.Spec.Edit
import Verif.Spec.Patch
import Verif.Spec.OneLine
import Verif.Spec.Path

/-!
# Editing a document

What a JSON patch does to a document as it is written: `DocEdit E p ds ds'` says that the patch `p` turns the document `ds`
into `ds'`.
-/

namespace Crm.Spec.Doc

/-- A key with entries below it, or with nothing below it. -/
def sec (k c : Str) (cs : List Doc) : Doc := if cs = [] then empty k c else block k c cs

/-- The number of entries that are not comment lines. -/
def entryCount (ds : List Doc) : Nat := ds.countP fun d => real d.node

/-- No entry is called `k`. -/
def Fresh (k : Str) (ds : List Doc) : Prop := ∀ d ∈ ds, d.node.value ≠ .str k

/-- The first entry called `k`. -/
def entryNamed (k : Str) (ds : List Doc) : Option Doc := ds.find? fun d => decide (d.node.value = .str k)

/-- Both documents say alike how they are to be read: by `schema_version`, which recipes of the old format do not have, and in the
new format by the variables in `context`. -/
def SameFormat (ds ds' : List Doc) : Prop :=
  entryNamed §"schema_version" ds = entryNamed §"schema_version" ds' ∧
    (Fresh §"schema_version" ds ∨ entryNamed §"context" ds = entryNamed §"context" ds')

/-- The entries below the place that `path` names go from `cs` to `cs'` with `R cs cs'`; all other entries stay. -/
inductive Within (R : List Doc → List Doc → Prop) : List Str → List Doc → List Doc → Prop
  | here {ds ds'} : R ds ds' → Within R [] ds ds'
  | key {k c cs cs' pre post path} : isDigitS k = false → Fresh k pre → Within R path cs cs' →
      Within R (k :: path) (pre ++ sec k c cs :: post) (pre ++ sec k c cs' :: post)
  | element {i first rest first' rest' pre post path} : isDigitS i = true → natOfStr i = entryCount pre →
      Within R path (first :: rest) (first' :: rest') →
      Within R (i :: path) (pre ++ elem first rest :: post) (pre ++ elem first' rest' :: post)

/-- The entry with the key `k` is replaced by `new`, or goes if there is none. -/
def KeyBecomes (k : Str) (new : List Doc) (ds ds' : List Doc) : Prop :=
  ∃ pre d post, ds = pre ++ d :: post ∧ ds' = pre ++ new ++ post ∧ d.keyOf = some k ∧ Fresh k pre

/-- `k: vt` with the trailing comment `c` is replaced by `k: w` without comment. -/
def ScalarBecomes (k vt : Str) (v : PyVal) (c : Str) (w : PyVal) (ds ds' : List Doc) : Prop :=
  ∃ pre post, ds = pre ++ scalar k vt v c :: post ∧ ds' = pre ++ scalar k (yamlText w) w [] :: post ∧ Fresh k pre

/-- The list item that has `i` items in front of it is replaced by `new`, or goes if there is none. -/
def ItemBecomes (i : Nat) (new : List Doc) (ds ds' : List Doc) : Prop :=
  ∃ pre vt v c post, ds = pre ++ item vt v c :: post ∧ ds' = pre ++ new ++ post ∧ v ≠ .sentinel ∧ entryCount pre = i

/-- `new` is put in front of the list item that has `i` items in front of it. -/
def ItemBefore (i : Nat) (new : Doc) (ds ds' : List Doc) : Prop :=
  ∃ pre vt v c post, ds = pre ++ item vt v c :: post ∧ ds' = pre ++ new :: item vt v c :: post ∧ v ≠ .sentinel ∧
    entryCount pre = i

/-- The mapping in a list that has `i` elements in front of it goes. -/
def ElemGoes (i : Nat) (ds ds' : List Doc) : Prop :=
  ∃ pre first rest post, ds = pre ++ elem first rest :: post ∧ ds' = pre ++ post ∧ entryCount pre = i

/-- `new` is put at the end. -/
def Ends (new : Doc) (ds ds' : List Doc) : Prop := ds' = ds ++ [new]

/-- `new` is put at the end of a section that has no entry called `k`. -/
def EndsFresh (k : Str) (new : Doc) (ds ds' : List Doc) : Prop := Fresh k ds ∧ ds' = ds ++ [new]

/-- The section called `k` gets the entries `new`. -/
def SectionBecomes (k : Str) (new : List Doc) (ds ds' : List Doc) : Prop :=
  ∃ pre c cs post, ds = pre ++ sec k c cs :: post ∧ ds' = pre ++ sec k c new :: post ∧ Fresh k pre

/-- The key `k`, whatever it had before, gets the entries `new`; the comment behind it stays. -/
def KeyGets (k : Str) (new : List Doc) (ds ds' : List Doc) : Prop :=
  ∃ pre d post, ds = pre ++ d :: post ∧ ds' = pre ++ block k d.trail new :: post ∧ d.keyOf = some k ∧ Fresh k pre

/-- The mapping that has `i` entries in front of it in a list makes way for another one. -/
def ElemBecomes (i : Nat) (first' : Doc) (rest' : List Doc) (ds ds' : List Doc) : Prop :=
  ∃ pre first rest post, ds = pre ++ elem first rest :: post ∧ ds' = pre ++ elem first' rest' :: post ∧ entryCount pre = i

/-- The same, if no comment behind the first line goes with it. -/
def PlainElemBecomes (i : Nat) (first' : Doc) (rest' : List Doc) (ds ds' : List Doc) : Prop :=
  ∃ pre first rest post, ds = pre ++ elem first rest :: post ∧ ds' = pre ++ elem first' rest' :: post ∧ entryCount pre = i ∧
    first.trail = first'.trail

/-- A value of one line that YAML reads as the scalar `w`. -/
structure Scalar (E : Env) (v w : PyVal) : Prop where
  primitive : v.isPrimitive = true
  oneLine : ∀ s, v = .str s → '\n' ∉ s
  reads : OneLine E (yamlText v) w
  scalar : isScalar w = true
  notSchema : w ≠ .str §"schema_version"

/-- A list or mapping that YAML writes as the entries `new`. -/
structure Collection (E : Env) (v : PyVal) (new : List Doc) : Prop where
  collection : (∃ xs, v = .list xs) ∨ ∃ kvs, v = .dict kvs
  wellFormed : OkL E new
  nonEmpty : new ≠ []
  noText : endsInTextL false new = false
  written : E.dump v = joinStr §"\n" (linesL 0 new) ++ §"\n"
  notSchema : Fresh §"schema_version" new

/-- What a patch does to a document. -/
inductive DocEdit (E : Env) (p : PyVal) (ds ds' : List Doc) : Prop
  /-- `k: …` becomes `k: w`; a comment behind it is gone -/
  | replaceKey (init : List Str) (k : Str) (v w : PyVal) : (∀ c ∈ init ++ [k], Component c) → isDigitS k = false →
      IsPatch p §"replace" (absPath (init ++ [k])) → field p §"value" = some v → Scalar E v w →
      Within (KeyBecomes k [scalar k (yamlText w) w []]) init ds ds' → DocEdit E p ds ds'
  /-- `add` at a key that is there: `k: …` becomes `k: w`; a comment behind it is gone -/
  | overwriteKey (init : List Str) (k : Str) (v w : PyVal) : (∀ c ∈ init ++ [k], Component c) → isDigitS k = false → k ≠ §"-" →
      IsPatch p §"add" (absPath (init ++ [k])) → field p §"value" = some v → Scalar E v w →
      Within (KeyBecomes k [scalar k (yamlText w) w []]) init ds ds' → DocEdit E p ds ds'
  /-- the entries of a section make way for others -/
  | replaceSection (op : Str) (init : List Str) (k : Str) (v : PyVal) (new : List Doc) : (∀ c ∈ init ++ [k], Component c) →
      isDigitS k = false → (op = §"replace" ∨ op = §"add" ∧ k ≠ §"-") → IsPatch p op (absPath (init ++ [k])) →
      field p §"value" = some v → Collection E v new → Within (SectionBecomes k new) init ds ds' → DocEdit E p ds ds'
  /-- a mapping in a list makes way for another one (also with `add`: see `C11_collection_overwritten`) -/
  | replaceElem (op : Str) (init : List Str) (i : Str) (v : PyVal) (first : Doc) (rest : List Doc) : (∀ c ∈ init ++ [i], Component c) →
      isDigitS i = true → (op = §"replace" ∨ op = §"add") → IsPatch p op (absPath (init ++ [i])) → field p §"value" = some v →
      Collection E v (first :: rest) → Within (ElemBecomes (natOfStr i) first rest) init ds ds' → DocEdit E p ds ds'
  /-- `- …` becomes `- w`; a comment behind it is gone -/
  | replaceItem (init : List Str) (i : Str) (v w : PyVal) : (∀ c ∈ init ++ [i], Component c) → isDigitS i = true →
      IsPatch p §"replace" (absPath (init ++ [i])) → field p §"value" = some v → Scalar E v w →
      Within (ItemBecomes (natOfStr i) [item (yamlText w) w []]) init ds ds' → DocEdit E p ds ds'
  /-- a new key at the end of a section -/
  | addKey (init : List Str) (k : Str) (v : PyVal) (new : Doc) : (∀ c ∈ init ++ [k], Component c) → isDigitS k = false →
      k ≠ §"-" → IsPatch p §"add" (absPath (init ++ [k])) → field p §"value" = some v →
      Collection E (.dict [(k, v)]) [new] → ds ≠ [] → Within (EndsFresh k new) init ds ds' → DocEdit E p ds ds'
  /-- a new item in front of another one -/
  | addItem (init : List Str) (i : Str) (v w : PyVal) : (∀ c ∈ init ++ [i], Component c) → isDigitS i = true →
      IsPatch p §"add" (absPath (init ++ [i])) → field p §"value" = some v → Scalar E v w →
      Within (ItemBefore (natOfStr i) (item (yamlText w) w [])) init ds ds' → DocEdit E p ds ds'
  /-- `- …` becomes a mapping -/
  | itemToElem (init : List Str) (i : Str) (v : PyVal) (first : Doc) (rest : List Doc) : (∀ c ∈ init ++ [i], Component c) →
      isDigitS i = true → IsPatch p §"replace" (absPath (init ++ [i])) → field p §"value" = some v → Collection E v (first :: rest) →
      Within (ItemBecomes (natOfStr i) [elem first rest]) init ds ds' → DocEdit E p ds ds'
  /-- a new mapping in front of an item -/
  | addElem (init : List Str) (i : Str) (v : PyVal) (first : Doc) (rest : List Doc) : (∀ c ∈ init ++ [i], Component c) →
      isDigitS i = true → IsPatch p §"add" (absPath (init ++ [i])) → field p §"value" = some v → Collection E v (first :: rest) →
      Within (ItemBefore (natOfStr i) (elem first rest)) init ds ds' → DocEdit E p ds ds'
  /-- a new item at the end -/
  | appendItem (init : List Str) (v w : PyVal) : (∀ c ∈ init, Component c) →
      IsPatch p §"add" (absPath (init ++ [§"-"])) → field p §"value" = some v → Scalar E v w → ds ≠ [] →
      Within (Ends (item (yamlText w) w [])) init ds ds' → DocEdit E p ds ds'
  /-- a new mapping at the end of a list -/
  | appendElem (init : List Str) (v : PyVal) (first : Doc) (rest : List Doc) : (∀ c ∈ init, Component c) →
      IsPatch p §"add" (absPath (init ++ [§"-"])) → field p §"value" = some v → Collection E v (first :: rest) → ds ≠ [] →
      Within (Ends (elem first rest)) init ds ds' → DocEdit E p ds ds'
  /-- a key goes, with everything below it -/
  | removeKey (init : List Str) (k : Str) : (∀ c ∈ init ++ [k], Component c) → isDigitS k = false →
      IsPatch p §"remove" (absPath (init ++ [k])) → Within (KeyBecomes k []) init ds ds' → DocEdit E p ds ds'
  /-- an item goes -/
  | removeItem (init : List Str) (i : Str) : (∀ c ∈ init ++ [i], Component c) → isDigitS i = true →
      IsPatch p §"remove" (absPath (init ++ [i])) → Within (ItemBecomes (natOfStr i) []) init ds ds' → DocEdit E p ds ds'
  /-- a mapping in a list goes -/
  | removeElem (init : List Str) (i : Str) : (∀ c ∈ init ++ [i], Component c) → isDigitS i = true →
      IsPatch p §"remove" (absPath (init ++ [i])) → Within (ElemGoes (natOfStr i)) init ds ds' → DocEdit E p ds ds'

/-- A list of patches, one after the other. -/
inductive DocEdits (E : Env) : List PyVal → List Doc → List Doc → Prop
  | nil {ds} : DocEdits E [] ds ds
  | cons {p ps ds ds' ds''} : DocEdit E p ds ds' → DocEdits E ps ds' ds'' → DocEdits E (p :: ps) ds ds''

/-- `R`, and below a list element (a path that ends in a number) the first entry keeps its trailing comment. -/
def Leads (init : List Str) (R : List Doc → List Doc → Prop) (cs cs' : List Doc) : Prop :=
  R cs cs' ∧ (endsInNumber init = true → cs.head?.map trail = cs'.head?.map trail)

/-- The entry with the key `k`, without a comment behind it, is replaced by `new`. -/
def PlainKeyBecomes (k : Str) (new : Doc) (ds ds' : List Doc) : Prop :=
  ∃ pre d post, ds = pre ++ d :: post ∧ ds' = pre ++ new :: post ∧ d.keyOf = some k ∧ d.trail = [] ∧ Fresh k pre

/-- What a patch does to a document, for a patch that takes away no comment behind a line that stays. -/
inductive CleanEdit (E : Env) (p : PyVal) (ds ds' : List Doc) : Prop
  /-- `k: …` becomes `k: w` -/
  | setKey (op : Str) (init : List Str) (k : Str) (v w : PyVal) : (∀ c ∈ init ++ [k], Component c) → isDigitS k = false →
      (op = §"replace" ∨ op = §"add" ∧ k ≠ §"-") → IsPatch p op (absPath (init ++ [k])) → field p §"value" = some v → Scalar E v w →
      Within (Leads init (PlainKeyBecomes k (scalar k (yamlText w) w []))) init ds ds' → CleanEdit E p ds ds'
  /-- the entries of a section make way for others -/
  | replaceSection (op : Str) (init : List Str) (k : Str) (v : PyVal) (new : List Doc) : (∀ c ∈ init ++ [k], Component c) →
      isDigitS k = false → (op = §"replace" ∨ op = §"add" ∧ k ≠ §"-") → IsPatch p op (absPath (init ++ [k])) →
      field p §"value" = some v → Collection E v new → Within (Leads init (KeyGets k new)) init ds ds' → CleanEdit E p ds ds'
  /-- a mapping in a list makes way for another one -/
  | replaceElem (op : Str) (init : List Str) (i : Str) (v : PyVal) (first : Doc) (rest : List Doc) : (∀ c ∈ init ++ [i], Component c) →
      isDigitS i = true → (op = §"replace" ∨ op = §"add") → IsPatch p op (absPath (init ++ [i])) → field p §"value" = some v →
      Collection E v (first :: rest) → Within (Leads init (PlainElemBecomes (natOfStr i) first rest)) init ds ds' → CleanEdit E p ds ds'
  /-- `- …` becomes `- w` (a comment behind the item goes with it) -/
  | replaceItem (init : List Str) (i : Str) (v w : PyVal) : (∀ c ∈ init ++ [i], Component c) → isDigitS i = true →
      IsPatch p §"replace" (absPath (init ++ [i])) → field p §"value" = some v → Scalar E v w →
      Within (Leads init (ItemBecomes (natOfStr i) [item (yamlText w) w []])) init ds ds' → CleanEdit E p ds ds'
  /-- a new key at the end of a section -/
  | addKey (init : List Str) (k : Str) (v : PyVal) (new : Doc) : (∀ c ∈ init ++ [k], Component c) → isDigitS k = false →
      k ≠ §"-" → IsPatch p §"add" (absPath (init ++ [k])) → field p §"value" = some v →
      Collection E (.dict [(k, v)]) [new] → ds ≠ [] → Within (Leads init (EndsFresh k new)) init ds ds' → CleanEdit E p ds ds'
  /-- a new item in front of another one -/
  | addItem (init : List Str) (i : Str) (v w : PyVal) : (∀ c ∈ init ++ [i], Component c) → isDigitS i = true →
      IsPatch p §"add" (absPath (init ++ [i])) → field p §"value" = some v → Scalar E v w →
      Within (Leads init (ItemBefore (natOfStr i) (item (yamlText w) w []))) init ds ds' → CleanEdit E p ds ds'
  /-- `- …` becomes a mapping -/
  | itemToElem (init : List Str) (i : Str) (v : PyVal) (first : Doc) (rest : List Doc) : (∀ c ∈ init ++ [i], Component c) →
      isDigitS i = true → IsPatch p §"replace" (absPath (init ++ [i])) → field p §"value" = some v → Collection E v (first :: rest) → first.trail = [] →
      Within (Leads init (ItemBecomes (natOfStr i) [elem first rest])) init ds ds' → CleanEdit E p ds ds'
  /-- a new mapping in front of an item -/
  | addElem (init : List Str) (i : Str) (v : PyVal) (first : Doc) (rest : List Doc) : (∀ c ∈ init ++ [i], Component c) →
      isDigitS i = true → IsPatch p §"add" (absPath (init ++ [i])) → field p §"value" = some v → Collection E v (first :: rest) → first.trail = [] →
      Within (Leads init (ItemBefore (natOfStr i) (elem first rest))) init ds ds' → CleanEdit E p ds ds'
  /-- a new item at the end -/
  | appendItem (init : List Str) (v w : PyVal) : (∀ c ∈ init, Component c) →
      IsPatch p §"add" (absPath (init ++ [§"-"])) → field p §"value" = some v → Scalar E v w → ds ≠ [] →
      Within (Leads init (Ends (item (yamlText w) w []))) init ds ds' → CleanEdit E p ds ds'
  /-- a new mapping at the end of a list -/
  | appendElem (init : List Str) (v : PyVal) (first : Doc) (rest : List Doc) : (∀ c ∈ init, Component c) →
      IsPatch p §"add" (absPath (init ++ [§"-"])) → field p §"value" = some v → Collection E v (first :: rest) → first.trail = [] →
      ds ≠ [] → Within (Leads init (Ends (elem first rest))) init ds ds' → CleanEdit E p ds ds'
  /-- a key goes, with everything below it -/
  | removeKey (init : List Str) (k : Str) : (∀ c ∈ init ++ [k], Component c) → isDigitS k = false →
      IsPatch p §"remove" (absPath (init ++ [k])) → Within (Leads init (KeyBecomes k [])) init ds ds' → CleanEdit E p ds ds'
  /-- an item goes -/
  | removeItem (init : List Str) (i : Str) : (∀ c ∈ init ++ [i], Component c) → isDigitS i = true →
      IsPatch p §"remove" (absPath (init ++ [i])) → Within (Leads init (ItemBecomes (natOfStr i) [])) init ds ds' → CleanEdit E p ds ds'
  /-- a mapping in a list goes -/
  | removeElem (init : List Str) (i : Str) : (∀ c ∈ init ++ [i], Component c) → isDigitS i = true →
      IsPatch p §"remove" (absPath (init ++ [i])) → Within (Leads init (ElemGoes (natOfStr i))) init ds ds' → CleanEdit E p ds ds'

/-- A list of such patches, one after the other. -/
inductive CleanEdits (E : Env) : List PyVal → List Doc → List Doc → Prop
  | nil {ds} : CleanEdits E [] ds ds
  | cons {p ps ds ds' ds''} : CleanEdit E p ds ds' → CleanEdits E ps ds' ds'' → CleanEdits E (p :: ps) ds ds''

/-- The lines are the same but for one, that goes from `a` to `b` behind the same margin. -/
def OneLineDiffers (a b : Str) (xs ys : List Str) : Prop :=
  ∃ before margin after, xs = before ++ (margin ++ a) :: after ∧ ys = before ++ (margin ++ b) :: after

end Crm.Spec.Doc

namespace Crm.Spec

/-- Apply the patches one after the other; `none` unless each of them answers `True`. -/
def applyAll (E : Env) : List PyVal → Recipe → Option Recipe
  | [], r => some r
  | p :: ps, r => match r.patch E p with
    | (.ok true, r') => applyAll E ps r'
    | _ => none

end Crm.Spec
