import Verif.Spec.FileDeps

/-!
# The values in a file

`valuesOf ds`: the lines of a document that hold a value, in order, with the path of the line, the value, its text and its comment.
-/

namespace Crm.Spec.Doc

/-- A line that holds a value. -/
structure ValueLine where
  path : List Str
  /-- `none` for a key without a value -/
  value : Option PyVal
  /-- what is searched by `search`: the text of the value; for a key without a value its name, for a text of several lines the list of
  the lines, as Python prints it -/
  text : Str
  /-- the comment behind the value; a text of several lines has none -/
  comment : Str

mutual
/-- The value lines of an entry that is number `i` below the path `p`. -/
def values (p : List Str) (i : Nat) : Doc → List ValueLine
  | comment _ => []
  | empty k c => [⟨p ++ [k], none, k, c⟩]
  | scalar k vt v c => [⟨p ++ [k], some v, vt, c⟩]
  | multi k _ _ body => [⟨p ++ [k], some (.list (body.map .str)), pyStr (.list (body.map .str)), []⟩]
  | block k _ cs => valuesL (p ++ [k]) 0 cs
  | item vt v c => [⟨p ++ [natStr i], some v, vt, c⟩]
  | elem first rest => first.values (p ++ [natStr i]) 0 ++ valuesL (p ++ [natStr i]) 1 rest
/-- The value lines of entries below the path `p`, numbered from `i`; comment lines do not count. -/
def valuesL (p : List Str) : Nat → List Doc → List ValueLine
  | _, [] => []
  | i, d :: ds => d.values p i ++ valuesL p (if d.isComment then i else i + 1) ds
end

/-- The value lines of a document. -/
def valuesOf (ds : List Doc) : List ValueLine := valuesL [] 0 ds

end Crm.Spec.Doc

namespace Crm.Spec
open Doc

/-- The paths of the value lines that satisfy `f`, in the order of the file. -/
def filePaths (ds : List Doc) (f : ValueLine → Bool) : List Str := ((valuesOf ds).filter f).map fun e => absPath e.path

/-- The recipe finds the values that the lines of the document hold. -/
structure TellsValues (ds : List Doc) (r : Recipe) : Prop where
  /-- `list_value_paths` lists the paths of all values, in the order of the file -/
  listed : r.listValuePaths = filePaths ds fun _ => true
  /-- `find_value` lists the paths of the lines with the value, provided that no key without a value has it as its name -/
  found : ∀ v, v.isPrimitive = true → v ≠ .none → (∀ e ∈ valuesOf ds, e.value = none → v ≠ .str e.text) →
    r.findValue v = .ok (filePaths ds fun e => decide (e.value = some v))
  /-- `find_value` of `None` lists the paths of the empty keys and of the lines with `null` -/
  foundNone : r.findValue .none = .ok (filePaths ds fun e => decide (e.value = none) || decide (e.value = some .none))
  /-- `search` lists the paths of the lines whose text matches -/
  searched : ∀ re, r.search re = filePaths ds fun e => re e.text
  /-- … with `include_comment`, of those whose text and comment match -/
  searchedComments : ∀ re, r.search re true = filePaths ds fun e => re (e.text ++ if e.comment = [] then [] else §"  " ++ e.comment)

/-- No key on the path of a value is `/`. -/
def NoSlashPath (ds : List Doc) : Prop := ∀ e ∈ valuesOf ds, §"/" ∉ e.path

end Crm.Spec
