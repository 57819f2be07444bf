import Verif.Spec.BumpFile
import Verif.Spec.DocComment
import Verif.Spec.Deps

/-!
# Changing the dependencies of a document

The list at `comps` gets one line, loses one line, or one of its lines changes.
-/

namespace Crm.Spec.Doc

/-- `new` is put at the end of a list of `n` entries. -/
def EndsAt (n : Nat) (new : Doc) (cs cs' : List Doc) : Prop := entryCount cs = n ∧ cs' = cs ++ [new]

/-- The item that has `n` entries in front of it, written `line`, makes way for `new`. -/
def ItemLine (n : Nat) (line : Str) (new cs cs' : List Doc) : Prop :=
  ∃ pre vt v c post, cs = pre ++ item vt v c :: post ∧ cs' = pre ++ new ++ post ∧ v ≠ .sentinel ∧ entryCount pre = n ∧
    line = withComment (§"- " ++ vt) c

end Crm.Spec.Doc

namespace Crm.Spec
open Doc

/-- The comment that is written behind a dependency: its selector, if it has one. -/
def SelectorComment (sel : Option SelectorParser) (c : Str) : Prop :=
  match sel with
  | none => c = []
  | some s => ∃ body, s.render = §"[" ++ body ++ §"]" ∧ '\n' ∉ body ∧ c = §"# [" ++ body ++ §"]"

/-- The selector `[old]` of a line joined to a new one. -/
def joinedComment (mode : SelMode) (old body : Str) : Str :=
  §"# [" ++ old ++ (if mode = .and then §" and " else §" or ") ++ body ++ §"]"

/-- YAML reads the list at `comps` of the document as one of `n` entries. -/
def ListLength (E : Env) (comps : List Str) (ds : List Doc) (n : Nat) : Prop :=
  ∀ r : Recipe, r.root = Doc.root ds → ∃ vs, r.getValue E (absPath comps) = .ok (.list vs) ∧ vs.length = n

/-- `r'` is written as the document `ds'`, the lines of which differ from those of `r` as `P` says. -/
structure LinesSaved (vars : List (Str × PyVal)) (ds' : List Doc) (P : List Str → List Str → Prop) (r r' : Recipe) : Prop where
  text : r'.render = Doc.recipeText vars ds'
  lines : ∃ xs ys, r.render = joinStr §"\n" xs ∧ r'.render = joinStr §"\n" ys ∧ P xs ys
  modified : r'.modified = true

/-- One line goes, all others stay. -/
def LineGone (line : Str) (xs ys : List Str) : Prop := (LineChange.added line).Holds ys xs

end Crm.Spec
