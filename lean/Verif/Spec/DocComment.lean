import Verif.Spec.DocEdit
import Verif.Spec.SelTable
import Verif.Model.Deps

/-!
# Changing the comment on a line of a document

`CommentEdit path base c c' ds ds'` says that the line `base` that `path` leads to has the trailing comment `c` in the document
`ds` and `c'` in `ds'`, and that nothing else differs.
-/

namespace Crm.Spec.Doc

/-- The trailing comment on the line of an entry goes from `c` to `c'`.  Not covered: sections with one item (the item gets the
comment, too), lines of text, and mappings in a list (see the violations). -/
inductive Recommented (c c' : Str) : Doc → Doc → Prop
  | scalar (k vt : Str) (v : PyVal) : v ≠ .sentinel → Recommented c c' (scalar k vt v c) (scalar k vt v c')
  | item (vt : Str) (v : PyVal) : v ≠ .sentinel → Recommented c c' (item vt v c) (item vt v c')
  | empty (k : Str) : Recommented c c' (empty k c) (empty k c')
  | block (k : Str) (cs : List Doc) : (∀ d, cs = [d] → d.node.children ≠ []) →
      Recommented c c' (block k c cs) (block k c' cs)

/-- The place the last component of a path names: a key that is the first of its name, or the element with that number. -/
def Names (last : Str) (pre : List Doc) (d : Doc) : Prop :=
  if isDigitS last = true then (∃ vt v c, d = item vt v c) ∧ natOfStr last = entryCount pre
  else d.keyOf = some last ∧ Fresh last pre

/-- The trailing comment of the entry called `last` goes from `c` to `c'`. -/
def EntryRecommented (last base c c' : Str) (ds ds' : List Doc) : Prop :=
  ∃ pre d d' post, ds = pre ++ d :: post ∧ ds' = pre ++ d' :: post ∧ Names last pre d ∧ Recommented c c' d d' ∧ d.base = base

/-- The trailing comment of the line that `path` leads to goes from `c` to `c'`. -/
def CommentEdit (path base c c' : Str) (ds ds' : List Doc) : Prop :=
  ∃ init last, path = absPath (init ++ [last]) ∧ (∀ x ∈ init ++ [last], Component x) ∧
    Within (EntryRecommented last base c c') init ds ds'

/-- The same, and the line is not the first one of a list element. -/
def CommentEditInside (path base c c' : Str) (ds ds' : List Doc) : Prop :=
  ∃ init last, path = absPath (init ++ [last]) ∧ (∀ x ∈ init ++ [last], Component x) ∧
    Within (fun cs cs' => EntryRecommented last base c c' cs cs' ∧ (endsInNumber init = true → cs.head? = cs'.head?)) init ds ds'

end Crm.Spec.Doc

namespace Crm.Spec

/-- The comment on a line goes from `c` to `c'` when the selector `[body]` is added. -/
inductive SelectorWritten (body : Str) (mode : SelMode) : Str → Str → Prop
  /-- a line without comment -/
  | fresh : SelectorWritten body mode [] (§"# [" ++ body ++ §"]")
  /-- whatever was there makes way -/
  | replaced (c : Str) : mode = .replace → SelectorWritten body mode c (§"# [" ++ body ++ §"]")
  /-- joined to the selector that is there -/
  | joined (c old : Str) : mode ≠ .replace → selectorIn c = some (§"[" ++ old ++ §"]") → '\n' ∉ c →
      SelectorWritten body mode c (§"# [" ++ old ++ (if mode = .and then §" and " else §" or ") ++ body ++ §"]")
  /-- in front of the text that is there -/
  | before (text : Str) : mode ≠ .replace → '[' ∉ text → SelectorWritten body mode ('#' :: text) (§"# [" ++ body ++ §"] " ++ strip text)

/-- The comment on a line goes from `c` to `c'` when the selector `[body]` is removed. -/
inductive SelectorRemoved (body : Str) : Str → Str → Prop
  | alone : SelectorRemoved body (§"# [" ++ body ++ §"]") []
  | before (text : Str) : ']' ∉ text → '#' ∉ text → '\n' ∉ text → (∃ c ∈ text, isSpace c = false) →
      SelectorRemoved body (§"# [" ++ body ++ §"] " ++ text) (§"# " ++ text)

/-- The comment on a line goes from `c` to `c'` when the comment `text` is added. -/
inductive CommentWritten (text : Str) : Str → Str → Prop
  | behind (c sel : Str) : selectorIn c = some sel → (strip text).head? ≠ some '#' → CommentWritten text c (§"# " ++ sel ++ §" " ++ strip text)
  | behindHash (c sel t : Str) : selectorIn c = some sel → strip text = '#' :: t → CommentWritten text c (§"# " ++ sel ++ §" " ++ strip t)
  | plain (c : Str) : selectorIn c = none → (strip text).head? ≠ some '#' → CommentWritten text c (§"# " ++ strip text)
  | hash (c : Str) : selectorIn c = none → (strip text).head? = some '#' → CommentWritten text c (strip text)

/-- `r'` is written as the document `ds'`; compared with what `r` is written as, the line `base` has the comment `c'` instead of
`c`, and all other lines are the same. -/
structure LineSaved (vars : List (Str × PyVal)) (ds' : List Doc) (base c c' : Str) (r r' : Recipe) : Prop where
  text : r'.render = Doc.recipeText vars ds'
  line : ∃ xs ys, r.render = joinStr §"\n" xs ∧ r'.render = joinStr §"\n" ys ∧
    Doc.OneLineDiffers (withComment base c) (withComment base c') xs ys
  modified : r'.modified = true

/-- Everything that can be asked about values, selectors, comments, variables and dependencies has the same answer in both. -/
structure SameAnswers (E : Env) (r r' : Recipe) : Prop where
  value : ∀ path default subVars, r.getValue E path default subVars = r'.getValue E path default subVars
  present : ∀ path, r.containsValue path = r'.containsValue path
  paths : r.listValuePaths = r'.listValuePaths
  selectorAt : ∀ path default, r.getSelectorAtPath path default = r'.getSelectorAtPath path default
  hasSelector : ∀ path, r.containsSelectorAtPath path = r'.containsSelectorAtPath path
  comments : r.getCommentsTable = r'.getCommentsTable
  var : ∀ v default, r.getVariable v default = r'.getVariable v default
  vars : r.listVariables = r'.listVariables
  packages : r.packageNamesToPath E = r'.packageNamesToPath E
  dependencies : ∀ M, r.getAllDependencies E M = r'.getAllDependencies E M
  dependencyPaths : r.getDependencyPaths E = r'.getDependencyPaths E

/-- The list of selectors and the paths where each is used are the same in both. -/
structure SameSelectors (r r' : Recipe) : Prop where
  list : r.listSelectors = r'.listSelectors
  contains : ∀ s, r.containsSelector s = r'.containsSelector s
  paths : ∀ s, (r.getSelectorPaths s).1 = (r'.getSelectorPaths s).1

/-- Opening the file that `r'` is written as gives a recipe that answers as `r'` does, also about the table of selectors. -/
def ReadBackSel (E : Env) (r' : Recipe) : Prop :=
  ∃ r'', Recipe.ofString E r'.render = .ok r'' ∧ SameAnswers E r' r'' ∧ r''.render = r'.render ∧ SameSelectors r' r''

end Crm.Spec
