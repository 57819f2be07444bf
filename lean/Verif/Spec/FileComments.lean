import Verif.Spec.FileValue

/-!
# The comments of the lines of a file

`commentsOf ds`: the comments of the lines of a document, in the order of the lines, with the path of the line.  A line that holds
nothing but a comment has no path.  The line of a list element that is a mapping has two: that of the element and that of its first key.
-/

namespace Crm.Spec.Doc

mutual
/-- The comments of an entry that is number `i` below the path `p`. -/
def comments (p : List Str) (i : Nat) : Doc → List (Option (List Str) × Str)
  | comment t => [(none, t)]
  | empty k c => [(some (p ++ [k]), c)]
  | scalar k _ _ c => [(some (p ++ [k]), c)]
  | multi k _ c _ => [(some (p ++ [k]), c)]
  | block k c cs => (some (p ++ [k]), c) :: commentsL (p ++ [k]) 0 cs
  | item _ _ c => [(some (p ++ [natStr i]), c)]
  | elem first rest =>
    (some (p ++ [natStr i]), first.trail) :: (first.comments (p ++ [natStr i]) 0 ++ commentsL (p ++ [natStr i]) 1 rest)
/-- The comments of entries below the path `p`, numbered from `i`; comment lines do not count. -/
def commentsL (p : List Str) : Nat → List Doc → List (Option (List Str) × Str)
  | _, [] => []
  | i, d :: ds => d.comments p i ++ commentsL p (if d.isComment then i else i + 1) ds
end

/-- The comments of a document. -/
def commentsOf (ds : List Doc) : List (Option (List Str) × Str) := (commentsL [] 0 ds).filter fun e => e.2 ≠ []

end Crm.Spec.Doc

namespace Crm.Spec
open Doc

/-- The selectors in the comments of a document, in the order of the lines. -/
def fileSelectors (ds : List Doc) : List Str := (commentsOf ds).filterMap fun e => selectorIn e.2

/-- The paths of the lines with the selector `s`, in the order of the lines. -/
def filePathsWith (ds : List Doc) (s : Str) : List Str :=
  (commentsOf ds).filterMap fun e => if selectorIn e.2 = some s then e.1.map absPath else none

/-- The selector `s` is in no line that holds nothing but a comment. -/
def NotAlone (ds : List Doc) (s : Str) : Prop := ∀ e ∈ commentsOf ds, selectorIn e.2 = some s → e.1 ≠ none

/-- No key of a commented line, and none above such a line, is `/`. -/
def NoSlashKey (ds : List Doc) : Prop := ∀ e ∈ commentsOf ds, ∀ p, e.1 = some p → §"/" ∉ p

/-- `c` is the comment of the lines at `path`. -/
def OnlyComment (ds : List Doc) (path c : Str) : Prop :=
  (∃ p, (some p, c) ∈ commentsOf ds ∧ absPath p = path) ∧ ∀ p c', (some p, c') ∈ commentsOf ds → absPath p = path → c' = c

/-- The recipe answers about selectors what the lines of the document say. -/
structure TellsSelectors (ds : List Doc) (r : Recipe) : Prop where
  /-- `list_selectors` lists the selectors in the file, each once, in the order in which they first occur -/
  listed : FirstOccurrences (fileSelectors ds) r.listSelectors
  /-- `contains_selector` says whether the selector occurs in the file -/
  contained : ∀ s, r.containsSelector s = true ↔ s ∈ fileSelectors ds
  /-- `get_selector_paths` lists the paths of the lines with the selector, each once, in the order of the lines -/
  paths : NoSlashKey ds → ∀ s, NotAlone ds s → FirstOccurrences (filePathsWith ds s) (r.getSelectorPaths s).1
  /-- `contains_selector_at_path` and `get_selector_at_path` answer by the comment of the line at the path -/
  atLine : ∀ path d, (∀ x ∈ path, Component x) → LeadsTo path ds d →
    r.containsSelectorAtPath (absPath path) = .ok (selectorIn d.trail).isSome ∧
    r.getSelectorAtPath (absPath path) none = (match selectorIn d.trail with | some s => .ok s | none => .error .keyError)
  /-- where the file has no line, there is no selector (for paths of which no component is a text that the file has as a value) -/
  nowhere : ∀ path, (∀ x ∈ path, Component x) → path ≠ [] → (∀ x ∈ path, x ∉ valueTextsL ds) → (∀ d, ¬ LeadsTo path ds d) →
    r.containsSelectorAtPath (absPath path) = .ok false ∧ ∀ d, r.getSelectorAtPath (absPath path) d = .error .keyError

/-- `get_comments_table` shows what the comments of the lines of the document say. -/
structure TellsComments (ds : List Doc) (r : Recipe) : Prop where
  /-- each path once -/
  once : (r.getCommentsTable.map (·.1)).Nodup
  /-- nothing where no line has a comment -/
  nothing : ∀ path, (∀ p c, (some p, c) ∈ commentsOf ds → absPath p ≠ path) → lookupD path r.getCommentsTable = none
  /-- a comment without a selector as it is -/
  plain : ∀ path c, OnlyComment ds path c → selectorIn c = none → lookupD path r.getCommentsTable = some c
  /-- of `# [selector] text` the text -/
  usual : ∀ path body text, OnlyComment ds path (§"# [" ++ body ++ §"] " ++ text) → text ≠ [] → '#' ∉ text → ']' ∉ text →
    (∀ c, text.head? = some c ∨ text.getLast? = some c → isSpace c = false) →
    lookupD path r.getCommentsTable = some (§"# " ++ text)
  /-- nothing for a selector on its own -/
  alone : ∀ path w1 body w2, OnlyComment ds path (§"#" ++ w1 ++ '[' :: (body ++ ']' :: w2)) → (∀ c ∈ w1, c = ' ') → (∀ c ∈ w2, c = ' ') →
    lookupD path r.getCommentsTable = none
  /-- of any other comment with a selector, its words without the selector -/
  text : ∀ path pre body post, OnlyComment ds path (pre ++ '[' :: (body ++ ']' :: post)) → '[' ∉ pre → ']' ∉ post → words (pre ++ post) ≠ [] →
    ∃ c, lookupD path r.getCommentsTable = some c ∧ words c = words (pre ++ post) ∧ c.head? = some '#' ∧ selectorIn c = none

end Crm.Spec
