import Verif.Spec.DocDeps
import Verif.Spec.History
import Verif.Spec.Transfer

/-!
# A session of edits on a file

What each call makes of the variables and the document that the file holds.
-/

namespace Crm.Spec
open Doc

/-- `vars'` is `vars` with the value of `k` changed in its place, or with `k` at the end. -/
inductive VarSet (k : Str) (v : PyVal) : List (Str × PyVal) → List (Str × PyVal) → Prop
  | change (pre : List (Str × PyVal)) (old : PyVal) (post : List (Str × PyVal)) : (∀ e ∈ pre, e.1 ≠ k) →
      VarSet k v (pre ++ (k, old) :: post) (pre ++ (k, v) :: post)
  | new (vars : List (Str × PyVal)) : (∀ e ∈ vars, e.1 ≠ k) → VarSet k v vars (vars ++ [(k, v)])

/-- `vars'` is `vars` without `k`. -/
inductive VarGone (k : Str) : List (Str × PyVal) → List (Str × PyVal) → Prop
  | gone (pre : List (Str × PyVal)) (old : PyVal) (post : List (Str × PyVal)) : (∀ e ∈ pre, e.1 ≠ k) →
      VarGone k (pre ++ (k, old) :: post) (pre ++ post)
  | absent (vars : List (Str × PyVal)) : (∀ e ∈ vars, e.1 ≠ k) → VarGone k vars vars

/-- The list at `comps` of a file of format `v` with the variables `vars` and the document `ds` reads as `items`. -/
def SectionReads (E : Env) (v : Schema) (vars : List (Str × PyVal)) (comps : List Str) (ds : List Doc) (items : List PyVal) : Prop :=
  ∀ r : Recipe, r.root = Doc.root ds → r.schema = v → (v = .v0 → r.vars = vars) →
    r.getValue E (absPath comps) (some (.list [])) true = .ok (.list items)

/-- The line at `path` of the document carries the selector `s`, or none. -/
def LineSelector (ds : List Doc) (path : Str) (s : Option Str) : Prop :=
  ∀ r : Recipe, r.root = Doc.root ds → r.getSelectorAtPath path = match s with | some s => .ok s | none => .error .keyError

/-- What `add_dependency` makes of the document of a file of format `v`. -/
inductive DepEdit (E : Env) (v : Schema) (M : Str → Option Str) (vars : List (Str × PyVal)) (dep : Dep) : DepMode → SelMode → List Doc → List Doc → Prop
  /-- a new line at the end of the section -/
  | append {ds ds'} (mode : DepMode) (selMode : SelMode) (comps : List Str) (i : Str) (n : Nat) (w : PyVal) (c : Str) (items : List PyVal) :
      SectionPath comps → isDigitS i = true → dep.path = absPath (comps ++ [i]) → SectionReads E v vars comps ds items →
      mode ≠ .exactPosition → (mode = .useBoth ∨ textItems items ∧ ∀ x ∈ items, ¬ named M dep.data.name x) →
      Scalar E (.str dep.data.render) w → w ≠ .sentinel → SelectorComment dep.selector c →
      (dep.selector ≠ none → ∀ dm, Within (EndsAt n (item (yamlText w) w [])) comps ds dm → ListLength E comps dm (n + 1)) →
      Within (EndsAt n (item (yamlText w) w c)) comps ds ds' → DepEdit E v M vars dep mode selMode ds ds'
  /-- the line of the first entry for the package changes -/
  | replace {ds ds'} (comps : List Str) (i old : Str) (w x : PyVal) (c : Str) (before after : List PyVal) :
      SectionPath comps → isDigitS i = true → dep.path = absPath (comps ++ [i]) →
      SectionReads E v vars comps ds (before ++ x :: after) → textItems before → (∀ y ∈ before, ¬ named M dep.data.name y) →
      named M dep.data.name x → Scalar E (.str dep.data.render) w → w ≠ .sentinel → SelectorComment dep.selector c →
      Within (ItemLine before.length old [item (yamlText w) w c]) comps ds ds' → DepEdit E v M vars dep .replace .replace ds ds'
  /-- … and the selector of the old line is kept -/
  | replaceKeeps {ds ds'} (selMode : SelMode) (comps : List Str) (i old : Str) (w x : PyVal) (body : Str) (before after : List PyVal) :
      SectionPath comps → isDigitS i = true → dep.path = absPath (comps ++ [i]) →
      SectionReads E v vars comps ds (before ++ x :: after) → textItems before → (∀ y ∈ before, ¬ named M dep.data.name y) →
      named M dep.data.name x → Scalar E (.str dep.data.render) w → w ≠ .sentinel → selMode ≠ .replace → dep.selector = none →
      '\n' ∉ body → LineSelector ds (absPath (comps ++ [natStr before.length])) (some (§"[" ++ body ++ §"]")) →
      Within (ItemLine before.length old [item (yamlText w) w (§"# [" ++ body ++ §"]")]) comps ds ds' →
      DepEdit E v M vars dep .replace selMode ds ds'
  /-- … or joined to the new one -/
  | replaceJoins {ds ds'} (selMode : SelMode) (comps : List Str) (i line : Str) (w x : PyVal) (old body : Str) (before after : List PyVal) :
      SectionPath comps → isDigitS i = true → dep.path = absPath (comps ++ [i]) →
      SectionReads E v vars comps ds (before ++ x :: after) → textItems before → (∀ y ∈ before, ¬ named M dep.data.name y) →
      named M dep.data.name x → Scalar E (.str dep.data.render) w → w ≠ .sentinel → selMode ≠ .replace →
      SelectorComment dep.selector (§"# [" ++ body ++ §"]") → '\n' ∉ old →
      LineSelector ds (absPath (comps ++ [natStr before.length])) (some (§"[" ++ old ++ §"]")) →
      Within (ItemLine before.length line [item (yamlText w) w (joinedComment selMode old body)]) comps ds ds' →
      DepEdit E v M vars dep .replace selMode ds ds'
  /-- the line at the path of the dependency changes -/
  | exact {ds ds'} (selMode : SelMode) (comps : List Str) (n : Nat) (old : Str) (w : PyVal) (c : Str) (items : List PyVal) :
      SectionPath comps → dep.path = absPath (comps ++ [natStr n]) → SectionReads E v vars comps ds items →
      Scalar E (.str dep.data.render) w → w ≠ .sentinel → SelectorComment dep.selector c →
      (selMode = .replace ∨ LineSelector ds dep.path none) →
      Within (ItemLine n old [item (yamlText w) w c]) comps ds ds' → DepEdit E v M vars dep .exactPosition selMode ds ds'
  | exactKeeps {ds ds'} (selMode : SelMode) (comps : List Str) (n : Nat) (line : Str) (w : PyVal) (old : Str) (items : List PyVal) :
      SectionPath comps → dep.path = absPath (comps ++ [natStr n]) → SectionReads E v vars comps ds items →
      Scalar E (.str dep.data.render) w → w ≠ .sentinel → selMode ≠ .replace → dep.selector = none → '\n' ∉ old →
      LineSelector ds dep.path (some (§"[" ++ old ++ §"]")) →
      Within (ItemLine n line [item (yamlText w) w (§"# [" ++ old ++ §"]")]) comps ds ds' →
      DepEdit E v M vars dep .exactPosition selMode ds ds'
  | exactJoins {ds ds'} (selMode : SelMode) (comps : List Str) (n : Nat) (line : Str) (w : PyVal) (old body : Str) (items : List PyVal) :
      SectionPath comps → dep.path = absPath (comps ++ [natStr n]) → SectionReads E v vars comps ds items →
      Scalar E (.str dep.data.render) w → w ≠ .sentinel → selMode ≠ .replace →
      SelectorComment dep.selector (§"# [" ++ body ++ §"]") → '\n' ∉ old → LineSelector ds dep.path (some (§"[" ++ old ++ §"]")) →
      Within (ItemLine n line [item (yamlText w) w (joinedComment selMode old body)]) comps ds ds' →
      DepEdit E v M vars dep .exactPosition selMode ds ds'
  /-- a new section with one line -/
  | newSection {ds ds'} (mode : DepMode) (selMode : SelMode) (init : List Str) (s i : Str) (w : PyVal) :
      SectionPath (init ++ [s]) → isDigitS i = true → dep.path = absPath (init ++ [s] ++ [i]) → dep.selector = none →
      mode ≠ .exactPosition → Collection E (.dict [(s, .list [.str dep.data.render])]) [block s [] [item (yamlText w) w []]] →
      Within (EndsFresh s (block s [] [item (yamlText w) w []])) init ds ds' → DepEdit E v M vars dep mode selMode ds ds'
  /-- the package is there and stays as it is -/
  | ignore {ds} (selMode : SelMode) (comps : List Str) (i : Str) (items : List PyVal) :
      SectionPath comps → isDigitS i = true → dep.path = absPath (comps ++ [i]) → SectionReads E v vars comps ds items → textItems items →
      (∃ x ∈ items, named M dep.data.name x) → (∃ ds', Within (fun _ _ => True) comps ds ds') → DepEdit E v M vars dep .ignore selMode ds ds

/-- What a call makes of a file of format `v` with the variables `vars` and the document `ds`. -/
inductive FileStep (E : Env) (v : Schema) : Call → List (Str × PyVal) → List Doc → List (Str × PyVal) → List Doc → Prop
  | patch {vars ds ds'} (p : PyVal) : CleanEdit E p ds ds' → FileStep E v (.patch p) vars ds vars ds'
  /-- a copy or a move -/
  | transfer {vars ds ds'} (p : PyVal) : Transfer E p ds ds' → FileStep E v (.patch p) vars ds vars ds'
  /-- a patch that is refused: the answer is `False` or an exception -/
  | refused {vars ds} (p : PyVal) : field p §"op" ≠ some (.str §"move") → (∀ r : Recipe, r.root = Doc.root ds → (r.patch E p).1 ≠ .ok true) →
      FileStep E v (.patch p) vars ds vars ds
  | test {vars ds} (p : PyVal) : field p §"op" = some (.str §"test") → FileStep E v (.patch p) vars ds vars ds
  /-- the patch is made at all paths that were found, one after the other -/
  | searchAndPatch {vars ds ds'} (re : Str → Bool) (p : List (Str × PyVal)) (includeComment : Bool) (paths : List Str) :
      (∀ r : Recipe, r.root = Doc.root ds → r.search re includeComment = paths) →
      CleanEdits E (paths.map fun path => .dict (insertD §"path" (.str path) p)) ds ds' →
      FileStep E v (.searchAndPatch re p includeComment) vars ds vars ds'
  | setVariable {vars vars' ds} (k : Str) (x : PyVal) : VarSet k x vars vars' → FileStep E v (.setVariable k x) vars ds vars' ds
  | delVariable {vars vars' ds} (k : Str) : VarGone k vars vars' → FileStep E v (.delVariable k) vars ds vars' ds
  | addSelector {vars ds ds'} (path base c c' body : Str) (mode : SelMode) : '\n' ∉ body → SelectorWritten body mode c c' →
      CommentEditInside path base c c' ds ds' → FileStep E v (.addSelector path (§"[" ++ body ++ §"]") mode) vars ds vars ds'
  | removeSelector {vars ds ds'} (path base c c' body : Str) : '\n' ∉ body → SelectorRemoved body c c' →
      CommentEditInside path base c c' ds ds' → FileStep E v (.removeSelector path) vars ds vars ds'
  | addComment {vars ds ds'} (path base c c' text : Str) : '\n' ∉ c → '[' ∉ text → ']' ∉ text → '\n' ∉ text → strip text ≠ [] →
      CommentWritten text c c' → CommentEditInside path base c c' ds ds' → FileStep E v (.addComment path text) vars ds vars ds'
  | addDependency {vars ds ds'} (M : Str → Option Str) (dep : Dep) (mode : DepMode) (selMode : SelMode) :
      DepEdit E v M vars dep mode selMode ds ds' → FileStep E v (.addDependency M dep mode selMode) vars ds vars ds'
  | removeDependency {vars ds ds'} (dep : Dep) (comps : List Str) (n : Nat) (old : Str) : SectionPath comps →
      dep.path = absPath (comps ++ [natStr n]) → Within (ItemLine n old []) comps ds ds' →
      FileStep E v (.removeDependency dep) vars ds vars ds'

/-- What a history of calls makes of the file. -/
inductive FileSession (E : Env) (v : Schema) : List Call → List (Str × PyVal) → List Doc → List (Str × PyVal) → List Doc → Prop
  | nil {vars ds} : FileSession E v [] vars ds vars ds
  | cons {c cs vars ds vars1 ds1 vars2 ds2} : FileStep E v c vars ds vars1 ds1 → FileSession E v cs vars1 ds1 vars2 ds2 →
      FileSession E v (c :: cs) vars ds vars2 ds2

/-- Calls that change variables. -/
def changesVariables : Call → Bool
  | .setVariable _ _ => true
  | .delVariable _ => true
  | _ => false

end Crm.Spec
