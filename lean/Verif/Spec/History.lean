import Verif.Spec.Patch
import Verif.Model.Deps

/-! # Specification vocabulary: histories of calls on a recipe -/

namespace Crm.Spec

/-- A call that may change a recipe object.  (`getSelectorPaths` is a query, but the code changes its own table.) -/
inductive Call where
  | patch (p : PyVal)
  | searchAndPatch (re : Str → Bool) (p : List (Str × PyVal)) (includeComment : Bool)
  | setVariable (name : Str) (value : PyVal)
  | delVariable (name : Str)
  | addSelector (path selector : Str) (mode : SelMode)
  | removeSelector (path : Str)
  | addComment (path text : Str)
  | addDependency (M : Str → Option Str) (dep : Dep) (mode : DepMode) (selMode : SelMode)
  | removeDependency (dep : Dep)
  | getSelectorPaths (selector : Str)

/-- The recipe after a call, whatever it returned or raised. -/
def perform (E : Env) (r : Recipe) : Call → Recipe
  | .patch p => (r.patch E p).2
  | .searchAndPatch re p ic => (r.searchAndPatch E re p ic).2
  | .setVariable k v => r.setVariable k v
  | .delVariable k => r.delVariable k
  | .addSelector path s mode => (r.addSelector path s mode).2
  | .removeSelector path => (r.removeSelector path).2
  | .addComment path text => (r.addComment path text).2
  | .addDependency M dep mode selMode => (r.addDependency E M dep mode selMode).2
  | .removeDependency dep => (r.removeDependency E dep).2
  | .getSelectorPaths s => (r.getSelectorPaths s).2

/-- The recipe after a history of calls. -/
def performAll (E : Env) (r : Recipe) (calls : List Call) : Recipe := calls.foldl (perform E) r

/-- A patch call that edits: it returned `True`, is not a `test` and not a `move` of a place onto itself. -/
def patchEdits (E : Env) (r : Recipe) (p : PyVal) : Prop :=
  (r.patch E p).1 = .ok true ∧ field p §"op" ≠ some (.str §"test") ∧
    ¬ (field p §"op" = some (.str §"move") ∧ field p §"from" = field p §"path")

/-- The patch is applied at every path in turn and succeeds each time. -/
inductive PatchedAll (E : Env) (p : List (Str × PyVal)) : List Str → Recipe → Recipe → Prop
  | nil (r : Recipe) : PatchedAll E p [] r r
  | cons (path : Str) (rest : List Str) (r r1 r2 : Recipe) :
      r.patch E (.dict (insertD §"path" (.str path) p)) = (.ok true, r1) → PatchedAll E p rest r1 r2 →
      PatchedAll E p (path :: rest) r r2

/-- The call succeeded in changing something: a patch that edits (for `search_and_patch`: at some match, all
matches before it having been patched), a variable that was set or existed and was deleted, a selector that was added
or found and removed, a comment that was added, a dependency that was added or removed (if adding one raises an exception: the line
or the selector it has written before). -/
def edits (E : Env) (r : Recipe) : Call → Prop
  | .patch p => patchEdits E r p
  | .searchAndPatch re p ic =>
      ∃ pre path post r1, r.search re ic = pre ++ path :: post ∧ PatchedAll E p pre r r1 ∧
        patchEdits E r1 (.dict (insertD §"path" (.str path) p))
  | .setVariable _ _ => True
  | .delVariable k => r.containsVariable k = true
  | .addSelector path s mode => (r.addSelector path s mode).1 = .ok ()
  | .removeSelector path => ∃ s, (r.removeSelector path).1 = .ok (some s)
  | .addComment path text => (r.addComment path text).1 = .ok ()
  | .addDependency M dep mode selMode =>
      (r.addDependency E M dep mode selMode).1 = .ok true ∨ (r.addDependency E M dep mode selMode).2 ≠ r
  | .removeDependency dep => (r.removeDependency E dep).1 = .ok true
  | .getSelectorPaths _ => False

/-- The selector index describes the tree: same selectors in the same order, each with the same paths in order. -/
def indexAgrees (r : Recipe) : Prop :=
  r.selTbl.map (fun e => (e.1, e.2.map (·.path))) = (rebuildSelectors r.root).map (fun e => (e.1, e.2.map (·.path)))

end Crm.Spec
