import Verif.Spec.Undo

/-!
# Saving and opening again in the middle of the work

What the calls of a history answer.
-/

namespace Crm.Spec

/-- What a call answers or raises. -/
inductive Reply where
  | nothing
  | truth (answer : Except PyErr Bool)
  | done (answer : Except PyErr Unit)
  | selector (answer : Except PyErr (Option Str))
  | paths (answer : List Str)
deriving DecidableEq

/-- The answer of a call. -/
def reply (E : Env) (r : Recipe) : Call → Reply
  | .patch p => .truth (r.patch E p).1
  | .searchAndPatch re p ic => .truth (r.searchAndPatch E re p ic).1
  | .setVariable _ _ => .nothing
  | .delVariable _ => .nothing
  | .addSelector path s mode => .done (r.addSelector path s mode).1
  | .removeSelector path => .selector (r.removeSelector path).1
  | .addComment path text => .done (r.addComment path text).1
  | .addDependency M dep mode selMode => .truth (r.addDependency E M dep mode selMode).1
  | .removeDependency dep => .truth (r.removeDependency E dep).1
  | .getSelectorPaths s => .paths (r.getSelectorPaths s).1

/-- The answers of a history of calls, one after the other. -/
def replies (E : Env) : Recipe → List Call → List Reply
  | _, [] => []
  | r, c :: cs => reply E r c :: replies E (perform E r c) cs

/-- The call asks for the places of a selector.  (Its first answer takes the places away, see C24.) -/
def asksPlaces : Call → Bool
  | .getSelectorPaths _ => true
  | _ => false

/-- It makes no difference whether the calls `more` are made on `r` or on `r'`: they answer the same, and both end with the same lines,
variables, format and text. -/
structure GoesOn (E : Env) (r r' : Recipe) (more : List Call) : Prop where
  answers : (∀ c ∈ more, asksPlaces c = false) → replies E r' more = replies E r more
  outcome : Restored (performAll E r more) (performAll E r' more)
  reading : SameAnswers E (performAll E r more) (performAll E r' more)

end Crm.Spec
