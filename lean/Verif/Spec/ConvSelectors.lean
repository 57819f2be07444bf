import Verif.Spec.ConvJinja
import Verif.Spec.SelTable
import Verif.Spec.PyVersion

/-! # Specification vocabulary: what a conversion does to selectors -/

namespace Crm.Spec

/-- The expression a selector becomes: the versions of Python are spelled out (C88). -/
def SelectorExpr (body expr : Str) : Prop :=
  ∃ s1 s2 s3, Rewritten Compared body s1 ∧ Rewritten Named s1 s2 ∧ Rewritten (Word §"py2k" (pyMatch §">=2,<3")) s2 s3 ∧
    Rewritten (Word §"py3k" (pyMatch §">=3,<4")) s3 expr

/-- The lines with selectors, selector by selector. -/
def linesWith (root : Node) (selectors : List Str) : List (Str × Node × Str) :=
  selectors.flatMap fun s => ((nodesWithPaths root).filter fun np => selectorIn np.1.comment = some s).map fun np => (s, np.1, np.2)

/-- What is left of a comment without its selector: nothing, or the text behind it. -/
inductive CommentLeft (body : Str) : Str → Str → Prop
  | alone : CommentLeft body (§"# [" ++ body ++ §"]") []
  | text {t : Str} : ']' ∉ t → '#' ∉ t → (∃ c ∈ t, isSpace c = false) →
      CommentLeft body (§"# [" ++ body ++ §"] " ++ t) (§"# " ++ t)

/-- The text of a switch: the bare condition for `build/skip`, an expression elsewhere. -/
def switchText (path expr : Str) : Str :=
  if §"/build/skip" <:+ path then expr else §"${{ true if " ++ expr ++ §" }}"

/-- What a list element becomes: a switch for a truth value, otherwise `if` and `then`. -/
def conditional (path expr : Str) : PyVal → PyVal
  | .bool _ => .str (switchText path expr)
  | .sentinel => .dict [(§"if", .str expr), (§"then", .none)]
  | v => .dict [(§"if", .str expr), (§"then", v)]

/-- How a line that carries the selector `[body]` is changed: `value` is what is written on it. -/
inductive LineEdit (E : Env) (body : Str) (value : PyVal) (isElement : Bool) (path : Str) (e : NodeEdit) : Prop
  /-- A truth value behind a key: the condition takes its place, and the selector leaves the comment. -/
  | switch {b : Bool} {expr rest : Str} {x : Node} : value = .bool b → path = absPath e.comps → SelectorExpr body expr →
      endsInNumber e.comps = false → e.old.key = true → newNodes E (.str (switchText path expr)) = .ok [x] → x.isLeaf = true →
      CommentLeft body e.old.comment rest → '\n' ∉ e.old.comment →
      e.new = { e.old with comment := rest, children := [{ x with comment := rest }] } → LineEdit E body value isElement path e
  /-- A list element: `if` and `then` take its place. -/
  | element {expr : Str} : isElement = true → path = absPath e.comps → SelectorExpr body expr →
      endsInNumber e.comps = true → Overwrites E (conditional path expr value) e → e.new.comment = [] → LineEdit E body value isElement path e

/-- What happens to the lines with selectors, one after the other: keys with something below them are passed over, values
behind keys are reported (unless they are truth values), and the others are changed. -/
inductive SelectorSteps (E : Env) : List (Str × Node × Str) → List NodeEdit → List (Category × Str) → Prop
  | nil : SelectorSteps E [] [] []
  | inner {s path : Str} {n : Node} {rest : List (Str × Node × Str)} {es : List NodeEdit} {says : List (Category × Str)} :
      n.isLeaf = false → SelectorSteps E rest es says → SelectorSteps E ((s, n, path) :: rest) es says
  | reported {s path : Str} {n : Node} {rest : List (Str × Node × Str)} {es : List NodeEdit} {says : List (Category × Str)} :
      n.isLeaf = true → (∀ b, n.value ≠ .bool b) → n.listMember = false → SelectorSteps E rest es says →
      SelectorSteps E ((s, n, path) :: rest) es ((.warning, §"A non-list item had a selector at: " ++ path) :: says)
  | changed {s path body : Str} {n : Node} {e : NodeEdit} {rest : List (Str × Node × Str)} {es : List NodeEdit}
      {says : List (Category × Str)} :
      n.isLeaf = true → s = §"[" ++ body ++ §"]" → LineEdit E body n.value n.listMember path e →
      SelectorSteps E rest es says → SelectorSteps E ((s, n, path) :: rest) (e :: es) says

end Crm.Spec
