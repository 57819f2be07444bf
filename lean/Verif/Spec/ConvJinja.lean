import Verif.Spec.NodeEdits
import Verif.Spec.ConvSection
import Verif.Spec.Patch
import Verif.Spec.Walk

/-! # Specification vocabulary: what a conversion does to variables and substitutions -/

namespace Crm.Spec

/-- The text has one of these at some place. -/
def HasPart (p : Str → Prop) (s : Str) : Prop := ∃ a t b, s = a ++ t ++ b ∧ p t

/-- Only characters of this kind. -/
def Only (p : Char → Bool) (t : Str) : Prop := ∀ c ∈ t, p c = true

/-- No line break. -/
def NoBreak (t : Str) : Prop := '\n' ∉ t

/-- `|`, blanks, and the name of a filter without arguments. -/
def FilterUse (t : Str) : Prop := ∃ w, Only isSpace w ∧ (t = '|' :: w ++ §"lower" ∨ t = '|' :: w ++ §"upper")

/-- `| replace(…)` -/
def ReplaceUse (t : Str) : Prop := ∃ w x, Only isSpace w ∧ NoBreak x ∧ t = '|' :: w ++ §"replace(" ++ x ++ §")"

/-- `name[7]` -/
def IndexUse (t : Str) : Prop :=
  ∃ n d, n ≠ [] ∧ Only (fun c => c.isAlphanum || c == '_') n ∧ d ≠ [] ∧ Only isDigitC d ∧ t = n ++ §"[" ++ d ++ §"]"

/-- A word with dots, with or without a quotation mark on either side. -/
def Term (t : Str) : Prop :=
  ∃ q n r, (q = [] ∨ q = §"\"" ∨ q = §"'") ∧ (r = [] ∨ r = §"\"" ∨ r = §"'") ∧ n ≠ [] ∧
    Only (fun c => c.isAlphanum || c == '_' || c == '.') n ∧ t = q ++ n ++ r

/-- `a + b` -/
def SumUse (t : Str) : Prop :=
  ∃ a w v b, Term a ∧ Only isSpace w ∧ Only isSpace v ∧ Term b ∧ t = a ++ w ++ §"+" ++ v ++ b

/-- `match(…, …)` -/
def MatchUse (t : Str) : Prop := ∃ x y, NoBreak x ∧ NoBreak y ∧ t = §"match(" ++ x ++ §"," ++ y ++ §")"

/-- The text is an expression, as far as the conversion can tell. -/
def UsesFunction (s : Str) : Prop :=
  HasPart FilterUse s ∨ HasPart ReplaceUse s ∨ HasPart IndexUse s ∨ HasPart SumUse s ∨ HasPart MatchUse s

/-- The variables of a V0 recipe become the entries of `context`, in the same order; texts that are expressions are put
between braces; variables that are neither texts, numbers nor truth values are left out and named. -/
inductive ContextOf : List (Str × PyVal) → List (Str × PyVal) → List Str → Prop
  | nil : ContextOf [] [] []
  | expression {name s : Str} {vars ctx : List (Str × PyVal)} {bad : List Str} : UsesFunction s → ContextOf vars ctx bad →
      ContextOf ((name, .str s) :: vars) ((name, .str (§"{{" ++ s ++ §"}}")) :: ctx) bad
  | text {name s : Str} {vars ctx : List (Str × PyVal)} {bad : List Str} : ¬ UsesFunction s → ContextOf vars ctx bad →
      ContextOf ((name, .str s) :: vars) ((name, .str s) :: ctx) bad
  | int {name : Str} {i : Int} {vars ctx : List (Str × PyVal)} {bad : List Str} : ContextOf vars ctx bad →
      ContextOf ((name, .int i) :: vars) ((name, .int i) :: ctx) bad
  | flt {name x : Str} {vars ctx : List (Str × PyVal)} {bad : List Str} : ContextOf vars ctx bad →
      ContextOf ((name, .flt x) :: vars) ((name, .flt x) :: ctx) bad
  | bool {name : Str} {b : Bool} {vars ctx : List (Str × PyVal)} {bad : List Str} : ContextOf vars ctx bad →
      ContextOf ((name, .bool b) :: vars) ((name, .bool b) :: ctx) bad
  | unsupported {name : Str} {v : PyVal} {vars ctx : List (Str × PyVal)} {bad : List Str} :
      (v = .none ∨ v = .sentinel ∨ (∃ l, v = .list l) ∨ (∃ d, v = .dict d)) → ContextOf vars ctx bad →
      ContextOf ((name, v) :: vars) ctx (name :: bad)

/-- Whether the value is a text with a call of `join`. -/
def callsJoin : PyVal → Bool
  | .str s => (List.range s.length).any fun i => §".join(".isPrefixOf (s.drop i)
  | _ => false

/-- The names of the entries that call `join`. -/
def joining (ctx : List (Str × PyVal)) : List Str := (ctx.filter fun kv => callsJoin kv.2).map (·.1)

/-- The messages about the variables: one for each that is left out, and one that names those calling `join`. -/
def contextMessages (ctx : List (Str × PyVal)) (bad : List Str) : List (Category × Str) :=
  bad.map (fun name => (.warning, §"The variable `" ++ name ++ §"` is an unsupported type.")) ++
  if joining ctx = [] then []
  else [(.warning, §"The following key(s) contain unsupported syntax: " ++ List.intercalate §", " (joining ctx))]

/-- The new top-level keys: `context`, if there are variables to put there, and the version of the format. -/
inductive HeadPut (E : Env) (ctx : List (Str × PyVal)) : List Node → List Node → Prop
  | without {ks ks' : List Node} : ctx = [] → Put E §"schema_version" (.int 1) ks ks' → HeadPut E ctx ks ks'
  | with {ks ks1 ks' : List Node} : ctx ≠ [] → Put E §"context" (.dict ctx) ks ks1 →
      Put E §"schema_version" (.int 1) ks1 ks' → HeadPut E ctx ks ks'

/-- `{{`, an expression, `}}`. -/
def V0Substitution (t : Str) : Prop :=
  ∃ w x v, Only isSpace w ∧ Only (fun c => c.isAlphanum || (§"_|'\"()[], =.-~+").contains c) x ∧ Only isSpace v ∧
    t = §"{{" ++ w ++ x ++ v ++ §"}}"

/-- Every `{{` gets a `$` in front, unless there is one; `afterDollar` says whether the text follows a `$`. -/
def dollared : (afterDollar : Bool) → Str → Str
  | _, [] => []
  | false, '{' :: '{' :: s => §"${{" ++ dollared false s
  | _, c :: s => c :: dollared (c == '$') s

/-- Writing a value over what is at a path: below the key there, or in place of the list element there. -/
inductive Overwrites (E : Env) (v : PyVal) (e : NodeEdit) : Prop
  | value {ns : List Node} : endsInNumber e.comps = false → bareValue e.old = false → newNodes E v = .ok ns →
      e.new = { e.old with children := ns } → Overwrites E v e
  | element {ns : List Node} : endsInNumber e.comps = true → e.old.isCollectionElement = false → newNodes E v = .ok ns →
      asElement v ns = [e.new] → Overwrites E v e

/-- The edits that replace the substitutions of a recipe: there is one for each path of a value that holds a substitution,
what is written is the text read there with `$` in front of the braces, and they do not affect each other. -/
structure SubstitutionEdits (E : Env) (r : Recipe) (es : List NodeEdit) : Prop where
  places : ∀ e ∈ es, e.At r.root
  apart : Independent es
  all : ∀ path, path ∈ es.map (fun e => absPath e.comps) ↔
    ∃ n, (n, path) ∈ (leaves r.root).zip r.listValuePaths ∧ HasPart V0Substitution (yamlText n.value)
  texts : ∀ e ∈ es, ∃ s, r.getValue E (absPath e.comps) = .ok (.str s) ∧ Overwrites E (.str (dollared false s)) e

example : dollared false §"{{ a }}-{{ b }}" = §"${{ a }}-${{ b }}" := by decide
example : dollared false §"${{ a }}{{ b }}" = §"${{ a }}${{ b }}" := by decide

end Crm.Spec
