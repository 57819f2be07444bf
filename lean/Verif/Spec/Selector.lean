import Verif.Model.Selector

/-!
# Specification vocabulary: selectors

A platform is written `os-arch`.  The selector words are those of conda-build: `linux`, `osx`, `win` and `unix` look at
the operating system, `x86` covers the `32` and `64` platforms, `x86_64` the `64` ones, the other architecture words
look at the text after the dash, and a full platform name stands for itself.
-/

namespace Crm.Spec

/-- The operating-system word `w` is true on the platform called `p`. -/
def osWord (w p : Str) : Bool :=
  (w ∈ [§"linux", §"osx", §"win"] && (w ++ §"-").isPrefixOf p) ||
  (w = §"unix" && ((§"linux-").isPrefixOf p || (§"osx-").isPrefixOf p))

/-- The architecture word `w` is true on the platform called `p`. -/
def archWord (w p : Str) : Bool :=
  (w = §"x86" && ((§"-32").isSuffixOf p || (§"-64").isSuffixOf p)) ||
  (w = §"x86_64" && (§"-64").isSuffixOf p) ||
  (w ∈ [§"s390x", §"arm64", §"armv6l", §"armv7l", §"ppc64", §"ppc64le"] && ((§"-") ++ w).isSuffixOf p)

/-- The (lower-case) selector word `w` is true on the platform called `p`. -/
def wordHolds (w p : Str) : Bool := w = p || osWord w p || archWord w p

/-- `s` consists of exactly the words `ts`, with any amount of white space around and between them. -/
inductive Words : Str → List Str → Prop
  | nil (s : Str) : (∀ c ∈ s, isSpace c = true) → Words s []
  | cons (ws w rest : Str) (ts : List Str) : (∀ c ∈ ws, isSpace c = true) → w ≠ [] → (∀ c ∈ w, isSpace c = false) →
      (rest = [] ∨ ∃ c cs, rest = c :: cs ∧ isSpace c = true) → Words rest ts → Words (ws ++ w ++ rest) (w :: ts)

/-- A word with a number of `not`s in front. -/
structure Lit where
  nots : Nat
  word : Str

/-- A selector expression without parentheses: a literal followed by `and`/`or` literals (`true` is `and`). -/
structure Expr where
  first : Lit
  rest : List (Bool × Lit)

/-- The words of a literal. -/
def Lit.tokens (l : Lit) : List Str := List.replicate l.nots §"not" ++ [l.word]

/-- The words of an expression. -/
def Expr.tokens (e : Expr) : List Str :=
  e.first.tokens ++ e.rest.flatMap fun ol => (if ol.1 then §"and" else §"or") :: ol.2.tokens

/-- A literal on the platform called `p`. -/
def Lit.holds (l : Lit) (p : Str) : Bool := if l.nots % 2 = 0 then wordHolds l.word p else !wordHolds l.word p

/-- `and` binds tighter than `or`: `cur` is the conjunction read so far. -/
def pyGo (p : Str) (cur : Bool) : List (Bool × Lit) → Bool
  | [] => cur
  | (true, l) :: r => pyGo p (cur && l.holds p) r
  | (false, l) :: r => cur || pyGo p (l.holds p) r

/-- The value of an expression under Python's (and conda-build's) precedence rules. -/
def Expr.pyHolds (e : Expr) (p : Str) : Bool := pyGo p (e.first.holds p) e.rest

/-- The value of an expression when `and` and `or` bind equally and to the right. -/
def rightGo (p : Str) (cur : Lit) : List (Bool × Lit) → Bool
  | [] => cur.holds p
  | (true, l) :: r => cur.holds p && rightGo p l r
  | (false, l) :: r => cur.holds p || rightGo p l r

/-- The value of an expression when `and` and `or` bind equally and to the right. -/
def Expr.rightHolds (e : Expr) (p : Str) : Bool := rightGo p e.first e.rest

/-- No operand is itself spelled like an operator. -/
def Expr.proper (e : Expr) : Prop :=
  ∀ l ∈ e.first :: e.rest.map (·.2), l.word ∉ [§"and", §"or", §"not"]

/-- `text` is how the selector expression `body` is written in a recipe: in brackets in the old format. -/
def Written (v1 : Bool) (body text : Str) : Prop := text = if v1 then body else §"[" ++ body ++ §"]"

end Crm.Spec
