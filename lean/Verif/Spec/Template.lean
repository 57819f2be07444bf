import Verif.Model.Value
import Verif.Model.Reader

/-!
# Texts with Jinja expressions

Which expressions `get_value(sub_vars=True)` understands, how they are written, and what they stand for.
-/

namespace Crm.Spec

/-- A filter behind a name. -/
inductive Filter where
  | none | lower | upper
deriving DecidableEq

/-- An operand of `+`: a bare word (a variable, a number or a text), or a text in quotes. -/
inductive Operand where
  | plain (t : Str)
  | quoted (q : Char) (t : Str)
deriving DecidableEq

/-- An expression: a variable, perhaps with an index and a filter (`w1`, `w2` are the spaces around the bar), a sum (`w1`,
`w2` are the spaces around the plus), a call, such as `compiler('c') | lower` or `version.split('.')[0]`, or anything
else, such as `name | int`. -/
inductive JExpr where
  | access (x : Str) (idx : Option Str) (f : Filter) (w1 w2 : Str)
  | add (a b : Operand) (w1 w2 : Str)
  | other (t : Str)
  | call (t : Str)
deriving DecidableEq

/-- A piece of a text: plain text, or an expression in braces with white space around it. -/
inductive Seg where
  | text (t : Str)
  | hole (w1 : Str) (e : JExpr) (w2 : Str)
deriving DecidableEq

/-! ## How they are written -/

def Filter.src (w1 w2 : Str) : Filter → Str
  | .none => []
  | .lower => w1 ++ §"|" ++ w2 ++ §"lower"
  | .upper => w1 ++ §"|" ++ w2 ++ §"upper"

def Operand.src : Operand → Str
  | .plain t => t
  | .quoted q t => q :: t ++ [q]

def indexSrc : Option Str → Str
  | none => []
  | some i => §"[" ++ i ++ §"]"

def JExpr.src : JExpr → Str
  | .access x idx f w1 w2 => x ++ indexSrc idx ++ f.src w1 w2
  | .add a b w1 w2 => a.src ++ w1 ++ §"+" ++ w2 ++ b.src
  | .other t => t
  | .call t => t

/-- The opening braces. -/
def opening : Schema → Str
  | .v0 => §"{{"
  | .v1 => §"${{"

def Seg.src (v : Schema) : Seg → Str
  | .text t => t
  | .hole w1 e w2 => opening v ++ w1 ++ e.src ++ w2 ++ §"}}"

/-- The text itself. -/
def source (v : Schema) (segs : List Seg) : Str := (segs.map (Seg.src v)).flatten

/-! ## Which ones are well formed -/

def isWord (c : Char) : Bool := c.isAlphanum || c == '_'

/-- Blanks only. -/
def Blank (w : Str) : Prop := ∀ c ∈ w, c = ' '

def Operand.Ok : Operand → Prop
  | .plain t => t ≠ [] ∧ ∀ c ∈ t, isWord c = true ∨ c = '.'
  | .quoted q t => (q = '"' ∨ q = '\'') ∧ t ≠ [] ∧ ∀ c ∈ t, isWord c = true ∨ c = '.'

/-- A character of an expression. -/
def isExprChar (c : Char) : Bool := isWord c || c ∈ §"|'\"()[], =.-~+"

/-- A character of an operand. -/
def isOperandChar (c : Char) : Bool := isWord c || c == '.'

/-- Perhaps a quote. -/
def Quote (q : Str) : Prop := q = [] ∨ q = §"\"" ∨ q = §"'"

/-- No filter `lower` or `upper`, no number in brackets behind a word and no plus between operands, nor blanks around it. -/
structure OtherOk (t : Str) : Prop where
  some : t ≠ []
  chars : ∀ c ∈ t, isExprChar c = true
  trimmed : t.head? ≠ Option.some ' ' ∧ t.getLast? ≠ Option.some ' '
  filters : ∀ w, Blank w → ¬ '|' :: w ++ §"lower" <:+: t ∧ ¬ '|' :: w ++ §"upper" <:+: t
  index : ∀ c i, isWord c = true → i ≠ [] → (∀ d ∈ i, isDigitC d = true) → ¬ c :: '[' :: i ++ §"]" <:+: t
  sum : ∀ a b q1 q2 w1 w2, isOperandChar a = true → isOperandChar b = true → Quote q1 → Quote q2 → Blank w1 → Blank w2 →
    ¬ a :: q1 ++ w1 ++ §"+" ++ w2 ++ q2 ++ [b] <:+: t

/-- A character of a call that no name, filter or index has. -/
def isCallChar (c : Char) : Bool := c ∈ §"'\"(),=.-~"

/-- Something that is more than names, filters and indices, and no sum. -/
structure CallOk (t : Str) : Prop where
  chars : ∀ c ∈ t, isExprChar c = true
  trimmed : t.head? ≠ Option.some ' ' ∧ t.getLast? ≠ Option.some ' '
  more : ∃ c ∈ t, isCallChar c = true
  sum : '+' ∉ t

def JExpr.Ok : JExpr → Prop
  | .access x idx _ w1 w2 => x ≠ [] ∧ (∀ c ∈ x, isWord c = true) ∧ (∀ i, idx = some i → i ≠ [] ∧ ∀ c ∈ i, isDigitC c = true) ∧
      Blank w1 ∧ Blank w2
  | .add a b w1 w2 => a.Ok ∧ b.Ok ∧ Blank w1 ∧ Blank w2
  | .other t => OtherOk t
  | .call t => CallOk t

def Seg.Ok : Seg → Prop
  | .text t => '{' ∉ t
  | .hole w1 e w2 => (∀ c ∈ w1, isSpace c = true) ∧ e.Ok ∧ (∀ c ∈ w2, isSpace c = true)

/-! ## What they stand for -/

def Filter.apply (s : Str) : Filter → Str
  | .none => s
  | .lower => s.map Char.toLower
  | .upper => s.map Char.toUpper

/-- The character at an index; the whole text if there is none. -/
def atIndex (s : Str) : Option Str → Str
  | none => s
  | some i => if h : natOfStr i < s.length then [s[natOfStr i]] else s

/-- A variable; otherwise a number, if it is one; otherwise a text. -/
def Operand.value (E : Env) (vars : List (Str × PyVal)) (o : Operand) : PyVal :=
  match lookupD o.src vars, o with
  | some v, _ => v
  | none, .quoted _ t => .str t
  | none, .plain t =>
    if ∀ c ∈ t, isDigitC c = true then .int (natOfStr t)
    else match E.parseFloat t with
      | some r => .flt r
      | none => .str t

/-- Numbers are added; anything else is put together as a text in quotes. -/
def sum (E : Env) : PyVal → PyVal → Str
  | .int a, .int b => intStr (a + b)
  | .int a, .bool b => intStr (a + boolInt b)
  | .bool a, .int b => intStr (boolInt a + b)
  | .bool a, .bool b => intStr (boolInt a + boolInt b)
  | .flt a, .flt b => E.floatAdd (.flt a) (.flt b)
  | .flt a, .int b => E.floatAdd (.flt a) (.int b)
  | .flt a, .bool b => E.floatAdd (.flt a) (.bool b)
  | .int a, .flt b => E.floatAdd (.int a) (.flt b)
  | .bool a, .flt b => E.floatAdd (.bool a) (.flt b)
  | a, b => §"\"" ++ pyStr a ++ pyStr b ++ §"\""

/-- The text an expression stands for; nothing if its variable is not defined, or if it is neither a variable nor a sum. -/
def JExpr.value (E : Env) (vars : List (Str × PyVal)) : JExpr → Option Str
  | .access x idx f _ _ => (lookupD x vars).map fun v => atIndex (f.apply (pyStr v)) idx
  | .add a b _ _ => some (sum E (a.value E vars) (b.value E vars))
  | .other t => (lookupD t vars).map pyStr
  | .call _ => none

/-- An expression without a value stays as it is. -/
def Seg.value (E : Env) (v : Schema) (vars : List (Str × PyVal)) : Seg → Str
  | .text t => t
  | .hole w1 e w2 => (e.value E vars).getD (Seg.src v (.hole w1 e w2))

/-- The text with its expressions evaluated.  In a V0 recipe a text that then still starts with braces gets a dollar sign. -/
def substituted (E : Env) (v : Schema) (vars : List (Str × PyVal)) (segs : List Seg) : Str :=
  let t := (segs.map (Seg.value E v vars)).flatten
  if v = .v0 ∧ t.take 2 = §"{{" then '$' :: t else t

/-- The loader takes a text in quotes for no number. -/
def Operand.Text (E : Env) : Operand → Prop
  | .plain _ => True
  | .quoted q t => E.parseFloat (q :: t ++ [q]) = none

/-- The same for the operands of a sum; beside a call, the names of the variables are words. -/
def JExpr.Text (E : Env) (vars : List (Str × PyVal)) : JExpr → Prop
  | .access _ _ _ _ _ => True
  | .add a b _ _ => a.Text E ∧ b.Text E
  | .other _ => True
  | .call _ => ∀ x v, (x, v) ∈ vars → ∀ c ∈ x, isWord c = true

/-- What is asked of a text: its pieces are well formed, and no value brings in braces of its own. -/
def Template (E : Env) (vars : List (Str × PyVal)) (segs : List Seg) : Prop :=
  (∀ s ∈ segs, s.Ok) ∧ ∀ w1 e w2, Seg.hole w1 e w2 ∈ segs → e.Text E vars ∧ ∀ t, e.value E vars = some t → '{' ∉ t

end Crm.Spec
