import Verif.Spec.ConvJinja
import Verif.Spec.PyVersion

/-! # Specification vocabulary: the changes made to the text of a recipe before a conversion -/

namespace Crm.Spec

/-- `x` stays on its line and goes as far as possible, so that `P` still holds of what follows. -/
def UpToLast (P : Str → Prop) (x rest : Str) : Prop :=
  NoBreak x ∧ P rest ∧ ∀ y z, rest = y ++ z → y ≠ [] → NoBreak y → ¬ P z

/-- A closing parenthesis, blanks, and `stop`. -/
def Closing (stop z : Str) : Prop := ∃ v r, z = §")" ++ v ++ stop ++ r ∧ Only isSpace v

/-- A dot, something, and a pair of parentheses on the same line; then blanks and `%}`. -/
def DottedCall (z : Str) : Prop :=
  ∃ p q r, z = §"." ++ p ++ §"(" ++ q ++ r ∧ NoBreak p ∧ NoBreak q ∧ Closing §"%}" r

/-- `{% set a = b.f() %}` becomes `{% set a = b | f() %}`: it is the last dot on the line that is replaced. -/
def DotInSet (old rest new : Str) : Prop :=
  ∃ w a b v, old = §"{%" ++ w ++ §"set" ++ a ++ §"." ++ b ++ §")" ++ v ++ §"%}" ∧
    Only isSpace w ∧ '=' ∈ a ∧ '(' ∈ b ∧ Only isSpace v ∧
    UpToLast DottedCall a (§"." ++ b ++ §")" ++ v ++ §"%}" ++ rest) ∧
    UpToLast (Closing §"%}") b (§")" ++ v ++ §"%}" ++ rest) ∧
    new = §"{%" ++ w ++ §"set" ++ a ++ §" | " ++ b ++ §")" ++ v ++ §"%}"

/-- The characters of a name. -/
def nameChar (c : Char) : Bool := c.isAlphanum || c == '_'

/-- A dot, a name, and a pair of parentheses on the same line; then blanks and `}}`. -/
def DottedMethod (z : Str) : Prop :=
  ∃ f q r, z = §"." ++ f ++ §"(" ++ q ++ r ∧ Only nameChar f ∧ NoBreak q ∧ Closing §"}}" r

/-- `{{ a.f() }}` becomes `{{ a | f() }}`: it is the last dot on the line that is replaced. -/
def DotInSubstitution (old rest new : Str) : Prop :=
  ∃ w a f q v, old = §"{{" ++ w ++ a ++ §"." ++ f ++ §"(" ++ q ++ §")" ++ v ++ §"}}" ∧
    Only isSpace w ∧ (∀ c, a.head? = some c → isSpace c = false) ∧ Only nameChar f ∧ Only isSpace v ∧
    UpToLast DottedMethod a (§"." ++ f ++ §"(" ++ q ++ §")" ++ v ++ §"}}" ++ rest) ∧
    UpToLast (Closing §"}}") q (§")" ++ v ++ §"}}" ++ rest) ∧
    new = §"{{" ++ w ++ a ++ §" | " ++ f ++ §"(" ++ q ++ §")" ++ v ++ §"}}"

/-- `| lower()` becomes `| lower`. -/
def EmptyCall (old _rest new : Str) : Prop :=
  ∃ w f, (f = §"lower" ∨ f = §"upper") ∧ Only isSpace w ∧ old = §"|" ++ w ++ f ++ §"()" ∧ new = §"|" ++ w ++ f

/-- A quotation mark. -/
def isQuote (c : Char) : Prop := c = '\'' ∨ c = '"'

/-- A quotation mark comes next. -/
def QuoteNext (z : Str) : Prop := ∃ q r, z = q :: r ∧ isQuote q

/-- `\n`, written with a backslash, and a quotation mark later on the line. -/
def EscapeNext (z : Str) : Prop := ∃ b r, z = §"\\n" ++ b ++ r ∧ NoBreak b ∧ QuoteNext r

/-- A colon, blanks, and a quoted text that holds `\n`. -/
def QuotedNext (z : Str) : Prop :=
  ∃ g q a r, z = §":" ++ g ++ [q] ++ a ++ r ∧ Only isSpace g ∧ isQuote q ∧ NoBreak a ∧ EscapeNext r

/-- `key: "a\nb"` becomes the key with `|` and two lines below it. `w` is the white space in front of the key. -/
def QuotedLines (old rest new : Str) : Prop :=
  ∃ w key g q a b q', old = w ++ key ++ §":" ++ g ++ [q] ++ a ++ §"\\n" ++ b ++ [q'] ∧
    Only isSpace w ∧ (∀ c, key.head? = some c → isSpace c = false) ∧ Only isSpace g ∧ isQuote q ∧
    UpToLast QuotedNext key (§":" ++ g ++ [q] ++ a ++ §"\\n" ++ b ++ [q'] ++ rest) ∧
    UpToLast EscapeNext a (§"\\n" ++ b ++ [q'] ++ rest) ∧ UpToLast QuoteNext b ([q'] ++ rest) ∧
    new = w ++ key ++ §": |" ++ w ++ §"  " ++ a ++ w ++ §"  " ++ b

/-- A quotation mark and a closing bracket come next. -/
def KeyEnd (z : Str) : Prop := ∃ q r, z = q :: ']' :: r ∧ isQuote q

/-- White space and `environ["key"]`; the key reaches to the last quotation mark with a bracket on the line. -/
def EnvironUse (old rest : Str) (found : Char × Str) : Prop :=
  ∃ w q', old = w ++ §"environ[" ++ [found.1] ++ found.2 ++ [q'] ++ §"]" ∧ w ≠ [] ∧ Only isSpace w ∧ isQuote found.1 ∧
    UpToLast KeyEnd found.2 ([q'] ++ §"]" ++ rest)

/-- What is found in a text, from left to right. -/
inductive Found {α : Type} (rule : Str → Str → α → Prop) : Str → List α → Prop
  | done : Found rule [] []
  | hit {old rest : Str} {x : α} {xs : List α} : rule old rest x → Found rule rest xs → Found rule (old ++ rest) (x :: xs)
  | miss {c : Char} {rest : Str} {xs : List α} : (∀ old rest' x, c :: rest = old ++ rest' → ¬ rule old rest' x) →
      Found rule rest xs → Found rule (c :: rest) xs

/-- The first occurrence of a text is replaced, if there is one. -/
def FirstReplaced (old new s s' : Str) : Prop :=
  (∃ a b, s = a ++ old ++ b ∧ (∀ a' b', s = a' ++ old ++ b' → a.length ≤ a'.length) ∧ s' = a ++ new ++ b) ∨ (¬ old <:+: s ∧ s' = s)

/-- For each use that was found, `environ["key"]` becomes `env.get("key")` at its first place. -/
inductive EnvironReplaced : List (Char × Str) → Str → Str → Prop
  | nil {s : Str} : EnvironReplaced [] s s
  | cons {q : Char} {key s s1 s2 : Str} {found : List (Char × Str)} :
      FirstReplaced (§"environ[" ++ [q] ++ key ++ [q] ++ §"]") (§"env.get(" ++ [q] ++ key ++ [q] ++ §")") s s1 →
      EnvironReplaced found s1 s2 → EnvironReplaced ((q, key) :: found) s s2

/-- One after the other, each of these texts is taken out, wherever it is. -/
inductive AllRemoved : List Str → Str → Str → Prop
  | nil {s : Str} : AllRemoved [] s s
  | cons {w s s1 s2 : Str} {ws : List Str} : Rewritten (Word w []) s s1 → AllRemoved ws s1 s2 → AllRemoved (w :: ws) s s2

/-- `{{ hash_type }}:`, with or without quotation marks, becomes `sha256:`. -/
def HashKey (old _rest new : Str) : Prop :=
  ∃ q name q', (q = [] ∨ q = §"'") ∧ (name = §"hash_type" ∨ name = §"hash" ∨ name = §"hashtype") ∧ (q' = [] ∨ q' = §"'") ∧
    old = q ++ §"{{ " ++ name ++ §" }}" ++ q' ++ §":" ∧ new = §"sha256:"

/-- What happens to the text of a recipe before a conversion; `removed` are the statements that set the type of a hash. -/
def PreProcessed (removed : List Str) (s out : Str) : Prop :=
  ∃ s1 s2 s3 s4 s5 s6 s7 s8 found, Rewritten DotInSet s s1 ∧ Rewritten DotInSubstitution s1 s2 ∧ Rewritten EmptyCall s2 s3 ∧
    Rewritten QuotedLines s3 s4 ∧ Rewritten (Word §"min_pin=" §"lower_bound=") s4 s5 ∧
    Rewritten (Word §"max_pin=" §"upper_bound=") s5 s6 ∧ Found EnvironUse s6 found ∧ EnvironReplaced found s6 s7 ∧
    AllRemoved removed s7 s8 ∧ Rewritten HashKey s8 out

end Crm.Spec
