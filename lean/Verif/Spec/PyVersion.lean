import Verif.Model.Str

/-! # Specification vocabulary: Python versions in selectors -/

namespace Crm.Spec

/-- Rewriting a text from left to right: wherever the rule applies, the old text is replaced and the rewriting goes on behind
it; any other character stays. `rule old rest new` says that `old`, followed by `rest`, is to be replaced by `new`. -/
inductive Rewritten (rule : Str → Str → Str → Prop) : Str → Str → Prop
  | done : Rewritten rule [] []
  | hit {old rest new out : Str} : rule old rest new → Rewritten rule rest out → Rewritten rule (old ++ rest) (new ++ out)
  | miss {c : Char} {rest out : Str} : (∀ old rest' new, c :: rest = old ++ rest' → ¬ rule old rest' new) →
      Rewritten rule rest out → Rewritten rule (c :: rest) (c :: out)

/-- The digits of a minor version: at least one, and no digit follows. -/
def Minor (minor rest : Str) : Prop := minor ≠ [] ∧ (∀ c ∈ minor, isDigitC c = true) ∧ ∀ c, rest.head? = some c → isDigitC c = false

/-- `match(python, "…")` -/
def pyMatch (what : Str) : Str := §"match(python, \"" ++ what ++ §"\")"

/-- `py >= 36` becomes `match(python, ">=3.6")`. -/
def Compared (old rest new : Str) : Prop :=
  ∃ (gap op gap' : Str) (major : Char) (minor : Str),
    old = §"py" ++ gap ++ op ++ gap' ++ [major] ++ minor ∧ (∀ c ∈ gap, isSpace c = true) ∧ (∀ c ∈ gap', isSpace c = true) ∧
    op ∈ [§"<", §">", §"<=", §">=", §"==", §"!="] ∧ (major = '2' ∨ major = '3') ∧ Minor minor rest ∧
    new = pyMatch (op ++ [major] ++ §"." ++ minor)

/-- `py36` becomes `match(python, "==3.6")`. -/
def Named (old rest new : Str) : Prop :=
  ∃ (major : Char) (minor : Str), old = §"py" ++ [major] ++ minor ∧ (major = '2' ∨ major = '3') ∧ Minor minor rest ∧
    new = pyMatch (§"==" ++ [major] ++ §"." ++ minor)

/-- A word becomes another text, whatever follows it. -/
def Word (word text : Str) (old _rest new : Str) : Prop := old = word ∧ new = text

end Crm.Spec
