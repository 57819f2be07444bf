import Verif.Model.Reader

/-! # Specification vocabulary: texts of one line -/

namespace Crm.Spec

/-- No multi-line marker: a colon, white space, then `|` or `>`. -/
def Doc.NoMarker (t : Str) : Prop :=
  ∀ a w m b, t = a ++ ':' :: w ++ m :: b → w ≠ [] → (∀ c ∈ w, isSpace c = true) → m ≠ '|' ∧ m ≠ '>'

/-- `text` is one line without surrounding white space, Jinja statement, comment or multi-line marker, and YAML reads
it as `w`. -/
structure OneLine (E : Env) (text : Str) (w : PyVal) : Prop where
  oneLine : ∀ c ∈ text, isLineBreak c = false
  trimmed : strip text = text
  nonempty : text ≠ []
  noStatement : inStr §"{%" text = false ∧ inStr §"{#" text = false
  noComment : '#' ∉ text
  noMarker : Doc.NoMarker text
  reads : E.load text = .ok w

/-- Neither a list nor a mapping. -/
def isScalar : PyVal → Bool
  | .list _ | .dict _ => false
  | _ => true

end Crm.Spec
