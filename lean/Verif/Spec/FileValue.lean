import Verif.Spec.FileDeps

/-!
# The value that a file has at a path

`WrittenValue E ctx d w`: the entry `d` of a file says `w`.  Texts are read as YAML, with the variables of `ctx` replaced if it is given.
-/

namespace Crm.Spec
open Doc

inductive WrittenValue (E : Env) (ctx : Option JinjaCtx) : Doc → PyVal → Prop
  /-- `k: 7` -/
  | scalar {k vt v c} : (∀ s, v ≠ .str s) → WrittenValue E ctx (scalar k vt v c) v
  /-- `k: text` -/
  | scalarText {k vt s c w} : parseYaml E s ctx = .ok w → WrittenValue E ctx (.scalar k vt (.str s) c) w
  /-- `- 7` -/
  | item {vt v c} : (∀ s, v ≠ .str s) → WrittenValue E ctx (.item vt v c) v
  /-- `- text` -/
  | itemText {vt s c w} : parseYaml E s ctx = .ok w → WrittenValue E ctx (.item vt (.str s) c) w
  /-- `k: |` and lines of text -/
  | multi {k m c body w} : E.load (m.text ++ §"\n  " ++ joinStr §"\n  " body) = .ok w → ctx = none → WrittenValue E ctx (.multi k m c body) w
  /-- the same, with the variables replaced -/
  | multiFilled {k m c body w j} : renderJinjaVars E j (m.text ++ §"\n  " ++ joinStr §"\n  " body) = .ok w → ctx = some j →
      WrittenValue E ctx (.multi k m c body) w
  /-- `k:` and a list of one text -/
  | single {k c vt s c' w} : parseYaml E s ctx = .ok w → (∀ xs, w ≠ .list xs) → WrittenValue E ctx (.block k c [.item vt (.str s) c']) (.list [w])
  /-- `k:` and a list of one mapping -/
  | element {k c first rest xs} : parseYaml E (text [.elem first rest]) ctx = .ok (.list xs) →
      WrittenValue E ctx (.block k c [.elem first rest]) (.list xs)
  /-- `k:` and other entries: what the lines below the key are read as, moved to the left -/
  | block {k c cs w} : (∀ d, cs = [d] → d.isElement = false) → parseYaml E (text cs) ctx = .ok w → WrittenValue E ctx (.block k c cs) w

namespace Doc
mutual
/-- The texts that are values in an entry. -/
def valueTexts : Doc → List Str
  | scalar _ _ v _ => match v with | .str s => [s] | _ => []
  | item _ v _ => match v with | .str s => [s] | _ => []
  | block _ _ cs => valueTextsL cs
  | elem first rest => first.valueTexts ++ valueTextsL rest
  | _ => []
/-- The texts that are values in a list of entries. -/
def valueTextsL : List Doc → List Str
  | [] => []
  | d :: ds => d.valueTexts ++ valueTextsL ds
end
end Doc

end Crm.Spec
