import Verif.Model.Str

/-!
# Python values

`PyVal` covers what YAML/JSON loading can produce (`JsonType`, `conda_recipe_manager/types.py:27`) plus the
`SentinelType` singleton (`types.py:46-65`).  Simplifications: dictionary keys are strings ("Remember that YAML keys
must be strings", `parser/_node.py:22`); a `float` is represented by its Python `repr`.
-/

namespace Crm

inductive PyVal where
  | sentinel
  | none
  | bool (b : Bool)
  | int (i : Int)
  | flt (repr : Str)
  | str (s : Str)
  | list (xs : List PyVal)
  | dict (kvs : List (Str × PyVal))
deriving Repr, Inhabited

mutual
/-- Structural equality (identity of representation), used to decide equality of model values. -/
def PyVal.same : PyVal → PyVal → Bool
  | .sentinel, .sentinel => true
  | .none, .none => true
  | .bool a, .bool b => a == b
  | .int a, .int b => a == b
  | .flt a, .flt b => a == b
  | .str a, .str b => a == b
  | .list a, .list b => PyVal.sameL a b
  | .dict a, .dict b => PyVal.sameD a b
  | _, _ => false
def PyVal.sameL : List PyVal → List PyVal → Bool
  | [], [] => true
  | a :: as, b :: bs => PyVal.same a b && PyVal.sameL as bs
  | _, _ => false
def PyVal.sameD : List (Str × PyVal) → List (Str × PyVal) → Bool
  | [], [] => true
  | (k, a) :: as, (l, b) :: bs => k == l && (PyVal.same a b && PyVal.sameD as bs)
  | _, _ => false
end

mutual
theorem PyVal.same_iff : ∀ a b : PyVal, PyVal.same a b = true ↔ a = b
  | .sentinel, b => by cases b <;> simp [PyVal.same]
  | .none, b => by cases b <;> simp [PyVal.same]
  | .bool _, b => by cases b <;> simp [PyVal.same]
  | .int _, b => by cases b <;> simp [PyVal.same]
  | .flt _, b => by cases b <;> simp [PyVal.same]
  | .str _, b => by cases b <;> simp [PyVal.same]
  | .list a, b => by
    cases b with
    | list b => simp [PyVal.same, PyVal.sameL_iff a b]
    | _ => simp [PyVal.same]
  | .dict a, b => by
    cases b with
    | dict b => simp [PyVal.same, PyVal.sameD_iff a b]
    | _ => simp [PyVal.same]
theorem PyVal.sameL_iff : ∀ a b : List PyVal, PyVal.sameL a b = true ↔ a = b
  | [], b => by cases b <;> simp [PyVal.sameL]
  | a :: as, b => by
    cases b with
    | nil => simp [PyVal.sameL]
    | cons b bs => simp [PyVal.sameL, PyVal.same_iff a b, PyVal.sameL_iff as bs]
theorem PyVal.sameD_iff : ∀ a b : List (Str × PyVal), PyVal.sameD a b = true ↔ a = b
  | [], b => by cases b <;> simp [PyVal.sameD]
  | (k, a) :: as, b => by
    cases b with
    | nil => simp [PyVal.sameD]
    | cons b bs =>
      obtain ⟨l, b⟩ := b
      simp [PyVal.sameD, PyVal.same_iff a b, PyVal.sameD_iff as bs, and_assoc]
end

instance : DecidableEq PyVal := fun a b => decidable_of_iff _ (PyVal.same_iff a b)

/-- `isinstance(v, PRIMITIVES_TUPLE)`, `types.py:14-20`. -/
def PyVal.isPrimitive : PyVal → Bool
  | .str _ | .int _ | .flt _ | .bool _ | .none => true
  | _ => false

/-- `type(a) == type(b)`. -/
def PyVal.sameType : PyVal → PyVal → Bool
  | .sentinel, .sentinel | .none, .none | .bool _, .bool _ | .int _, .int _ | .flt _, .flt _ | .str _, .str _
  | .list _, .list _ | .dict _, .dict _ => true
  | _, _ => false

/-- Association-list lookup (a Python `dict` keeps insertion order). -/
def lookupD {α : Type} (k : Str) : List (Str × α) → Option α
  | [] => Option.none
  | (l, v) :: kvs => if l = k then some v else lookupD k kvs

/-- `d[k] = v`: overwrite in place or append at the end. -/
def insertD {α : Type} (k : Str) (v : α) : List (Str × α) → List (Str × α)
  | [] => [(k, v)]
  | (l, w) :: kvs => if l = k then (l, v) :: kvs else (l, w) :: insertD k v kvs

/-- `del d[k]`. -/
def eraseD {α : Type} (k : Str) : List (Str × α) → List (Str × α)
  | [] => []
  | (l, w) :: kvs => if l = k then kvs else (l, w) :: eraseD k kvs

/-- Python's `int == float` on the representations: equal when the float's `repr` is the integer followed by `.0`
(simplification: integers of more than 16 digits are never equal to a float). -/
def intEqFlt (i : Int) (r : Str) : Bool := intStr i ++ §".0" == r

/-- `True`/`False` as integers. -/
def boolInt (b : Bool) : Int := if b then 1 else 0

mutual
/-- Python `a == b`: `bool` and `int` compare as numbers, dictionaries ignore order. -/
def pyEq : PyVal → PyVal → Bool
  | .sentinel, .sentinel => true
  | .none, .none => true
  | .bool a, .bool b => a == b
  | .bool a, .int b => boolInt a == b
  | .int a, .bool b => a == boolInt b
  | .int a, .int b => a == b
  | .flt a, .flt b => a == b
  | .flt a, .int b => intEqFlt b a
  | .int a, .flt b => intEqFlt a b
  | .flt a, .bool b => intEqFlt (boolInt b) a
  | .bool a, .flt b => intEqFlt (boolInt a) b
  | .str a, .str b => a == b
  | .list a, .list b => pyEqL a b
  | .dict a, .dict b => a.length == b.length && pyEqD a b
  | _, _ => false
def pyEqL : List PyVal → List PyVal → Bool
  | [], [] => true
  | a :: as, b :: bs => pyEq a b && pyEqL as bs
  | _, _ => false
/-- Every entry of the first dictionary has an equal entry in the second (keys of a dictionary are distinct). -/
def pyEqD : List (Str × PyVal) → List (Str × PyVal) → Bool
  | [], _ => true
  | (k, a) :: as, bs => bs.any (fun kb => kb.1 == k && pyEq a kb.2) && pyEqD as bs
end

/-- Python truthiness. -/
def PyVal.truthy : PyVal → Bool
  | .sentinel => true
  | .none => false
  | .bool b => b
  | .int i => i != 0
  | .flt r => r != §"0.0" && r != §"-0.0"
  | .str s => !s.isEmpty
  | .list l => !l.isEmpty
  | .dict d => !d.isEmpty

/-- Hex digits of a number below 65536, four of them. -/
def hex4 (n : Nat) : Str :=
  let h (k : Nat) : Char := if k < 10 then Char.ofNat (48 + k) else Char.ofNat (87 + k)
  [h (n / 4096 % 16), h (n / 256 % 16), h (n / 16 % 16), h (n % 16)]

/-- `json.dumps` of one character (`ensure_ascii=True`). -/
def jsonChar (c : Char) : Str :=
  if c = '"' then §"\\\""
  else if c = '\\' then §"\\\\"
  else if c = '\n' then §"\\n"
  else if c = '\r' then §"\\r"
  else if c = '\t' then §"\\t"
  else if c.toNat = 8 then §"\\b"
  else if c.toNat = 12 then §"\\f"
  else if 32 ≤ c.toNat ∧ c.toNat ≤ 126 then [c]
  else if c.toNat < 65536 then §"\\u" ++ hex4 c.toNat
  else
    let v := c.toNat - 65536
    §"\\u" ++ hex4 (55296 + v / 1024) ++ (§"\\u" ++ hex4 (56320 + v % 1024))

/-- `json.dumps(s)` for a string. -/
def jsonDumpsStr (s : Str) : Str := '"' :: (s.flatMap jsonChar ++ ['"'])

/-- `repr(s)` for a string.  Simplification: only backslash, quotes, newline, carriage return and tab are escaped
(non-printable characters are not modelled). -/
def reprStr (s : Str) : Str :=
  let q : Char := if s.contains '\'' && !s.contains '"' then '"' else '\''
  let esc (c : Char) : Str :=
    if c = '\\' then §"\\\\" else if c = q then ['\\', q] else if c = '\n' then §"\\n"
    else if c = '\r' then §"\\r" else if c = '\t' then §"\\t" else [c]
  q :: (s.flatMap esc ++ [q])

mutual
/-- `repr(v)`. -/
def pyRepr : PyVal → Str
  | .sentinel => §"<SentinelType>"
  | .none => §"None"
  | .bool true => §"True"
  | .bool false => §"False"
  | .int i => intStr i
  | .flt r => r
  | .str s => reprStr s
  | .list xs => '[' :: (pyReprL xs ++ [']'])
  | .dict kvs => '{' :: (pyReprD kvs ++ ['}'])
def pyReprL : List PyVal → Str
  | [] => []
  | [x] => pyRepr x
  | x :: y :: l => pyRepr x ++ §", " ++ pyReprL (y :: l)
def pyReprD : List (Str × PyVal) → Str
  | [] => []
  | [(k, v)] => reprStr k ++ §": " ++ pyRepr v
  | (k, v) :: kv :: l => reprStr k ++ §": " ++ pyRepr v ++ §", " ++ pyReprD (kv :: l)
end

/-- `str(v)` (also what an f-string inserts). -/
def pyStr : PyVal → Str
  | .str s => s
  | v => pyRepr v

deriving instance DecidableEq for Except

/-- Python exceptions the modelled code can raise or let through. -/
inductive PyErr where
  | keyError | valueError | indexError | typeError | attributeError | yamlScanner | yamlError | recursionError
  | assertionError
  | jsonPatchValidation | zeroDivision | fetchError | fetchRequired | fetchUnsupported | notImplemented | regexError
  | ioError | licenseError
deriving DecidableEq, Repr, Inhabited

example : pyEq (.bool true) (.int 1) = true ∧ pyEq (.int 3) (.flt §"3.0") = true ∧ pyEq (.str []) .none = false := by
  decide
example : pyEq (.dict [(§"a", .int 1), (§"b", .none)]) (.dict [(§"b", .none), (§"a", .int 1)]) = true := by decide
example : pyStr (.list [.str §"a", .int 2, .dict [(§"k", .bool true)]]) = §"['a', 2, {'k': True}]" := by decide
example : jsonDumpsStr §"a\"b" = §"\"a\\\"b\"" := by decide

end Crm
