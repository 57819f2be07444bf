import Verif.Model.Str

/-! # Specification vocabulary: JSON string literals (RFC 8259, section 7)

A reader for double-quoted JSON strings, written from the RFC. -/

namespace Crm.Spec

/-- Value of a hexadecimal digit. -/
def hexVal (c : Char) : Option Nat :=
  if '0' ≤ c ∧ c ≤ '9' then some (c.toNat - '0'.toNat)
  else if 'a' ≤ c ∧ c ≤ 'f' then some (c.toNat - 'a'.toNat + 10)
  else if 'A' ≤ c ∧ c ≤ 'F' then some (c.toNat - 'A'.toNat + 10)
  else none

/-- UTF-16 code units of a character. -/
def utf16 (c : Char) : List Nat :=
  if c.toNat < 65536 then [c.toNat] else [55296 + (c.toNat - 65536) / 1024, 56320 + (c.toNat - 65536) % 1024]

/-- UTF-16 code units of the text up to the closing quote, which must be the last character. -/
def jsonUnits : Str → Option (List Nat)
  | [] => none
  | ['"'] => some []
  | '\\' :: 'u' :: a :: b :: c :: d :: rest =>
    match hexVal a, hexVal b, hexVal c, hexVal d with
    | some a, some b, some c, some d => (jsonUnits rest).map ((((a * 16 + b) * 16 + c) * 16 + d) :: ·)
    | _, _, _, _ => none
  | '\\' :: e :: rest =>
    let code : Option Nat := match e with
      | '"' => some 34 | '\\' => some 92 | '/' => some 47 | 'b' => some 8 | 'f' => some 12 | 'n' => some 10
      | 'r' => some 13 | 't' => some 9 | _ => none
    match code with
    | some n => (jsonUnits rest).map (n :: ·)
    | none => none
  | c :: rest => if c = '"' ∨ c = '\\' ∨ c.toNat < 32 then none else (jsonUnits rest).map (utf16 c ++ ·)

/-- Characters of a sequence of code units (surrogate pairs are combined). -/
def decode16 : List Nat → Str
  | [] => []
  | [u] => [Char.ofNat u]
  | u :: v :: rest =>
    if 55296 ≤ u ∧ u < 56320 ∧ 56320 ≤ v ∧ v < 57344 then
      Char.ofNat (65536 + (u - 55296) * 1024 + (v - 56320)) :: decode16 rest
    else Char.ofNat u :: decode16 (v :: rest)

/-- The string a JSON string literal denotes. -/
def jsonString : Str → Option Str
  | '"' :: rest => (jsonUnits rest).map decode16
  | _ => none

example : jsonString §"\"a\\n\\u00e9\\\"\"" = some §"a\né\"" := by decide

end Crm.Spec
