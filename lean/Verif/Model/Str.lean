import Lean.Elab.Term
import Lean.Meta.LitValues

/-!
# Python strings

A Python `str` is a sequence of code points; it is modelled by `List Char`.  Everything here models the built-in
`str` methods the project uses.  Letter case and digits are modelled for ASCII (`str.lower`, `str.upper`,
`str.isdigit`); white space and line breaks are modelled for all of Unicode.
-/

namespace Crm

/-- A Python `str`. -/
abbrev Str := List Char

open Lean Elab Term Meta in
/-- `§"abc"` is the explicit list `['a', 'b', 'c']` (so that the kernel sees plain data). -/
elab:max "§" s:str : term => do
  let cs := s.getString.toList
  return ← mkListLit (mkConst ``Char) (cs.map fun c => toExpr c)

/-- Code points stripped by `str.strip()` and matched by `\s` (CPython `_PyUnicode_IsWhitespace`). -/
def isSpace (c : Char) : Bool :=
  let n := c.toNat
  (9 ≤ n && n ≤ 13) || (28 ≤ n && n ≤ 32) || n == 133 || n == 160 || n == 5760 || (8192 ≤ n && n ≤ 8202)
    || n == 8232 || n == 8233 || n == 8239 || n == 8287 || n == 12288

/-- Line boundaries of `str.splitlines()`. -/
def isLineBreak (c : Char) : Bool :=
  let n := c.toNat
  (10 ≤ n && n ≤ 13) || (28 ≤ n && n ≤ 30) || n == 133 || n == 8232 || n == 8233

/-- ASCII digits; `str.isdigit` on one character (non-ASCII digits are not modelled). -/
def isDigitC (c : Char) : Bool := '0' ≤ c && c ≤ '9'

/-- `s.isdigit()`. -/
def isDigitS (s : Str) : Bool := !s.isEmpty && s.all isDigitC

/-- Value of a digit character. -/
def digitVal (c : Char) : Nat := c.toNat - '0'.toNat

/-- `int(s)` for a string of ASCII digits. -/
def natOfStr (s : Str) : Nat := s.foldl (fun a c => a * 10 + digitVal c) 0

/-- Digit character of a number below ten. -/
def digitChar (n : Nat) : Char := Char.ofNat (48 + n)

/-- Helper of `natStr`: decimal digits of `n`, most significant first, in front of `acc`. -/
def natStrGo : Nat → Nat → Str → Str
  | 0, _, acc => acc
  | fuel + 1, n, acc =>
    if n < 10 then digitChar n :: acc else natStrGo fuel (n / 10) (digitChar (n % 10) :: acc)

/-- `str(n)` for a natural number. -/
def natStr (n : Nat) : Str := natStrGo (n + 1) n []

/-- `str(i)` for an `int`. -/
def intStr : Int → Str
  | .ofNat n => natStr n
  | .negSucc n => '-' :: natStr (n + 1)

/-- `s.lstrip()`. -/
def lstrip (s : Str) : Str := s.dropWhile isSpace

/-- `s.rstrip()`. -/
def rstrip (s : Str) : Str := (s.reverse.dropWhile isSpace).reverse

/-- `s.strip()`. -/
def strip (s : Str) : Str := rstrip (lstrip s)

/-- `s.startswith(p)`. -/
def startsWith (s p : Str) : Bool := p.isPrefixOf s

/-- `s.endswith(p)`. -/
def endsWith (s p : Str) : Bool := p.reverse.isPrefixOf s.reverse

/-- `s.find(p)`, with `none` for `-1`. -/
def findSub (p : Str) : Str → Option Nat
  | [] => if p.isEmpty then some 0 else none
  | c :: cs => if p.isPrefixOf (c :: cs) then some 0 else (findSub p cs).map (· + 1)

/-- `p in s`. -/
def inStr (p s : Str) : Bool := (findSub p s).isSome

/-- `s.replace(old, new)` for non-empty `old`; the first argument counts characters still to be skipped. -/
def replaceGo (old new : Str) : Nat → Str → Str
  | _, [] => []
  | k + 1, _ :: cs => replaceGo old new k cs
  | 0, c :: cs =>
    if old.isPrefixOf (c :: cs) then new ++ replaceGo old new (old.length - 1) cs
    else c :: replaceGo old new 0 cs

/-- `s.replace(old, new)` for non-empty `old`. -/
def replaceAll (old new s : Str) : Str := replaceGo old new 0 s

/-- `s.replace(old, new, 1)` for non-empty `old`. -/
def replaceOne (old new : Str) : Str → Str
  | [] => []
  | c :: cs =>
    if old.isPrefixOf (c :: cs) then new ++ (c :: cs).drop old.length else c :: replaceOne old new cs

/-- `s.split(sep)` for a one-character separator. -/
def splitChar (sep : Char) : Str → List Str
  | [] => [[]]
  | c :: cs =>
    if c = sep then [] :: splitChar sep cs
    else match splitChar sep cs with
      | [] => [[c]]
      | p :: ps => (c :: p) :: ps

/-- Helper of `splitWs`; `acc` is the current word, reversed. -/
def splitWsGo : Str → Str → List Str
  | acc, [] => if acc.isEmpty then [] else [acc.reverse]
  | acc, c :: cs =>
    if isSpace c then (if acc.isEmpty then splitWsGo [] cs else acc.reverse :: splitWsGo [] cs)
    else splitWsGo (c :: acc) cs

/-- `s.split()`: split on runs of white space. -/
def splitWs (s : Str) : List Str := splitWsGo [] s

/-- Helper of `splitlines`; `acc` is the current line, reversed. -/
def splitlinesGo : Str → Str → List Str
  | acc, [] => if acc.isEmpty then [] else [acc.reverse]
  | acc, '\r' :: '\n' :: cs => acc.reverse :: splitlinesGo [] cs
  | acc, c :: cs => if isLineBreak c then acc.reverse :: splitlinesGo [] cs else splitlinesGo (c :: acc) cs

/-- `s.splitlines()`. -/
def splitlines (s : Str) : List Str := splitlinesGo [] s

/-- `sep.join(parts)`. -/
def joinStr (sep : Str) : List Str → Str
  | [] => []
  | [p] => p
  | p :: q :: ps => p ++ sep ++ joinStr sep (q :: ps)

/-- `s.lower()` (ASCII). -/
def lowerS (s : Str) : Str := s.map Char.toLower

/-- `s.upper()` (ASCII). -/
def upperS (s : Str) : Str := s.map Char.toUpper

example : natStr 0 = §"0" ∧ natStr 1234 = §"1234" ∧ intStr (-7) = §"-7" := by decide
example : splitWs §" a  bc d " = [§"a", §"bc", §"d"] := by decide
example : splitlines §"a\n\nb\r\nc\n" = [§"a", §"", §"b", §"c"] := by decide
example : replaceAll §"aa" §"b" §"aaaca" = §"baca" := by decide
example : strip §"  a b\n" = §"a b" := by decide
example : splitChar '/' §"/a/b" = [§"", §"a", §"b"] := by decide

end Crm
