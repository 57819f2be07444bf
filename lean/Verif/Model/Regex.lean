import Verif.Model.Str

/-!
# Regular expressions

A small backtracking matcher with Python `re` semantics (greedy, first alternative first), and a transcription of the
expressions of `conda_recipe_manager/parser/_types.py`.  `Rx.run` lists the ways to match at the current position in
the order in which the backtracking engine tries them, so its head is the match `re` reports.

`\w` and `\d` are modelled for ASCII.  `.` excludes `\n` only, as in Python without `re.DOTALL`.
-/

namespace Crm

inductive Rx where
  | eps
  | cls (p : Char → Bool)
  | seq (a b : Rx)
  | alt (a b : Rx)
  | star (a : Rx)
  | grp (n : Nat) (a : Rx)
  | notAfter (c : Char)

/-- Matching state: consumed text (reversed), remaining text, captured groups (latest first) as
`(group, start, text)`. -/
structure MSt where
  bef : Str
  aft : Str
  caps : List (Nat × Nat × Str) := []
deriving DecidableEq

/-- Greedy iteration; `fuel` bounds the number of iterations, each of which must consume something. -/
def starRun (f : MSt → List MSt) : Nat → MSt → List MSt
  | 0, s => [s]
  | n + 1, s =>
    (f s).flatMap (fun s' => if s'.aft.length < s.aft.length then starRun f n s' else []) ++ [s]

/-- All matches at the current position, in backtracking order. -/
def Rx.run : Rx → MSt → List MSt
  | .eps, s => [s]
  | .cls p, s => match s.aft with
    | [] => []
    | c :: cs => if p c then [{ s with bef := c :: s.bef, aft := cs }] else []
  | .seq a b, s => (a.run s).flatMap b.run
  | .alt a b, s => a.run s ++ b.run s
  | .star a, s => starRun a.run s.aft.length s
  | .grp n a, s => (a.run s).map fun s' =>
      { s' with caps := (n, s.bef.length, (s'.bef.take (s'.bef.length - s.bef.length)).reverse) :: s'.caps }
  | .notAfter c, s => match s.bef with
    | [] => [s]
    | b :: _ => if b = c then [] else [s]

/-- A successful match: text before it, matched text, text after it, captures. -/
structure RMatch where
  pre : Str
  text : Str
  post : Str
  caps : List (Nat × Nat × Str)
deriving DecidableEq

/-- Match at the current position (`pattern.match` when `bef = []`). -/
def Rx.matchAt (r : Rx) (bef aft : Str) : Option RMatch :=
  match r.run ⟨bef, aft, []⟩ with
  | [] => none
  | s :: _ => some ⟨bef.reverse, aft.take (aft.length - s.aft.length), s.aft, s.caps⟩

/-- `pattern.match(s)`. -/
def Rx.matchStart (r : Rx) (s : Str) : Option RMatch := r.matchAt [] s

/-- `pattern.search(s)` from a position. -/
def Rx.searchFrom (r : Rx) : Str → Str → Option RMatch
  | bef, [] => r.matchAt bef []
  | bef, c :: cs => match r.matchAt bef (c :: cs) with
    | some m => some m
    | none => r.searchFrom (c :: bef) cs

/-- `pattern.search(s)`. -/
def Rx.search (r : Rx) (s : Str) : Option RMatch := r.searchFrom [] s

/-- Whether `pattern.search(s)` succeeds. -/
def Rx.test (r : Rx) (s : Str) : Bool := (r.search s).isSome

/-- `pattern.findall(s)` for patterns without groups that never match the empty string. -/
def Rx.findallGo (r : Rx) : Nat → Str → Str → List Str
  | _, _, [] => []
  | k + 1, bef, c :: cs => r.findallGo k (c :: bef) cs
  | 0, bef, c :: cs => match r.matchAt bef (c :: cs) with
    | some m => m.text :: r.findallGo (m.text.length - 1) (c :: bef) cs
    | none => r.findallGo 0 (c :: bef) cs

def Rx.findall (r : Rx) (s : Str) : List Str := r.findallGo 0 [] s

/-- `pattern.sub(f, s)` for patterns that never match the empty string; `f` computes the replacement. -/
def Rx.subGo (r : Rx) (f : RMatch → Str) : Nat → Str → Str → Str
  | _, _, [] => []
  | k + 1, bef, c :: cs => r.subGo f k (c :: bef) cs
  | 0, bef, c :: cs => match r.matchAt bef (c :: cs) with
    | some m => f m ++ r.subGo f (m.text.length - 1) (c :: bef) cs
    | none => c :: r.subGo f 0 (c :: bef) cs

def Rx.sub (r : Rx) (f : RMatch → Str) (s : Str) : Str := r.subGo f 0 [] s

/-- Text captured by group `n`, if the group took part in the match (`m.group(n)`). -/
def RMatch.group (m : RMatch) (n : Nat) : Option Str :=
  (m.caps.find? (fun c => c.1 == n)).map (·.2.2)

/-- Start of group `n` (`m.start(n)`). -/
def RMatch.groupStart (m : RMatch) (n : Nat) : Option Nat :=
  (m.caps.find? (fun c => c.1 == n)).map (·.2.1)

/-! ## Building blocks -/

namespace Rx

def chr (c : Char) : Rx := .cls (· == c)
def lit : Str → Rx
  | [] => .eps
  | [c] => chr c
  | c :: d :: cs => .seq (chr c) (lit (d :: cs))
def oneOf (s : Str) : Rx := .cls (fun c => s.contains c)
/-- `.` -/
def dot : Rx := .cls (fun c => c != '\n')
/-- `\s` -/
def ws : Rx := .cls isSpace
/-- `\w` (ASCII) -/
def word : Rx := .cls (fun c => c.isAlphanum || c == '_')
/-- `\d` (ASCII) -/
def digit : Rx := .cls isDigitC
def plus (a : Rx) : Rx := .seq a (.star a)
def opt (a : Rx) : Rx := .alt a .eps
def cat : List Rx → Rx
  | [] => .eps
  | [a] => a
  | a :: b :: l => .seq a (cat (b :: l))
def alts : List Rx → Rx
  | [] => .cls (fun _ => false)
  | [a] => a
  | a :: b :: l => .alt a (alts (b :: l))

end Rx

/-! ## The expressions of `_types.py` (class `Regex`) -/

namespace Regex
open Rx

/-- `_JINJA_VAR_FUNCTION_PATTERN`, `_types.py:129`. -/
def jinjaVarFunction : Rx :=
  .star (.cls fun c => c.isAlphanum || (§"_|'\"()[], =.-~+").contains c)

/-- `PRE_PROCESS_ENVIRON`, `_types.py:134`: `\s+environ\[("|')(.*)("|')\]`. -/
def preProcessEnviron : Rx :=
  cat [plus ws, lit §"environ[", .grp 1 (oneOf §"\"'"), .grp 2 (.star dot), .grp 3 (oneOf §"\"'"), chr ']']

/-- `PRE_PROCESS_JINJA_HASH_TYPE_KEY`, `_types.py:136-138`: `'{0,1}\{\{ (hash_type|hash|hashtype) \}\}'{0,1}:`. -/
def preProcessHashTypeKey : Rx :=
  cat [opt (chr '\''), lit §"{{ ", .grp 1 (alts [lit §"hash_type", lit §"hash", lit §"hashtype"]), lit §" }}",
    opt (chr '\''), chr ':']

/-- `PRE_PROCESS_MIN_PIN_REPLACEMENT` / `MAX`, `_types.py:154-155`. -/
def preProcessMinPin : Rx := lit §"min_pin="
def preProcessMaxPin : Rx := lit §"max_pin="

/-- `JINJA_V0_SUB`, `_types.py:166`: `{{\s*<pattern>\s*}}`. -/
def jinjaV0Sub : Rx := cat [lit §"{{", .star ws, jinjaVarFunction, .star ws, lit §"}}"]

/-- `JINJA_V0_LINE`, `_types.py:167`: `({%.*%}|{#.*#})\n`. -/
def jinjaV0Line : Rx :=
  cat [.grp 1 (.alt (cat [lit §"{%", .star dot, lit §"%}"]) (cat [lit §"{#", .star dot, lit §"#}"])), chr '\n']

/-- `JINJA_V0_SET_LINE`, `_types.py:168-170`: `{%\s*set\s*<pattern>\s*=.*%}\s*\n`. -/
def jinjaV0SetLine : Rx :=
  cat [lit §"{%", .star ws, lit §"set", .star ws, jinjaVarFunction, .star ws, chr '=', .star dot, lit §"%}",
    .star ws, chr '\n']

/-- `JINJA_REPLACE_V0_STARTING_MARKER`, `_types.py:173`: `(?<!\$)\{\{`. -/
def jinjaReplaceV0StartingMarker : Rx := .seq (.notAfter '$') (lit §"{{")

/-- `JINJA_V1_SUB`, `_types.py:175`. -/
def jinjaV1Sub : Rx := cat [lit §"${{", .star ws, jinjaVarFunction, .star ws, lit §"}}"]

/-- `JINJA_FUNCTION_LOWER`, `_types.py:179`: `\|\s*(lower)`. -/
def jinjaFunctionLower : Rx := cat [chr '|', .star ws, .grp 1 (lit §"lower")]

/-- `JINJA_FUNCTION_UPPER`, `_types.py:180`. -/
def jinjaFunctionUpper : Rx := cat [chr '|', .star ws, .grp 1 (lit §"upper")]

/-- `JINJA_FUNCTION_IDX_ACCESS`, `_types.py:182`: `(\w+)\[(\d+)\]`. -/
def jinjaFunctionIdxAccess : Rx := cat [.grp 1 (plus word), chr '[', .grp 2 (plus digit), chr ']']

/-- `JINJA_FUNCTION_ADD_CONCAT`, `_types.py:183-185`. -/
def jinjaFunctionAddConcat : Rx :=
  let tok : Rx := cat [opt (oneOf §"\"'"), plus (.cls fun c => c.isAlphanum || c == '_' || c == '.'),
    opt (oneOf §"\"'")]
  cat [.grp 1 tok, .star ws, chr '+', .star ws, .grp 2 tok]

/-- `JINJA_FUNCTION_MATCH`, `_types.py:187`: `match\(.*,.*\)`. -/
def jinjaFunctionMatch : Rx := cat [lit §"match(", .star dot, chr ',', .star dot, chr ')']

/-- `SELECTOR`, `_types.py:197`: `\[.*\]`. -/
def selector : Rx := cat [chr '[', .star dot, chr ']']

/-- `MULTILINE`, `_types.py:200`: `^\s*.*:\s+(\||>)(\+|\-)?(\s*|\s+#.*)` (used with `match`). -/
def multiline : Rx :=
  cat [.star ws, .star dot, chr ':', plus ws, .grp 1 (oneOf §"|>"), opt (.grp 2 (oneOf §"+-")),
    .grp 3 (.alt (.star ws) (cat [plus ws, chr '#', .star dot]))]

/-- `DETECT_TRAILING_COMMENT`, `_types.py:204`: `(\s)+(#)`. -/
def detectTrailingComment : Rx := cat [plus (.grp 1 ws), .grp 2 (chr '#')]

end Regex

example : (Regex.selector.search §"# [a] b [c] d").map (·.text) = some §"[a] b [c]" := by decide
example : (Regex.detectTrailingComment.search §"a b  # c").bind (·.groupStart 2) = some 5 := by decide
example : (Regex.multiline.matchStart §"foo: |-").bind (·.group 2) = some §"-" := by decide
example : Regex.jinjaV0Sub.findall §"{{ a }} x {{b}}" = [§"{{ a }}", §"{{b}}"] := by decide
example : Regex.jinjaReplaceV0StartingMarker.sub (fun _ => §"${{") §"{{ a }} ${{ b" = §"${{ a }} ${{ b" := by decide
example : (Regex.jinjaFunctionAddConcat.search §"build + 100").map (fun m => (m.group 1, m.group 2)) =
    some (some §"build", some §"100") := by decide

end Crm
