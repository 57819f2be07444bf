import Verif.Model.Regex
import Verif.Model.Node

/-!
# Parser utilities (`parser/_utils.py`)
-/

namespace Crm

/-- `RECIPE_MANAGER_SUB_MARKER`, `_types.py:24`. -/
def subMarker : Str := §"__RECIPE_MANAGER_SUBSTITUTION_MARKER__"

/-- `TAB_AS_SPACES`, `parser/types.py:32`. -/
def tabStr : Str := §"  "

/-- `TAB_AS_SPACES * depth` (negative counts give the empty string). -/
def tabs (depth : Int) : Str := List.replicate (2 * depth.toNat) ' '

/-- `num_tab_spaces`, `_utils.py:76-90`. -/
def numTabSpaces : Str → Nat
  | [] => 0
  | c :: cs => if c = ' ' then numTabSpaces cs + 1 else 0

/-- `substitute_markers`, `_utils.py:93-104`; also returns the substitutions that are left, because the Python
function consumes the list of its caller. -/
def substituteMarkers (s : Str) : List Str → Str × List Str
  | [] => (s, [])
  | sub :: subs =>
    if inStr subMarker s then substituteMarkers (replaceOne subMarker sub s) subs else (s, sub :: subs)

/-- `_TO_QUOTE_SPECIAL_CHARS`, `_utils.py:25`. -/
def toQuoteSpecialChars : List Char := §"[],&:*?-=!%@\\"

/-- `quote_special_strings`, `_utils.py:107-146`. -/
def quoteSpecialStrings (s : Str) (mv : Multiline := .no) : Str :=
  if mv ≠ .no || !(Regex.jinjaV0Sub.findall s).isEmpty || Regex.jinjaFunctionMatch.test s then s
  else if toQuoteSpecialChars.any (fun c => s == [c])
      || (!inStr §"${{" s && (inStr §"'" s || inStr §"\"" s))
      || toQuoteSpecialChars.any (fun c => startsWith s [c]) then jsonDumpsStr s
  else s

/-- `stringify_yaml`, `_utils.py:149-175`. -/
def stringifyYaml (v : PyVal) (mv : Multiline := .no) : PyVal :=
  match v with
  | .sentinel => .str []
  | .none => .str §"null"
  | .bool true => .str §"true"
  | .bool false => .str §"false"
  | .str s => .str (quoteSpecialStrings s mv)
  | v => v

/-- Lines of a multi-line value (`cast(list[str], value)`). -/
def linesOf : PyVal → List Str
  | .list xs => xs.map pyStr
  | _ => []

/-- `normalize_multiline_strings`, `_utils.py:178-194`. -/
def normalizeMultiline (v : PyVal) (mv : Multiline) : PyVal :=
  if mv = .no then v
  else .str (mv.text ++ §"\n" ++ tabStr ++ joinStr (§"\n" ++ tabStr) (linesOf v))

/-- `dedupe_and_preserve_order`, `_utils.py:197-204`: `list(dict.fromkeys(l))`. -/
def dedupe {α : Type} [DecidableEq α] (l : List α) : List α :=
  l.foldl (fun acc x => if x ∈ acc then acc else acc ++ [x]) []

/-- `set_key_conditionally`, `_utils.py:207-217`. -/
def setKeyConditionally (d : List (Str × PyVal)) (k : Str) (v : PyVal) : List (Str × PyVal) :=
  if v.truthy then insertD k v d else d

/-- `search_any_regex`, `_utils.py:220-232`. -/
def searchAnyRegex (rs : List Rx) (s : Str) : Bool := rs.any (·.test s)

end Crm
