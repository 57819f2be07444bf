import Verif.Model.Parser

/-!
# A toy YAML loader

Only used to exhibit concrete recipes in non-vacuity examples and counterexamples (the theorems quantify over every
loader).  It understands block mappings and lists, plain and quoted scalars, comments and literal block strings, and
rejects plain scalars that start with a character YAML reserves.
-/

namespace Crm.Toy

/-- Cut a trailing comment off a line: `#` at the start or after white space, outside quotes. -/
def cutComment : Option Char → Bool → Str → Str
  | _, _, [] => []
  | none, sp, c :: cs =>
    if c = '#' ∧ sp then []
    else if c = '"' ∨ c = '\'' then c :: cutComment (if sp then some c else none) false cs
    else c :: cutComment none (isSpace c) cs
  | some q, _, c :: cs => c :: cutComment (if c = q then none else some q) false cs

/-- Undo the JSON escapes used by `jsonDumpsStr` for printable characters. -/
def unescape : Str → Str
  | '\\' :: 'n' :: cs => '\n' :: unescape cs
  | '\\' :: c :: cs => c :: unescape cs
  | c :: cs => c :: unescape cs
  | [] => []

/-- Plain or quoted scalar. -/
def scalar (s : Str) : Except PyErr PyVal :=
  if s = [] ∨ s = §"null" ∨ s = §"~" then .ok .none
  else if [§"true", §"True", §"yes", §"on"].contains s then .ok (.bool true)
  else if [§"false", §"False", §"no", §"off"].contains s then .ok (.bool false)
  else if isDigitS s then .ok (.int (natOfStr s))
  else match s with
    | '"' :: rest => if rest.getLast? = some '"' then .ok (.str (unescape rest.dropLast)) else .error .yamlScanner
    | '\'' :: rest => if rest.getLast? = some '\'' then .ok (.str rest.dropLast) else .error .yamlScanner
    | c :: _ =>
      if c = '{' ∧ s = §"{}" then .ok (.dict [])
      else if c = '[' ∧ s = §"[]" then .ok (.list [])
      else if [ '*', '&', '%', '@', '!' , '`' ].contains c then .error .yamlScanner
      else if [ '{', '[', ']', '}', ',' ].contains c then .error .yamlError
      else match splitChar '.' s with
        | [a, b] => if isDigitS a ∧ isDigitS b then
            let b' := (b.reverse.dropWhile (· = '0')).reverse
            .ok (.flt (natStr (natOfStr a) ++ §"." ++ (if b' = [] then §"0" else b')))
          else .ok (.str s)
        | _ => .ok (.str s)
    | [] => .ok .none

/-- Split `key: value` at the first colon followed by white space or the end. -/
def splitKey : Str → Option (Str × Str)
  | [] => none
  | [':'] => some ([], [])
  | ':' :: ' ' :: rest => some ([], strip rest)
  | c :: cs => (splitKey cs).map fun kv => (c :: kv.1, kv.2)

/-- Split a key off a line unless the line starts with a quote or a Jinja brace. -/
def keyOf (s : Str) : Option (Str × Str) :=
  match s with
  | '"' :: _ | '\'' :: _ | '{' :: _ => none
  | _ => splitKey s

mutual
/-- Parse a block whose lines (indentation, text) are given. -/
def block : Nat → List (Nat × Str) → Except PyErr PyVal
  | 0, _ => .error .recursionError
  | _ + 1, [] => .ok .none
  | fuel + 1, (i, t) :: rest =>
    if t = §"-" ∨ startsWith t §"- " then (items fuel i ((i, t) :: rest)).map .list
    else if (keyOf t).isSome then (pairs fuel i ((i, t) :: rest)).map .dict
    else scalar (joinStr §" " (t :: rest.map (·.2)))
/-- Elements of a block list at indentation `i`. -/
def items : Nat → Nat → List (Nat × Str) → Except PyErr (List PyVal)
  | 0, _, _ => .error .recursionError
  | _ + 1, _, [] => .ok []
  | fuel + 1, i, (_, t) :: rest => do
    let body := rest.takeWhile (fun l => l.1 > i)
    let after := rest.dropWhile (fun l => l.1 > i)
    let inner := t.drop 2
    let v ← block fuel ((if inner = [] then [] else [(i + 2, inner)]) ++ body)
    let vs ← items fuel i after
    .ok (v :: vs)
/-- Entries of a block mapping at indentation `i`. -/
def pairs : Nat → Nat → List (Nat × Str) → Except PyErr (List (Str × PyVal))
  | 0, _, _ => .error .recursionError
  | _ + 1, _, [] => .ok []
  | fuel + 1, i, (_, t) :: rest => do
    let isIn (l : Nat × Str) : Bool := l.1 > i || (l.1 == i && startsWith l.2 §"- ")
    let body := rest.takeWhile isIn
    let after := rest.dropWhile isIn
    match keyOf t with
    | none => .error .yamlScanner
    | some (k, v) =>
      let val ← if startsWith v §"|" ∨ startsWith v §">" then .ok (.str (joinStr §"\n" (body.map (·.2))))
        else if v = [] then block fuel body else scalar v
      let kvs ← pairs fuel i after
      .ok ((k, val) :: kvs)
end

/-- The toy `yaml.load`. -/
def load (s : Str) : Except PyErr PyVal :=
  let lines := (splitlines s).map fun l => (numTabSpaces l, strip (cutComment none true l))
  let lines := lines.filter fun l => l.2 ≠ []
  match lines with
  | (_, t) :: rest =>
    if startsWith t §"|" then .ok (.str (joinStr §"\n" (rest.map (·.2))))
    else block (2 * s.length + 2) lines
  | [] => .ok .none

mutual
/-- Toy `yaml.dump` (two-space indentation). -/
def dumpLines : Nat → PyVal → List Str
  | ind, .dict kvs => dumpD ind kvs
  | ind, .list xs => dumpL ind xs
  | ind, v => [List.replicate ind ' ' ++ pyStr (stringifyYaml v)]
def dumpD : Nat → List (Str × PyVal) → List Str
  | _, [] => []
  | ind, (k, v) :: rest =>
    (match v with
    | .dict _ | .list _ => (List.replicate ind ' ' ++ k ++ §":") :: dumpLines (ind + 2) v
    | v => [List.replicate ind ' ' ++ k ++ §": " ++ pyStr (stringifyYaml v)]) ++ dumpD ind rest
def dumpL : Nat → List PyVal → List Str
  | _, [] => []
  | ind, v :: rest =>
    (match dumpLines (ind + 2) v with
    | [] => [List.replicate ind ' ' ++ §"- "]
    | l :: ls => (List.replicate ind ' ' ++ §"- " ++ l.drop (ind + 2)) :: ls) ++ dumpL ind rest
end

/-- The toy environment. -/
def env : Env where
  load := load
  dump := fun v => joinStr §"\n" (dumpLines 0 v) ++ §"\n"
  literalEval := fun s => match scalar s with | .ok (.str t) => if s.head? = some '"' ∨ s.head? = some '\'' then some (.str t) else none | .ok .none => none | .ok v => some v | .error _ => none
  parseFloat := fun s => match scalar s with | .ok (.flt r) => some r | _ => none
  floatAdd := fun _ _ => §"0.0"
  recLimit := 50

/-- Parse a text with the toy loader. -/
def recipe (s : String) : Recipe :=
  match Recipe.ofString env s.toList with
  | .ok r => r
  | .error _ => ⟨[], {}, .v0, [], [], false⟩

end Crm.Toy
