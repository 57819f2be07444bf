import Verif.Model.Traverse
import Verif.Model.Utils

/-!
# Reading recipes (`parser/recipe_reader.py`)

`Env` collects what the code takes from outside: PyYAML's loader and dumper, `ast.literal_eval`, `float()`, float
addition, the interpreter's recursion limit.  Theorems quantify over every `Env`.
-/

namespace Crm

structure Env where
  /-- `yaml.load(s, Loader=SafeLoader)`; failures are `PyErr.yamlError` (`ScannerError` is `PyErr.yamlScanner`). -/
  load : Str → Except PyErr PyVal
  /-- `yaml.dump(value, Dumper=ForceIndentDumper, sort_keys=False, width=sys.maxsize)` -/
  dump : PyVal → Str
  /-- `ast.literal_eval`; `none` if it raises -/
  literalEval : Str → Option PyVal
  /-- `float(s)` as a `repr`; `none` if it raises `ValueError` -/
  parseFloat : Str → Option Str
  /-- `repr(a + b)` when a float is involved -/
  floatAdd : PyVal → PyVal → Str
  /-- recursion limit of the interpreter -/
  recLimit : Nat

/-- `SchemaVersion`, `parser/enums.py`. -/
inductive Schema where
  | v0 | v1
deriving DecidableEq, Repr, Inhabited

/-- `SelectorInfo`, `parser/selector_parser.py`/`recipe_reader.py`: the node and its path.  Simplification: the node is
a snapshot taken when the table is built (Python keeps a reference). -/
structure SelInfo where
  node : Node
  path : List Str
deriving DecidableEq

/-- The state of a `RecipeReader`/`RecipeParser` object. -/
structure Recipe where
  init : Str
  root : Node
  schema : Schema
  vars : List (Str × PyVal)
  selTbl : List (Str × List SelInfo)
  modified : Bool
deriving DecidableEq

/-- `_parse_yaml_recursive_sub`, `recipe_reader.py:63-82`.  `modifier` may carry state (the substitution list).  `fuel`
is the remaining recursion depth. -/
def recSub {σ : Type} (modifier : Str → σ → Except PyErr (PyVal × σ)) : Nat → PyVal → σ → Except PyErr (PyVal × σ)
  | 0, _, _ => .error .recursionError
  | fuel + 1, data, st => do
    let (data, st) ← match data with
      | .str s => modifier (quoteSpecialStrings s) st
      | d => .ok (d, st)
    match data with
    | .dict kvs =>
      let (kvs, st) ← kvs.foldlM (init := (([] : List (Str × PyVal)), st)) fun (acc, st) (k, v) => do
        let (v, st) ← recSub modifier fuel v st
        .ok (acc ++ [(k, v)], st)
      .ok (.dict kvs, st)
    | .list xs =>
      let (xs, st) ← xs.foldlM (init := (([] : List PyVal), st)) fun (acc, st) v => do
        let (v, st) ← recSub modifier fuel v st
        .ok (acc ++ [v], st)
      .ok (.list xs, st)
    | d => .ok (d, st)

/-- Schema version and variable table used to render Jinja expressions (`parser` argument of `_parse_yaml`). -/
structure JinjaCtx where
  schema : Schema
  vars : List (Str × PyVal)

/-- `_set_key_and_matches`, `recipe_reader.py:243-274`: key, lower?, upper?, index, addition operands. -/
def setKeyAndMatches (key : Str) : Str × Bool × Bool × Option Str × Option (Str × Str) :=
  let lm := Regex.jinjaFunctionLower.search key
  let key := match lm with | some m => strip (replaceAll m.text [] key) | none => key
  let um := Regex.jinjaFunctionUpper.search key
  let key := match um with | some m => strip (replaceAll m.text [] key) | none => key
  let im := Regex.jinjaFunctionIdxAccess.search key
  let idx := im.bind (·.group 2)
  let key := match idx with | some i => strip (replaceAll (§"[" ++ i ++ §"]") [] key) | none => key
  let am := Regex.jinjaFunctionAddConcat.search key
  let add := am.bind fun m => match m.group 1, m.group 2 with
    | some a, some b => some (a, b)
    | _, _ => none
  (key, lm.isSome, um.isSome, idx, add)

/-- `_eval_jinja_token`, `recipe_reader.py:276-301`. -/
def evalJinjaToken (E : Env) (vars : List (Str × PyVal)) (s : Str) : PyVal :=
  match lookupD s vars with
  | some v => v
  | none =>
    if isDigitS s then .int (natOfStr s)
    else match E.parseFloat s with
      | some r => .flt r
      | none => match s with
        | [] => .str s
        | q :: rest => if s.getLast? = some q ∧ (q = '\'' ∨ q = '"') then .str rest.dropLast else .str s

/-- Integer value of an `int` or `bool`. -/
def asInt : PyVal → Option Int
  | .int i => some i
  | .bool b => some (boolInt b)
  | _ => none

/-- `isinstance(v, (int, float))`. -/
def isNumeric : PyVal → Bool
  | .int _ | .bool _ | .flt _ => true
  | _ => false

/-- `str(lhs + rhs)` for numbers. -/
def addNum (E : Env) (a b : PyVal) : Str :=
  match asInt a, asInt b with
  | some x, some y => intStr (x + y)
  | _, _ => E.floatAdd a b

/-- One iteration of the loop of `_render_jinja_vars`, `recipe_reader.py:319-351`. -/
def renderJinjaStep (E : Env) (c : JinjaCtx) (s m : Str) : Str :=
  let startIdx := match c.schema with | .v0 => 2 | .v1 => 3
  let key := strip ((m.drop startIdx).dropLast.dropLast)
  let (key, lower, upper, idx, add) := setKeyAndMatches key
  match add with
  | some (a, b) =>
    let lhs := evalJinjaToken E c.vars a
    let rhs := evalJinjaToken E c.vars b
    let value := if isNumeric lhs && isNumeric rhs then addNum E lhs rhs
      else §"\"" ++ pyStr lhs ++ pyStr rhs ++ §"\""
    replaceAll m value s
  | none => match lookupD key c.vars with
    | some v =>
      let value := pyStr v
      let value := if lower then lowerS value else value
      let value := if upper then upperS value else value
      let value := match idx with
        | some i => match value[natOfStr i]? with | some ch => [ch] | none => value
        | none => value
      replaceAll m value s
    | none => if c.schema = .v0 ∧ s.take 2 = §"{{" then '$' :: s else s

/-- `_render_jinja_vars`, `recipe_reader.py:303-353`. -/
def renderJinjaVars (E : Env) (c : JinjaCtx) (s : Str) : Except PyErr PyVal :=
  let rx := match c.schema with | .v0 => Regex.jinjaV0Sub | .v1 => Regex.jinjaV1Sub
  E.load ((rx.findall s).foldl (renderJinjaStep E c) s)

/-- `_sub_jinja` inside `_parse_yaml`, `recipe_reader.py:100-105`. -/
def subJinja (E : Env) (ctx : Option JinjaCtx) (out : PyVal) : Except PyErr PyVal :=
  match ctx with
  | none => .ok out
  | some c => (recSub (σ := Unit) (fun s _ => (renderJinjaVars E c s).map (·, ())) E.recLimit out ()).map (·.1)

/-- `_parse_yaml`, `recipe_reader.py:84-129`. -/
def parseYaml (E : Env) (s : Str) (ctx : Option JinjaCtx := none) : Except PyErr PyVal :=
  let fallback : Except PyErr PyVal := do
    let subList := Regex.jinjaV0Sub.findall s
    let s' := Regex.jinjaV0Sub.sub (fun _ => subMarker) s
    let out ← E.load s'
    let (out, _) ← recSub (fun d subs => let (r, subs) := substituteMarkers d subs; .ok (.str r, subs))
      E.recLimit out subList
    subJinja E ctx out
  match E.load s >>= subJinja E ctx with
  | .ok v => .ok v
  | .error .yamlScanner => match E.load (quoteSpecialStrings s) >>= subJinja E ctx with
    | .ok v => .ok v
    | .error _ => fallback
  | .error _ => fallback

/-- `_parse_line_node`, `recipe_reader.py:131-198`.  An empty mapping or list on one line (`{}`, `[]`) makes the Python
code raise `IndexError`. -/
def parseLineNode (E : Env) (s : Str) : Except PyErr Node := do
  let output ← parseYaml E s
  if startsWith s §"#" then .ok { comment := s }
  else
    let comment : Str := match Regex.detectTrailingComment.search s with
      | some m => match m.groupStart 2 with | some i => s.drop i | none => []
      | none => []
    match output with
    | .dict [] => .error .indexError
    | .dict ((k, v) :: _) =>
      let children : List Node := if v = .none then [] else [{ value := v, comment := comment }]
      .ok { value := .str k, comment := comment, children := children, key := true }
    | .list [] => .error .indexError
    | .list (.dict [] :: _) => .error .indexError
    | .list (.dict ((k, v) :: _) :: _) =>
      let keyChildren : List Node := if v = .none then [] else [{ value := v, comment := comment }]
      let keyNode : Node := { value := .str k, comment := comment, children := keyChildren, key := true }
      .ok { comment := comment, listMember := true, children := [keyNode] }
    | .list (v :: _) => .ok { value := v, comment := comment, listMember := true }
    | v => .ok { value := v, comment := comment }

/-- `MultilineVariant(variant_capture)` for the captures of the `MULTILINE` expression. -/
def multilineOf (c : Str) (sign : Option Str) : Multiline :=
  if c = §"|" then (if sign = some §"+" then .pipePlus else if sign = some §"-" then .pipeMinus else .pipe)
  else (if sign = some §"+" then .rAnglePlus else if sign = some §"-" then .rAngleMinus else .rAngle)

/-- Inner loop over the lines of a multi-line value, `recipe_reader.py:454-463`; running out of lines raises. -/
def takeMultiline (indent : Nat) : List Str → Except PyErr (List Str × List Str)
  | [] => .error .indexError
  | l :: rest =>
    if numTabSpaces l > indent ∨ l = [] then do
      let (vs, r) ← takeMultiline indent rest
      .ok (strip l :: vs, r)
    else .ok ([], l :: rest)

/-- State of the line loop of `__init__`: tree, stack of owning nodes (top first), indentation, last node. -/
structure Build where
  root : Node
  stack : List Pos
  curIndent : Nat
  last : Pos
deriving DecidableEq

/-- `[].pop()` raises. -/
def popN : Nat → List Pos → Except PyErr (List Pos)
  | 0, st => .ok st
  | _ + 1, [] => .error .indexError
  | n + 1, _ :: st => popN n st

/-- Attach a parsed line to the tree, `recipe_reader.py:465-487`. -/
def attachLine (b : Build) (newIndent : Nat) (newNode : Node) : Except PyErr Build := do
  let stack ←
    if newIndent > b.curIndent then
      match nodeAt b.root b.last with
      | some last =>
        if last.isCollectionElement && !(match last.children with | c :: _ => c.isSingleKey | [] => false) then
          .ok ((b.last ++ [0]) :: b.last :: b.stack)
        else .ok (b.last :: b.stack)
      | none => .ok (b.last :: b.stack)
    else if newIndent < b.curIndent then popN ((b.curIndent - newIndent) / 2) b.stack
    else .ok b.stack
  match stack with
  | [] => .error .indexError
  | parent :: _ =>
    let n := ((nodeAt b.root parent).map (·.children.length)).getD 0
    .ok { root := updateAt (fun p => { p with children := p.children ++ [newNode] }) parent b.root,
          stack := stack, curIndent := newIndent, last := parent ++ [n] }

/-- The line loop of `__init__`, `recipe_reader.py:421-488`. -/
def buildLoop (E : Env) : Nat → List Str → Build → Except PyErr Build
  | 0, _, b => .ok b
  | _ + 1, [], b => .ok b
  | fuel + 1, line :: rest, b => do
    let clean := strip line
    if clean = [] then buildLoop E fuel rest b
    else
      let newIndent := numTabSpaces line
      let newNode ← parseLineNode E clean
      match Regex.multiline.matchStart line with
      | some m => do
        let variant := multilineOf ((m.group 1).getD []) (m.group 2)
        let (vs, rest) ← takeMultiline newIndent rest
        let ml : Node := { value := .list (vs.map .str), multiline := variant }
        let b ← attachLine b newIndent { newNode with children := [ml] }
        buildLoop E fuel rest b
      | none => do
        let b ← attachLine b newIndent newNode
        buildLoop E fuel rest b

/-- Parse tree of a text, `recipe_reader.py:404-488`. -/
def parseTree (E : Env) (content : Str) : Except PyErr Node := do
  let lines := splitlines (Regex.jinjaV0Line.sub (fun _ => []) content)
  let root : Node := { value := .str rootValue }
  let b ← buildLoop E lines.length lines ⟨root, [[]], 0, []⟩
  .ok b.root

mutual
/-- `_render_tree`, `recipe_reader.py:590-692`: the lines it appends. -/
def renderTree (depth : Int) (parent : Option Node) : Node → List Str
  | ⟨v, c, cs, l, m, k⟩ =>
    let node : Node := ⟨v, c, cs, l, m, k⟩
    let spaces := tabs depth
    let isFirst : Bool := match parent with
      | none => false
      | some p => p.isCollectionElement && (match p.children with | f :: _ => node.pyEq f | [] => false)
    if node.isSingleKey then
      match cs with
      | ch :: _ =>
        if ch.listMember then
          [ rstrip ((if isFirst then tabs (depth - 1) ++ §"- " else spaces) ++ pyStr v ++ §":  " ++ c),
            rstrip (spaces ++ tabStr ++ §"- " ++ pyStr (stringifyYaml ch.value ch.multiline) ++ §"  " ++ ch.comment) ]
        else if isFirst then
          [ rstrip (tabs (depth - 1) ++ §"- " ++ pyStr v ++ §": " ++ pyStr (stringifyYaml ch.value) ++ §"  "
              ++ ch.comment) ]
        else if ch.multiline ≠ .no then
          rstrip (spaces ++ pyStr v ++ §": " ++ ch.multiline.text ++ §"  " ++ c)
            :: (linesOf ch.value).map fun ln =>
                rstrip (spaces ++ tabStr ++ pyStr (stringifyYaml (.str ln) ch.multiline))
        else
          [ rstrip (spaces ++ pyStr v ++ §": " ++ pyStr (stringifyYaml ch.value) ++ §"  " ++ ch.comment) ]
      | [] => []
    else
      let visible : Bool := decide (depth > -1) && !node.isCollectionElement
      let delta : Int := if visible && l then 2 else 1
      let header : List Str :=
        if visible then
          [ rstrip ((if isFirst then spaces.drop 2 else spaces) ++ (if l || isFirst then §"- " else [])
              ++ pyStr v ++ §":  " ++ c) ]
        else []
      header ++ renderChildren depth (depth + delta) node cs
/-- The loop over the children, `recipe_reader.py:674-692`. -/
def renderChildren (depth childDepth : Int) (node : Node) : List Node → List Str
  | [] => []
  | child :: rest =>
    let prefx := tabs depth ++ (if depth < 0 then [] else tabStr)
    let ls : List Str :=
      if child.isComment then [ rstrip (prefx ++ child.comment) ]
      else if child.isEmptyKey then [ rstrip (prefx ++ pyStr (stringifyYaml child.value) ++ §":  " ++ child.comment) ]
      else if child.isLeaf then [ rstrip (prefx ++ §"- " ++ pyStr (stringifyYaml child.value) ++ §"  " ++ child.comment) ]
      else renderTree childDepth (some node) child
    ls ++ (if depth < 0 ∧ !child.isComment then [[]] else []) ++ renderChildren depth childDepth node rest
end

/-- `SchemaVersion`-independent part of `get_value`, `recipe_reader.py:843-886`.  `ctx` is given when `sub_vars`. -/
def getValueIn (E : Env) (root : Node) (path : Str) (default : Option PyVal := none) (ctx : Option JinjaCtx := none) :
    Except PyErr PyVal := do
  let stack ← strToStack path
  match (traverse root stack).bind (nodeAt root) with
  | none => match default with
    | none => .error .keyError
    | some d => .ok d
  | some node =>
    let finish (ret : PyVal) : Except PyErr PyVal :=
      match ret with
      | .str s => do
        let parsed ← parseYaml E s ctx
        let isList := match parsed with | .list _ => true | _ => false
        let wrap := match node.children with | [c] => c.listMember | _ => false
        if !isList && wrap then .ok (.list [parsed]) else .ok parsed
      | v => .ok v
    if node.isSingleKey && !node.isRoot then
      match node.children with
      | [] => .error .indexError
      | ch :: _ =>
        if ch.multiline ≠ .no then
          match ctx, normalizeMultiline ch.value ch.multiline with
          | some c, .str s => renderJinjaVars E c s
          | none, .str s => E.load s
          | _, v => .ok v
        else finish ch.value
    else if node.isLeaf then finish node.value
    else finish (.str (joinStr §"\n" (renderTree (-1) none node)))

/-- `_rebuild_selectors`, `recipe_reader.py:376-395`: the table as a function of the tree. -/
def rebuildSelectors (root : Node) : List (Str × List SelInfo) :=
  (visitAll root).foldl (init := []) fun tbl (n, p) =>
    if n.comment = [] then tbl
    else match Regex.selector.search n.comment with
      | none => tbl
      | some m => insertD m.text ((lookupD m.text tbl).getD [] ++ [⟨n, p⟩]) tbl

/-- `s[a:b]` for non-negative bounds. -/
def sliceS (a b : Nat) (s : Str) : Str := (s.take b).drop a

/-- `_init_vars_tbl`, `recipe_reader.py:355-374`, V0 branch. -/
def initVarsV0 (E : Env) (content : Str) : List (Str × PyVal) :=
  (Regex.jinjaV0SetLine.findall content).foldl (init := []) fun tbl line =>
    let eq := (findSub §"=" line).getD 0
    let key := strip (sliceS ((findSub §"set" line).getD 0 + 3) eq line)
    let value := strip (sliceS (eq + 1) ((findSub §"%}" line).getD 0) line)
    insertD key ((E.literalEval value).getD (.str value)) tbl

/-- Schema version from the `schema_version` field, `recipe_reader.py:488-493` (`1` and `True` compare equal). -/
def schemaOf : PyVal → Schema
  | .int 1 => .v1
  | .bool true => .v1
  | _ => .v0

/-- `RecipeReader.__init__`, `recipe_reader.py:397-502`.  Simplification: a V1 `/context` that is not a mapping gives an
empty variable table. -/
def Recipe.ofString (E : Env) (content : Str) : Except PyErr Recipe := do
  let root ← parseTree E content
  let sv ← getValueIn E root §"/schema_version" (some (.int 0))
  let vars ← match schemaOf sv with
    | .v0 => .ok (initVarsV0 E content)
    | .v1 => do
      let v ← getValueIn E root §"/context" (some (.dict []))
      .ok (match v with | .dict kvs => kvs | _ => [])
  .ok ⟨content, root, schemaOf sv, vars, rebuildSelectors root, false⟩

namespace Recipe

/-- The variable context handed to `_parse_yaml` when `sub_vars` is set. -/
def ctx (r : Recipe) : JinjaCtx := ⟨r.schema, r.vars⟩

/-- `get_value`, `recipe_reader.py:831-886`. -/
def getValue (E : Env) (r : Recipe) (path : Str) (default : Option PyVal := none) (subVars : Bool := false) :
    Except PyErr PyVal :=
  getValueIn E r.root path default (if subVars then some r.ctx else none)

/-- `contains_value`, `recipe_reader.py:820-829`. -/
def containsValue (r : Recipe) (path : Str) : Except PyErr Bool := do
  let stack ← strToStack path
  .ok (traverse r.root stack).isSome

/-- `list_value_paths`, `recipe_reader.py:805-818`. -/
def listValuePaths (r : Recipe) : List Str :=
  ((visitAll r.root).filter (·.1.isLeaf)).map (stackToStr ·.2)

/-- `find_value`, `recipe_reader.py:888-916`. -/
def findValue (r : Recipe) (v : PyVal) : Except PyErr (List Str) :=
  if !v.isPrimitive then .error .valueError
  else .ok (((visitAll r.root).filter fun np =>
    (v = .none && np.1.isEmptyKey) || (np.1.isLeaf && np.1.value.sameType v && pyEq np.1.value v)).map (stackToStr ·.2))

/-- `search`, `recipe_reader.py:1203-1226`; `re` is the user's compiled expression as a test. -/
def search (r : Recipe) (re : Str → Bool) (includeComment : Bool := false) : List Str :=
  ((visitAll r.root).filter fun np =>
    let value := pyStr (stringifyYaml np.1.value)
    let value := if includeComment && !np.1.comment.isEmpty then value ++ tabStr ++ np.1.comment else value
    np.1.isLeaf && re value).map (stackToStr ·.2)

/-- The variable section of `render`, `recipe_reader.py:704-712`. -/
def renderVars (vars : List (Str × PyVal)) : List Str :=
  (vars.map fun kv =>
    let v := match kv.2 with | .str s => §"\"" ++ s ++ §"\"" | v => pyStr v
    §"{% set " ++ kv.1 ++ §" = " ++ v ++ §" %}") ++ (if vars.isEmpty then [] else [[]])

/-- `render`, `recipe_reader.py:694-718`. -/
def render (r : Recipe) : Str :=
  joinStr §"\n" ((match r.schema with | .v0 => renderVars r.vars | .v1 => []) ++ renderTree (-1) none r.root)

/-- `__eq__`, `recipe_reader.py:561-572`. -/
def eqRecipe (a b : Recipe) : Bool := decide (a.schema = b.schema) && a.render == b.render

/-- `calc_sha256`, `recipe_reader.py:1228-1235`, over an arbitrary digest. -/
def calcSha256 (sha : Str → Str) (r : Recipe) : Str := sha r.render

/-- `is_multi_output`, `recipe_reader.py:936-942`. -/
def isMultiOutput (r : Recipe) : Bool := match r.containsValue §"/outputs" with | .ok b => b | .error _ => false

/-- Python `len(v)` for the values `get_value` returns; scalars without a length raise `TypeError`. -/
def pyLen : PyVal → Except PyErr Nat
  | .str s => .ok s.length
  | .list l => .ok l.length
  | .dict d => .ok d.length
  | _ => .error .typeError

/-- `get_package_paths`, `recipe_reader.py:944-962`. -/
def getPackagePaths (E : Env) (r : Recipe) : Except PyErr (List Str) := do
  let outputs ← r.getValue E §"/outputs" (some (.list []))
  let n ← pyLen outputs
  .ok (§"/" :: (List.range n).map fun i => §"/outputs/" ++ natStr i)

/-- `append_to_path`, `recipe_reader.py:964-983`. -/
def appendToPath (base ext : Str) : Str :=
  let base := if base = [] then §"/" else base
  let base := if base.getLast? ≠ some '/' then base ++ §"/" else base
  let ext := if ext.head? = some '/' then ext.drop 1 else ext
  base ++ ext

/-- `list_variables`, `recipe_reader.py:1021-1027`. -/
def listVariables (r : Recipe) : List Str := r.vars.map (·.1)

/-- `contains_variable`, `recipe_reader.py:1029-1036`. -/
def containsVariable (r : Recipe) (v : Str) : Bool := (lookupD v r.vars).isSome

/-- `get_variable`, `recipe_reader.py:1038-1052`. -/
def getVariable (r : Recipe) (v : Str) (default : Option PyVal := none) : Except PyErr PyVal :=
  match lookupD v r.vars with
  | some x => .ok x
  | none => match default with
    | some d => .ok d
    | none => .error .keyError

/-- `list_selectors`, `recipe_reader.py:1087-1093`. -/
def listSelectors (r : Recipe) : List Str := r.selTbl.map (·.1)

/-- `contains_selector`, `recipe_reader.py:1095-1102`. -/
def containsSelector (r : Recipe) (s : Str) : Bool := (lookupD s r.selTbl).isSome

/-- `get_selector_paths`, `recipe_reader.py:1104-1126`.  `stack_path_to_str` empties the stored path lists, so the call
changes the table. -/
def getSelectorPaths (r : Recipe) (s : Str) : List Str × Recipe :=
  match lookupD s r.selTbl with
  | none => ([], r)
  | some infos => (dedupe (infos.map (stackToStr ·.path)),
      { r with selTbl := insertD s (infos.map fun i => { i with path := [] }) r.selTbl })

/-- The node a path leads to. -/
def nodeAtPath (r : Recipe) (path : Str) : Except PyErr (Option Node) := do
  let stack ← strToStack path
  .ok ((traverse r.root stack).bind (nodeAt r.root))

/-- `contains_selector_at_path`, `recipe_reader.py:1128-1139`. -/
def containsSelectorAtPath (r : Recipe) (path : Str) : Except PyErr Bool := do
  match ← r.nodeAtPath path with
  | none => .ok false
  | some n => .ok (Regex.selector.test n.comment)

/-- `get_selector_at_path`, `recipe_reader.py:1141-1164`. -/
def getSelectorAtPath (r : Recipe) (path : Str) (default : Option Str := none) : Except PyErr Str := do
  match ← r.nodeAtPath path with
  | none => .error .keyError
  | some n => match Regex.selector.search n.comment with
    | some m => .ok m.text
    | none => match default with
      | some d => if (Regex.selector.matchStart d).isNone then .error .valueError else .ok d
      | none => .error .keyError

/-- One step of `get_comments_table`, `recipe_reader.py:1181-1198`: the comment recorded for a node, if any. -/
def commentOf (n : Node) : Option Str :=
  if n.isComment || n.comment = [] then none
  else if Regex.selector.test n.comment then
    let c := strip (Regex.selector.sub (fun _ => []) n.comment)
    let c := replaceOne §"#  " §"# " (replaceOne §"#  # " §"# " c)
    if c = [] ∨ c = §"#" then none
    else if c.head? ≠ some '#' then some (§"# " ++ c)
    else some c
  else some n.comment

/-- `get_comments_table`, `recipe_reader.py:1168-1201`. -/
def getCommentsTable (r : Recipe) : List (Str × Str) :=
  (visitAll r.root).foldl (init := []) fun tbl (n, p) =>
    match commentOf n with
    | none => tbl
    | some c => insertD (stackToStr p) c tbl

end Recipe

end Crm
