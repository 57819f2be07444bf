import Verif.Model.Str

/-!
# Platforms and selector expressions (`parser/platform_types.py`, `parser/selector_parser.py`)
-/

namespace Crm

/-- `OperatingSystem`, `platform_types.py:15-23`. -/
inductive OS where
  | linux | osx | unix | win
deriving DecidableEq, Repr

/-- Values of `OperatingSystem`, `platform_types.py:20-23`. -/
def OS.name : OS → Str
  | .linux => §"linux" | .osx => §"osx" | .unix => §"unix" | .win => §"win"

/-- `ALL_OPERATING_SYSTEMS`, `platform_types.py:27`. -/
def OS.all : List OS := [.linux, .osx, .unix, .win]

/-- `Arch`, `platform_types.py:30-42`. -/
inductive Arch where
  | s390x | x86 | x86_64 | arm64 | armv6l | armv7l | ppc64 | ppc64le
deriving DecidableEq, Repr

/-- Values of `Arch`, `platform_types.py:35-42`. -/
def Arch.name : Arch → Str
  | .s390x => §"s390x" | .x86 => §"x86" | .x86_64 => §"x86_64" | .arm64 => §"arm64" | .armv6l => §"armv6l"
  | .armv7l => §"armv7l" | .ppc64 => §"ppc64" | .ppc64le => §"ppc64le"

/-- `ALL_ARCHITECTURES`, `platform_types.py:46`. -/
def Arch.all : List Arch := [.s390x, .x86, .x86_64, .arm64, .armv6l, .armv7l, .ppc64, .ppc64le]

/-- `Platform`, `platform_types.py:49-70`. -/
inductive Platform where
  | linux32 | linux64 | linuxAarch64 | linuxArmV6l | linuxArmV7l | linuxPpc64 | linuxPpc64le | linuxRiscv64 | linuxS390x
  | osx64 | osxArm64 | win32 | win64 | winArm64
deriving DecidableEq, Repr

/-- Values of `Platform`, `platform_types.py:55-70`. -/
def Platform.name : Platform → Str
  | .linux32 => §"linux-32" | .linux64 => §"linux-64" | .linuxAarch64 => §"linux-aarch64"
  | .linuxArmV6l => §"linux-armv6l" | .linuxArmV7l => §"linux-armv7l" | .linuxPpc64 => §"linux-ppc64"
  | .linuxPpc64le => §"linux-ppc64le" | .linuxRiscv64 => §"linux-riscv64" | .linuxS390x => §"linux-s390x"
  | .osx64 => §"osx-64" | .osxArm64 => §"osx-arm64"
  | .win32 => §"win-32" | .win64 => §"win-64" | .winArm64 => §"win-arm64"

/-- `ALL_PLATFORMS`, `platform_types.py:79`. -/
def Platform.all : List Platform :=
  [.linux32, .linux64, .linuxAarch64, .linuxArmV6l, .linuxArmV7l, .linuxPpc64, .linuxPpc64le, .linuxRiscv64,
   .linuxS390x, .osx64, .osxArm64, .win32, .win64, .winArm64]

/-- A `set[Platform]`, as its membership test. -/
abbrev PSet := Platform → Bool

/-- A set literal. -/
def PSet.of (l : List Platform) : PSet := fun p => decide (p ∈ l)

/-- `x86_64_set`, `platform_types.py:102`. -/
def x8664Set : List Platform := [.linux64, .osx64, .win64]

/-- The `match` of `get_platforms_by_arch`, `platform_types.py:104-120`. -/
def platformsOfArch : Arch → PSet
  | .s390x => .of [.linuxS390x]
  | .x86 => .of ([.linux32, .win32] ++ x8664Set)
  | .x86_64 => .of x8664Set
  | .arm64 => .of [.osxArm64, .winArm64]
  | .armv6l => .of [.linuxArmV6l]
  | .armv7l => .of [.linuxArmV7l]
  | .ppc64 => .of [.linuxPpc64]
  | .ppc64le => .of [.linuxPpc64le]

/-- `get_platforms_by_arch`, `platform_types.py:88-120`.  The members of `Arch` are `str` too, so passing a member takes
the string branch with its value. -/
def getPlatformsByArch (s : Str) : PSet :=
  match Arch.all.find? (fun a => a.name = lowerS (strip s)) with
  | none => .of []
  | some a => platformsOfArch a

/-- `osx_set`, `platform_types.py:136-139`. -/
def osxSet : List Platform := [.osx64, .osxArm64]

/-- `linux_set`, `platform_types.py:140-150`. -/
def linuxSet : List Platform :=
  [.linux32, .linux64, .linuxAarch64, .linuxArmV6l, .linuxArmV7l, .linuxPpc64, .linuxPpc64le, .linuxRiscv64, .linuxS390x]

/-- The `match` of `get_platforms_by_os`, `platform_types.py:152-164`. -/
def platformsOfOS : OS → PSet
  | .linux => .of linuxSet
  | .osx => .of osxSet
  | .unix => .of (osxSet ++ linuxSet)
  | .win => .of [.win32, .win64, .winArm64]

/-- `get_platforms_by_os`, `platform_types.py:123-164`. -/
def getPlatformsByOS (s : Str) : PSet :=
  match OS.all.find? (fun a => a.name = lowerS (strip s)) with
  | none => .of []
  | some a => platformsOfOS a

/-- `LogicOp`, `enums.py:31-38`. -/
inductive LogicOp where
  | and | or | not
deriving DecidableEq, Repr

/-- Values of `LogicOp`, `enums.py:36-38`. -/
def LogicOp.name : LogicOp → Str
  | .and => §"and" | .or => §"or" | .not => §"not"

/-- `ALL_LOGIC_OPS`, `enums.py:42`. -/
def LogicOp.all : List LogicOp := [.and, .or, .not]

/-- `SelectorValue`, `selector_parser.py:26`. -/
inductive SelValue where
  | platform (p : Platform)
  | os (o : OS)
  | arch (a : Arch)
  | op (o : LogicOp)
  | text (s : Str)
deriving DecidableEq, Repr

/-- `_SelectorNode.__init__`'s `_init_value`, `selector_parser.py:42-52`. -/
def SelValue.ofStr (value : Str) : SelValue :=
  let lower := lowerS value
  match Platform.all.find? (fun p => p.name = lower) with
  | some p => .platform p
  | none =>
    match OS.all.find? (fun p => p.name = lower) with
    | some o => .os o
    | none =>
      match Arch.all.find? (fun p => p.name = lower) with
      | some a => .arch a
      | none =>
        match LogicOp.all.find? (fun p => p.name = lower) with
        | some o => .op o
        | none => .text value

/-- `str(node.value)`, `selector_parser.py:67,75` (`StrEnum` members print as their value). -/
def SelValue.str : SelValue → Str
  | .platform p => p.name
  | .os o => o.name
  | .arch a => a.name
  | .op o => o.name
  | .text s => s

/-- A parse tree `_SelectorNode`, `selector_parser.py:29-57`. -/
inductive SelTree where
  | node (value : SelValue) (l r : Option SelTree)

/-- `_process_postfix_stack`, `selector_parser.py:91-107`; the top of the stack is the head of the list, and the stack
left behind is returned too.  The first argument bounds the recursion depth, which never exceeds the stack's length
(Python's own recursion limit, reached for about a thousand operators, is not modelled). -/
def processPostfix : Nat → List SelValue → Option SelTree × List SelValue
  | 0, st => (none, st)
  | _ + 1, [] => (none, [])
  | fuel + 1, cur :: st =>
    match cur with
    | .op .not =>
      let (l, st) := processPostfix fuel st
      (some (.node cur l none), st)
    | .op .and | .op .or =>
      let (r, st) := processPostfix fuel st
      let (l, st) := processPostfix fuel st
      (some (.node cur l r), st)
    | _ => (some (.node cur none none), st)

/-- Inner loop of the shunting yard, `selector_parser.py:128-129`: move `not`s from the operator to the postfix stack. -/
def popNots : List LogicOp → List SelValue → List LogicOp × List SelValue
  | .not :: ops, post => popNots ops (.op .not :: post)
  | ops, post => (ops, post)

/-- The shunting yard, `selector_parser.py:119-135`; stacks have their top at the head. -/
def shunt : List Str → List LogicOp → List SelValue → List SelValue
  | [], ops, post => ops.foldl (fun post o => .op o :: post) post
  | t :: ts, ops, post =>
    match SelValue.ofStr t with
    | .op .not => shunt ts (.not :: ops) post
    | .op o => let (ops, post) := popNots ops post; shunt ts (o :: ops) post
    | v => shunt ts ops (v :: post)

/-- `_parse_selector_tree`, `selector_parser.py:109-139`. -/
def parseSelectorTree (tokens : List Str) : Option SelTree :=
  let post := shunt tokens [] []
  (processPostfix post.length post).1

/-- `SelectorParser` (`v1` is `schema_version == V1`), `selector_parser.py:141-160`. -/
structure SelectorParser where
  v1 : Bool
  content : Str
  root : Option SelTree

/-- `_init_content`, `selector_parser.py:152-156`. -/
def selContent (content : Str) (v1 : Bool) : Str :=
  if !v1 && content.head? = some '[' && content.getLast? = some ']' then (content.drop 1).dropLast else content

/-- `SelectorParser.__init__`, `selector_parser.py:141-160`. -/
def SelectorParser.mk' (content : Str) (v1 : Bool) : SelectorParser :=
  let c := selContent content v1
  ⟨v1, c, parseSelectorTree (splitWs c)⟩

mutual
/-- `_SelectorNode.__str__`, `selector_parser.py:59-67`. -/
def SelTree.str : SelTree → Str
  | .node v l r => v.str ++ SelTree.strO §" L " l ++ SelTree.strO §" R " r
/-- One optional child in `_SelectorNode.__str__`, `selector_parser.py:65-66`. -/
def SelTree.strO (label : Str) : Option SelTree → Str
  | none => []
  | some t => label ++ t.str
end

/-- `SelectorParser.__str__`, `selector_parser.py:162-168`. -/
def SelectorParser.str (s : SelectorParser) : Str :=
  §"Schema: V" ++ (if s.v1 then §"1" else §"0") ++ §" | Tree: " ++
    (match s.root with | none => §"None" | some t => t.str)

/-- `SelectorParser.__eq__` between two parsers, `selector_parser.py:170-179`. -/
def SelectorParser.eq (a b : SelectorParser) : Bool := a.v1 == b.v1 && a.str == b.str

mutual
/-- `_eval_node`, `selector_parser.py:189-210`. -/
def SelTree.eval : SelTree → PSet
  | .node (.platform p) _ _ => .of [p]
  | .node (.arch a) _ _ => getPlatformsByArch a.name
  | .node (.os o) _ _ => getPlatformsByOS o.name
  | .node (.op .not) l _ => fun p => !(SelTree.evalO l p)
  | .node (.op .and) l r => fun p => SelTree.evalO l p && SelTree.evalO r p
  | .node (.op .or) l r => fun p => SelTree.evalO l p || SelTree.evalO r p
  | .node (.text _) _ _ => .of []
/-- `_eval_node` of a possibly missing node, `selector_parser.py:190-192`. -/
def SelTree.evalO : Option SelTree → PSet
  | none => .of []
  | some t => t.eval
end

/-- `get_selected_platforms`, `selector_parser.py:181-212`. -/
def SelectorParser.platforms (s : SelectorParser) : PSet := SelTree.evalO s.root

/-- `does_selector_apply` (the query is its optional platform), `selector_parser.py:214-228`. -/
def SelectorParser.applies (s : SelectorParser) (query : Option Platform) : Bool :=
  match query with
  | some p => s.platforms p
  | none => true

/-- `render`, `selector_parser.py:230-242`. -/
def SelectorParser.render (s : SelectorParser) : Str :=
  if s.v1 then s.content else §"[" ++ strip s.content ++ §"]"

end Crm
