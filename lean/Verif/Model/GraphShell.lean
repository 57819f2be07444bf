import Verif.Model.Graph

/-!
# The `graph` command (`commands/graph.py`) and what it draws (`grapher/recipe_graph.py`)

The layout and the window are not modelled: a drawing is the set of arrows it shows.  `networkx.bfs_tree` is written out, as
the packages that are drawn are its result.
-/

namespace Crm

/-- `GraphType`, `grapher/types.py:13-20`. -/
inductive GraphType where
  | build | test
deriving DecidableEq, Repr

/-- `GraphDirection`, `grapher/types.py:22-30`. -/
inductive GraphDirection where
  | dependsOn | neededBy
deriving DecidableEq, Repr

/-- What the command prints or draws for a line of input; the last two end it with a traceback. -/
inductive ShellAnswer where
  | help
  | unknownType (t : Str)
  | unknownDirection
  | unknownPackage (p : Str)
  | drawAll (t : GraphType) (arrows : Edges)
  | draw (t : GraphType) (d : GraphDirection) (p : Str) (arrows : List (PyVal × PyVal))
  | stats (g : Graph)
  | closing
  | invalid
  /-- `networkx.NetworkXError`: the package is not a node of the graph -/
  | noNode
  /-- `TypeError`: `in` between a text and an enumeration, before Python 3.12 -/
  | typeError

/-- `_get_graph`, `recipe_graph.py:40-51`. -/
def Graph.ofType (g : Graph) : GraphType → Edges
  | .build => g.build
  | .test => g.test

/-- `_reverse_flag`, `recipe_graph.py:26-38`. -/
def reverseFlag : GraphDirection → Bool
  | .dependsOn => false
  | .neededBy => true

/-- `DiGraph.__contains__`; used by `nx.bfs_tree` at `recipe_graph.py:169-171`. -/
def hasNode (es : Edges) (n : PyVal) : Bool := es.any fun e => pyEq e.1 n || pyEq (.str e.2) n

/-- `DiGraph.successors` and (if `rev`) `DiGraph.predecessors`; used by `nx.bfs_tree` at `recipe_graph.py:169-171`. -/
def neighbours (es : Edges) (rev : Bool) (n : PyVal) : List PyVal :=
  if rev then (es.filter fun e => pyEq (.str e.2) n).map (·.1) else (es.filter fun e => pyEq e.1 n).map fun e => .str e.2

/-- The loop of `nx.bfs_edges` (used at `recipe_graph.py:169-171`): breadth first, every node at most once.  `fuel` bounds the
number of nodes that are taken from the queue. -/
def bfsLoop (es : Edges) (rev : Bool) : Nat → List PyVal → List PyVal → List (PyVal × PyVal)
  | 0, _, _ => []
  | _ + 1, [], _ => []
  | fuel + 1, p :: queue, visited =>
    let new := (neighbours es rev p).filter fun c => !visited.any (pyEq · c)
    new.map (fun c => (p, c)) ++ bfsLoop es rev fuel (queue ++ new) (visited ++ new)

/-- `nx.bfs_tree(graph, package, reverse=…)`, `recipe_graph.py:169-171`: the edges of the tree; `none` if the package is not a
node. -/
def bfsTree (es : Edges) (rev : Bool) (p : PyVal) : Option (List (PyVal × PyVal)) :=
  if hasNode es p then some (bfsLoop es rev (2 * es.length + 1) [p] [p]) else none

/-- `plot`, `recipe_graph.py:136-179`. -/
def Graph.plot (g : Graph) (t : GraphType) (d : GraphDirection) (package : Option Str) : ShellAnswer :=
  match package with
  | none => .drawAll t (g.ofType t)
  | some p => match bfsTree (g.ofType t) (reverseFlag d) (.str p) with
    | some arrows => .draw t d p arrows
    | none => .noNode

/-- `GraphType(s)`, `commands/graph.py:81` and `commands/graph.py:98`. -/
def graphTypeOf (s : Str) : Option GraphType :=
  if s = §"build" then some .build else if s = §"test" then some .test else none

/-- One line of input, `commands/graph.py:61-107`.  `py312`: the interpreter is Python 3.12 or later. -/
def shellLine (py312 : Bool) (g : Graph) (line : Str) : ShellAnswer :=
  match splitWs (lowerS line) with
  | [c] =>
    if c = §"help" ∨ c = §"h" then .help
    else if c = §"stats" ∨ c = §"statistics" then .stats g
    else if c = §"exit" ∨ c = §"esc" ∨ c = §"quit" ∨ c = §"q" then .closing
    else .invalid
  | [c, t, a] =>
    if c = §"plot" ∧ a = §"all" then
      if !py312 then .typeError
      else match graphTypeOf t with
        | none => .unknownType t
        | some t => g.plot t .dependsOn none
    else .invalid
  | [c, t, d, p] =>
    if c = §"plot" then
      if !py312 then .typeError
      else match graphTypeOf t with
        | none => .unknownType t
        | some t =>
          if d = §"depends" then (if g.containsPackage p then g.plot t .dependsOn (some p) else .unknownPackage p)
          else if d = §"needed-by" then (if g.containsPackage p then g.plot t .neededBy (some p) else .unknownPackage p)
          else .unknownDirection
    else .invalid
  | _ => .invalid

/-- How the command ends: the exit code, or a traceback. -/
inductive ShellEnd where
  | exit (code : Nat)
  | traceback
  /-- the end of the input: `click` ends the command with code 1 -/
  | endOfInput
deriving DecidableEq, Repr

/-- The loop over the input, `commands/graph.py:60-109`. -/
def shellLoop (py312 : Bool) (g : Graph) : List Str → List ShellAnswer × ShellEnd
  | [] => ([], .endOfInput)
  | l :: ls => match shellLine py312 g l with
    | .closing => ([.closing], .exit 0)
    | .noNode => ([.noNode], .traceback)
    | .typeError => ([.typeError], .traceback)
    | a => let r := shellLoop py312 g ls; (a :: r.1, r.2)

/-- `graph`, `commands/graph.py:22-109`, with the graph that was built from the directory: without a recipe the command ends with
exit code 2.  The statistics printed at the start are not modelled: as a recipe was parsed, no division by zero occurs. -/
def graphCommand (py312 : Bool) (g : Graph) (input : List Str) : List ShellAnswer × ShellEnd :=
  if !g.truthy then ([], .exit 2) else shellLoop py312 g input

end Crm
