import Verif.Model.Reader
import Verif.Spec.Text
import Verif.Spec.OneLine

/-!
# Recipe documents as they are written

A document is a tree of entries; `Doc.lines` says how it is laid out (two spaces per level, list items below their key by
one level, two spaces before a trailing comment), `Doc.node` is the tree it stands for, and `Doc.Ok` says what the entries may
hold.  `vt` is the text of a scalar, `v` its value, `c` a trailing comment with its `#` (or nothing), `k` a key.
-/

namespace Crm.Spec

inductive Doc where
  /-- `# text` on a line of its own -/
  | comment (t : Str)
  /-- `k:` with nothing below it -/
  | empty (k c : Str)
  /-- `k: vt` -/
  | scalar (k vt : Str) (v : PyVal) (c : Str)
  /-- `k: |` (or another marker), then indented lines of text -/
  | multi (k : Str) (m : Multiline) (c : Str) (body : List Str)
  /-- `k:` with entries below it -/
  | block (k c : Str) (cs : List Doc)
  /-- `- vt` -/
  | item (vt : Str) (v : PyVal) (c : Str)
  /-- `- ` in front of an entry, further entries at the level of the first -/
  | elem (first : Doc) (rest : List Doc)

/-- Indentation. -/
def ind (level : Nat) : Str := List.replicate (2 * level) ' '

/-- A line with its trailing comment. -/
def withComment (base c : Str) : Str := if c = [] then base else base ++ §"  " ++ c

namespace Doc

/-- The line of an entry up to a trailing comment. -/
def base : Doc → Str
  | comment t => t
  | empty k _ => k ++ §":"
  | scalar k vt _ _ => k ++ §": " ++ vt
  | multi k m _ _ => k ++ §": " ++ m.text
  | block k _ _ => k ++ §":"
  | item vt _ _ => §"- " ++ vt
  | elem first _ => §"- " ++ first.base

/-- The trailing comment of the line of an entry. -/
def trail : Doc → Str
  | comment _ => []
  | empty _ c => c
  | scalar _ _ _ c => c
  | multi _ _ c _ => c
  | block _ c _ => c
  | item _ _ c => c
  | elem first _ => first.trail

/-- The line of an entry, without its indentation. -/
def head (d : Doc) : Str := withComment d.base d.trail

mutual
/-- The lines below the line of an entry. -/
def under (level : Nat) : Doc → List Str
  | multi _ _ _ body => body.map fun l => if l = [] then [] else ind (level + 1) ++ l
  | block _ _ cs => linesL (level + 1) cs
  | elem first rest => first.under (level + 1) ++ linesL (level + 1) rest
  | _ => []
/-- The lines of a list of entries. -/
def linesL (level : Nat) : List Doc → List Str
  | [] => []
  | d :: ds => (ind level ++ d.head) :: d.under level ++ linesL level ds
end

/-- The lines of an entry. -/
def lines (level : Nat) (d : Doc) : List Str := (ind level ++ d.head) :: d.under level

mutual
/-- The tree of an entry. -/
def node : Doc → Node
  | comment t => { comment := t }
  | empty k c => { value := .str k, comment := c, key := true }
  | scalar k _ v c => { value := .str k, comment := c, key := true, children := [{ value := v, comment := c }] }
  | multi k m c body =>
    { value := .str k, comment := c, key := true, children := [{ value := .list (body.map .str), multiline := m }] }
  | block k c cs => { value := .str k, comment := c, key := true, children := nodes cs }
  | item _ v c => { value := v, comment := c, listMember := true }
  | elem first rest => { comment := first.trail, listMember := true, children := first.node :: nodes rest }
def nodes : List Doc → List Node
  | [] => []
  | d :: ds => d.node :: nodes ds
end

/-- The key of an entry. -/
def keyOf : Doc → Option Str
  | empty k _ => some k
  | scalar k _ _ _ => some k
  | multi k _ _ _ => some k
  | block k _ _ => some k
  | _ => none

def isComment : Doc → Bool
  | comment _ => true
  | _ => false

def isEmpty : Doc → Bool
  | empty _ _ => true
  | _ => false

/-- `- ` can stand in front of the entry. -/
def canLead : Doc → Bool
  | scalar _ _ _ _ => true
  | block _ _ _ => true
  | _ => false

mutual
/-- The last line of the entry is a line of a multi-line text. -/
def endsInText : Doc → Bool
  | multi _ _ _ _ => true
  | block _ _ cs => endsInTextL false cs
  | elem first rest => endsInTextL first.endsInText rest
  | _ => false
/-- The same for a list of entries, below a line for which the answer is `b`. -/
def endsInTextL (b : Bool) : List Doc → Bool
  | [] => b
  | d :: ds => endsInTextL d.endsInText ds
end

/-- What the line of the entry is when read as YAML, with Jinja expressions in it taken as text. -/
def Reads (E : Env) (line : Str) : Doc → Prop
  | comment _ => ∃ v, parseYaml E line = .ok v
  | empty k _ => parseYaml E line = .ok (.dict [(k, .none)])
  | scalar k _ v _ => parseYaml E line = .ok (.dict [(k, v)])
  | multi k _ _ _ => ∃ v, parseYaml E line = .ok (.dict [(k, v)])
  | block k _ _ => parseYaml E line = .ok (.dict [(k, .none)])
  | item _ v _ => parseYaml E line = .ok (.list [v])
  | elem (scalar k _ v _) _ => parseYaml E line = .ok (.list [.dict [(k, v)]])
  | elem (block k _ _) _ => parseYaml E line = .ok (.list [.dict [(k, .none)]])
  | elem _ _ => False

/-- Text that stays on its line, is not a Jinja statement, and has no white space around it. -/
structure Plain (t : Str) : Prop where
  trimmed : strip t = t
  oneLine : ∀ c ∈ t, isLineBreak c = false
  noStatement : inStr §"{%" t = false ∧ inStr §"{#" t = false

/-- No `#` after white space. -/
def NoTrail (t : Str) : Prop := ∀ a w b, t = a ++ w :: '#' :: b → isSpace w = false

/-- A trailing comment. -/
def IsTrail (c : Str) : Prop := c = [] ∨ ∃ t, c = '#' :: t

/-- The line of an entry is well formed: it is read as what it stands for. -/
structure LineOk (E : Env) (d : Doc) : Prop where
  plain : Plain d.head
  clean : d.base ≠ [] ∧ strip d.base = d.base
  reads : d.Reads E d.head

/-- The line has the trailing comment it should have. -/
def Line (d : Doc) : Prop := IsTrail d.trail ∧ NoTrail d.base ∧ ∀ u, d.base ≠ '#' :: u

mutual
/-- The entry is well formed. -/
def Ok (E : Env) : Doc → Prop
  | comment t => LineOk E (comment t) ∧ (∃ u, t = '#' :: u) ∧ NoMarker t
  | empty k c => LineOk E (empty k c) ∧ Line (empty k c) ∧ NoMarker (empty k c).head ∧
      yamlText (.str k) = k
  | scalar k vt v c => LineOk E (scalar k vt v c) ∧ Line (scalar k vt v c) ∧ NoMarker (scalar k vt v c).head ∧
      v ≠ .none ∧ v ≠ .sentinel ∧ vt = yamlText v
  | multi k m c body => LineOk E (multi k m c body) ∧ Line (multi k m c body) ∧ NoMarker c ∧
      m ∈ [.pipe, .pipePlus, .pipeMinus, .rAngle, .rAnglePlus, .rAngleMinus] ∧ ∀ l ∈ body, Plain l
  | block k c cs => LineOk E (block k c cs) ∧ Line (block k c cs) ∧ NoMarker (block k c cs).head ∧
      cs ≠ [] ∧ (∀ d, cs = [d] → d.isEmpty = false) ∧ OkL E cs
  | item vt v c => LineOk E (item vt v c) ∧ Line (item vt v c) ∧ NoMarker (item vt v c).head ∧
      (∀ kvs, v ≠ .dict kvs) ∧ v ≠ .sentinel ∧ vt = yamlText v
  | elem first rest => LineOk E (elem first rest) ∧ Line (elem first rest) ∧ NoMarker (elem first rest).head ∧
      first.canLead = true ∧ Lead E first ∧ (∀ d ∈ rest, d.keyOf ≠ first.keyOf) ∧ OkL E rest
/-- All entries are well formed. -/
def OkL (E : Env) : List Doc → Prop
  | [] => True
  | d :: ds => d.Ok E ∧ OkL E ds
/-- The entry behind a `- ` is well formed. -/
def Lead (E : Env) : Doc → Prop
  | scalar _ vt v _ => v ≠ .none ∧ v ≠ .sentinel ∧ vt = yamlText v
  | block _ _ cs => cs ≠ [] ∧ (∀ d, cs = [d] → d.isEmpty = false) ∧ OkL E cs
  | _ => False
end

/-- The tree of a whole document. -/
def root (ds : List Doc) : Node := { value := .str §"/", children := nodes ds }

/-- The lines of a whole document: an empty line after every top-level entry that is not a comment. -/
def documentLines : List Doc → List Str
  | [] => []
  | d :: ds => d.lines 0 ++ (if d.isComment then [] else [[]]) ++ documentLines ds

/-- The text of a whole document. -/
def text (ds : List Doc) : Str := joinStr §"\n" (documentLines ds)

/-- The document is well formed: its entries are, and no top-level entry ends in a multi-line text (the empty line after it
would become part of the text). -/
def Document (E : Env) (ds : List Doc) : Prop := OkL E ds ∧ ∀ d ∈ ds, d.endsInText = false

/-- The text of a variable value in a definition. -/
def written : PyVal → Str
  | .str s => §"\"" ++ s ++ §"\""
  | v => pyStr v

/-- The line that defines a variable. -/
def defLine (k : Str) (v : PyVal) : Str := §"{% set " ++ k ++ §" = " ++ written v ++ §" %}"

/-- The variables can be written as definitions and read back. -/
structure Writable (E : Env) (vars : List (Str × PyVal)) : Prop where
  distinct : (vars.map (·.1)).Nodup
  name : ∀ kv ∈ vars, ∀ c ∈ kv.1, c.isAlphanum = true ∨ c = '_'
  oneLine : ∀ kv ∈ vars, '\n' ∉ written kv.2 ∧ inStr §"%}" (written kv.2) = false
  trimmed : ∀ kv ∈ vars, strip (written kv.2) = written kv.2
  reads : ∀ kv ∈ vars, E.literalEval (written kv.2) = some kv.2 ∨
    (E.literalEval (written kv.2) = none ∧ kv.2 = .str (written kv.2))

/-- The text of a whole recipe: definitions, an empty line, the document. -/
def recipeText (vars : List (Str × PyVal)) (ds : List Doc) : Str :=
  joinStr §"\n" (vars.map (fun kv => defLine kv.1 kv.2) ++ (if vars = [] then [] else [[]]) ++ documentLines ds)

end Doc

end Crm.Spec
