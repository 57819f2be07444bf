import Verif.Spec.Document

/-!
# The data a recipe holds

`Doc.data` says which value an entry of a document stands for: what `yaml.load` makes of the text.  `ev` is what becomes of a
text (it stays as it is, or its variables are replaced), `ld` reads the text of a block of lines.
-/

namespace Crm.Spec.Doc

/-- A single value: texts are evaluated, everything else is kept. -/
def shown (ev : Str → Except PyErr PyVal) : PyVal → Except PyErr PyVal
  | .str s => ev s
  | v => .ok v

/-- The text of a block of lines: its marker, then the lines. -/
def blockText (m : Multiline) (body : List Str) : Str := joinStr §"\n" (m.text :: body.map fun l => §"  " ++ l)

def isItem : Doc → Bool
  | item _ _ _ => true
  | _ => false

def isElem : Doc → Bool
  | elem _ _ => true
  | _ => false

/-- The keys of a list of entries. -/
def keys (ds : List Doc) : List Str := ds.filterMap keyOf

mutual
/-- The value of an entry. -/
def data (ev ld : Str → Except PyErr PyVal) : Doc → Except PyErr PyVal
  | comment _ => .ok .none
  | empty _ _ => .ok .none
  | scalar _ _ v _ => shown ev v
  | multi _ m _ body => ld (blockText m body)
  | block _ _ cs =>
    if cs.all isComment then .ok .none
    else if cs.any fun d => d.isItem || d.isElem then (elements ev ld cs).map .list
    else (entries ev ld cs).map .dict
  | item _ v _ => shown ev v
  | elem first rest => do
    let v ← data ev ld first
    let kvs ← entries ev ld rest
    .ok (.dict ((first.keyOf.getD [], v) :: kvs))
/-- The keys and values of a mapping. -/
def entries (ev ld : Str → Except PyErr PyVal) : List Doc → Except PyErr (List (Str × PyVal))
  | [] => .ok []
  | d :: ds => match d.keyOf with
    | none => entries ev ld ds
    | some k => do
      let v ← data ev ld d
      let kvs ← entries ev ld ds
      .ok ((k, v) :: kvs)
/-- The elements of a list. -/
def elements (ev ld : Str → Except PyErr PyVal) : List Doc → Except PyErr (List PyVal)
  | [] => .ok []
  | d :: ds =>
    if d.isComment then elements ev ld ds
    else do
      let v ← data ev ld d
      let vs ← elements ev ld ds
      .ok (v :: vs)
end

/-- A value that YAML has. -/
def isValue : PyVal → Bool
  | .sentinel => false
  | _ => true

/-- A list of single values, with at least one. -/
def valueList (cs : List Doc) : Bool :=
  cs.any isItem && cs.all fun d => match d with
    | item _ v _ => isValue v
    | comment t => !t.isEmpty
    | _ => false

/-- The first entry that is not a comment is a key with something in it. -/
def leads : List Doc → Bool
  | [] => false
  | d :: ds => if d.isComment then leads ds else !d.isEmpty

mutual
/-- Below another key: a value, lines of text, a list of single values, or a mapping with different keys of which the first has
a value. -/
def Below : Doc → Bool
  | comment t => !t.isEmpty
  | empty _ _ => true
  | scalar _ _ v _ => isValue v
  | multi _ m _ body => decide (m ≠ .no) && !body.isEmpty
  | block _ _ cs => valueList cs || (leads cs && decide (keys cs).Nodup && BelowL cs)
  | item _ _ _ => false
  | elem _ _ => false
def BelowL : List Doc → Bool
  | [] => true
  | d :: ds => d.Below && BelowL ds
end

/-- A list element: a mapping with different keys, all of which have values. -/
def Element : Doc → Bool
  | elem first rest => !first.isComment && (first :: rest).all (fun d => d.Below && !d.isEmpty) && decide (keys (first :: rest)).Nodup
  | comment t => !t.isEmpty
  | _ => false

/-- At the top level: a value, lines of text, a mapping with different keys, or a list of mappings. -/
def Top : Doc → Bool
  | comment t => !t.isEmpty
  | scalar _ _ v _ => isValue v
  | multi _ m _ body => decide (m ≠ .no) && !body.isEmpty
  | block _ _ cs => !cs.all isComment && ((BelowL cs && decide (keys cs).Nodup) || cs.all Element)
  | _ => false

mutual
/-- All keys of an entry. -/
def allKeys : Doc → List Str
  | empty k _ => [k]
  | scalar k _ _ _ => [k]
  | multi k _ _ _ => [k]
  | block k _ cs => k :: allKeysL cs
  | elem first rest => allKeys first ++ allKeysL rest
  | _ => []
def allKeysL : List Doc → List Str
  | [] => []
  | d :: ds => allKeys d ++ allKeysL ds
end

end Crm.Spec.Doc
