import Verif.Spec.Document

/-!
# Recipe files as people write them

`LaidL E 0 ds ls`: the lines `ls` are a way of writing the document `ds`.  Each level is indented by two spaces as in
`Spec/Document.lean`; what is free is the white space within and behind a line and in front of its comment, the way in which a
value is written (quotes, for example), the indentation of the lines of a multi-line text, and blank lines.
-/

namespace Crm.Spec.Doc

/-- Nothing but white space. -/
def Blank (l : Str) : Prop := ∀ c ∈ l, isSpace c = true

/-- `body` is `base` and behind it the comment `c`, if there is one. -/
def Commented (base body c : Str) : Prop :=
  (c = [] ∧ body = base) ∨ ∃ w t, c = '#' :: t ∧ w ≠ [] ∧ Blank w ∧ body = base ++ w ++ c

/-- A line of an entry, without its indentation: it reads as the entry and has its comment. -/
inductive FreeHead (E : Env) : Doc → Str → Prop
  | comment {t} : (∃ u, t = '#' :: u) → strip t = t → NoMarker t → (Doc.comment t).Reads E t → FreeHead E (.comment t) t
  | entry {d base body} : d.isComment = false → (∀ k m c b, d ≠ .multi k m c b) → Commented base body d.trail →
      base ≠ [] → strip base = base → NoTrail base → (∀ u, base ≠ '#' :: u) → strip body = body → NoMarker body →
      d.Reads E body → FreeHead E d body
  | marker {k m c texts name w body} : Commented (name ++ ':' :: w ++ m.text) body c → w ≠ [] → Blank w →
      strip (name ++ ':' :: w ++ m.text) = name ++ ':' :: w ++ m.text → NoTrail (name ++ ':' :: w ++ m.text) →
      (∀ u, name ++ ':' :: w ++ m.text ≠ '#' :: u) → strip body = body → NoMarker c →
      (Doc.multi k m c texts).Reads E body → FreeHead E (.multi k m c texts) body

/-- A line of an entry: indentation, text, white space. -/
def FreeLine (E : Env) (level : Nat) (d : Doc) (line : Str) : Prop :=
  ∃ body gap, line = ind level ++ body ++ gap ∧ Blank gap ∧ FreeHead E d body

/-- A line of a multi-line text below an entry of this level: empty, or indented further. -/
def FreeText (level : Nat) (text line : Str) : Prop :=
  strip line = text ∧ (line = [] ∨ ∃ n rest, 2 * level < n ∧ line = List.replicate n ' ' ++ rest)

/-- The lines of a multi-line text. -/
inductive FreeTexts (level : Nat) : List Str → List Str → Prop
  | nil : FreeTexts level [] []
  | cons {t line ts lines} : FreeText level t line → FreeTexts level ts lines → FreeTexts level (t :: ts) (line :: lines)

/-- The first line, if there is one, is not blank. -/
def NoBlankFirst (ls : List Str) : Prop := ∀ l, ls.head? = some l → ¬ Blank l

mutual
/-- The lines `ls` are the entry. -/
def Laid (E : Env) (level : Nat) : Doc → List Str → Prop
  | multi k m c body, ls => ∃ line texts, ls = line :: texts ∧ FreeLine E level (multi k m c body) line ∧ FreeTexts level body texts
  | block k c cs, ls => ∃ line below, ls = line :: below ∧ FreeLine E level (block k c cs) line ∧ LaidL E (level + 1) cs below
  | elem first rest, ls => ∃ line below more, ls = line :: (below ++ more) ∧ FreeLine E level (elem first rest) line ∧
      LaidUnder E (level + 1) first below ∧ (first.endsInText = true → NoBlankFirst more) ∧ LaidL E (level + 1) rest more
  | comment t, ls => ∃ line, ls = [line] ∧ FreeLine E level (comment t) line
  | empty k c, ls => ∃ line, ls = [line] ∧ FreeLine E level (empty k c) line
  | scalar k vt v c, ls => ∃ line, ls = [line] ∧ FreeLine E level (scalar k vt v c) line
  | item vt v c, ls => ∃ line, ls = [line] ∧ FreeLine E level (item vt v c) line
/-- The lines `ls` are what stands below the line of the entry. -/
def LaidUnder (E : Env) (level : Nat) : Doc → List Str → Prop
  | block _ _ cs, ls => LaidL E (level + 1) cs ls
  | _, ls => ls = []
/-- The lines `ls` are the entries, with blank lines between them.  A blank line directly below a multi-line text would be part of
the text. -/
def LaidL (E : Env) (level : Nat) : List Doc → List Str → Prop
  | [], ls => ∀ l ∈ ls, Blank l
  | d :: ds, ls => ∃ blanks own more, ls = blanks ++ (own ++ more) ∧ (∀ l ∈ blanks, Blank l) ∧ Laid E level d own ∧
      (d.endsInText = true → NoBlankFirst more) ∧ LaidL E level ds more
end

/-- The text of a file with these lines. -/
def fileText (ls : List Str) : Str := ls.flatMap fun l => l ++ §"\n"

/-- A line stays on its line and is no Jinja statement. -/
def OneLine (l : Str) : Prop := (∀ c ∈ l, isLineBreak c = false) ∧ inStr §"{%" l = false ∧ inStr §"{#" l = false

/-- The line defines the variable `k`; the text of the value is `t`. -/
structure FreeDef (k t line : Str) : Prop where
  parts : ∃ w1 w2 w3 w4 w5, Blank w1 ∧ Blank w2 ∧ Blank w3 ∧ Blank w4 ∧ Blank w5 ∧
    line = §"{%" ++ w1 ++ §"set" ++ w2 ++ k ++ w3 ++ §"=" ++ w4 ++ t ++ w5 ++ §"%}"
  name : ∀ c ∈ k, c.isAlphanum = true ∨ c = '_'
  trimmed : strip t = t
  close : inStr §"%}" t = false
  oneLine : '\n' ∉ line

/-- The line is a remark to Jinja. -/
def Remark (line : Str) : Prop := ∃ t, line = §"{#" ++ t ++ §"#}" ∧ '\n' ∉ line ∧ inStr §"{%" line = false

/-- The lines `fs` are the lines `ls` with lines between them that define the variables `defs` and with remarks to Jinja. -/
inductive FileLines : List Str → List (Str × Str) → List Str → Prop
  | nil : FileLines [] [] []
  | defn {k t line fs defs ls} : FreeDef k t line → FileLines fs defs ls → FileLines (line :: fs) ((k, t) :: defs) ls
  | remark {line fs defs ls} : Remark line → FileLines fs defs ls → FileLines (line :: fs) defs ls
  | line {line fs defs ls} : OneLine line → FileLines fs defs ls → FileLines (line :: fs) defs (line :: ls)

/-- The value that a text stands for: a literal, or the text itself. -/
def defValue (E : Env) (t : Str) : PyVal :=
  match E.literalEval t with
  | some v => v
  | none => .str t

/-- The lines `fs` are a way of writing the variables and the document.  The document does not end in a multi-line text. -/
structure FreeFile (E : Env) (vars : List (Str × PyVal)) (ds : List Doc) (fs : List Str) : Prop where
  lines : ∃ defs ls, FileLines fs defs ls ∧ LaidL E 0 ds ls ∧ vars = defs.map fun kt => (kt.1, defValue E kt.2)
  distinct : (vars.map (·.1)).Nodup
  closed : endsInTextL false ds = false

end Crm.Spec.Doc
