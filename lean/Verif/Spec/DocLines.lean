import Verif.Spec.DocEdit

/-!
# The lines of a file that an edit touches

Entries `old` of a section make way for entries `new`; either may be empty.
-/

namespace Crm.Spec.Doc

/-- The entries `old` make way for the entries `new`.  If `inner` is set they are not the first ones. -/
def Swap (inner : Bool) (old new : List Doc) (cs cs' : List Doc) : Prop :=
  ∃ pre post, cs = pre ++ old ++ post ∧ cs' = pre ++ new ++ post ∧ (inner = true → pre ≠ [])

/-- The lines of `old`, indented by some level, make way for the lines of `new` with the same indentation; all other lines stay. -/
def BlockDiffers (old new : List Doc) (xs ys : List Str) : Prop :=
  ∃ before level after, xs = before ++ linesL level old ++ after ∧ ys = before ++ linesL level new ++ after

/-- The same at the top of a document, where an empty line follows each entry that is not a comment. -/
def TopBlockDiffers (old new : List Doc) (xs ys : List Str) : Prop :=
  ∃ before after, xs = before ++ documentLines old ++ after ∧ ys = before ++ documentLines new ++ after

end Crm.Spec.Doc
