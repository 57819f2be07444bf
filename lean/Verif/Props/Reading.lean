import Verif.Props.TemplateSection
import Verif.Props.Expressions

/-!
# How a text is read as YAML (C58)

`parseYaml` is the function all values of a recipe go through, so descriptions of files (`Spec/Document.lean`,
`Spec/FileValue.lean`) say what it answers for a line.  Here is what that means for the loader.
-/

namespace Crm
open Spec

/-- C58: what the loader reads in a text, as it is or with placeholders that are then replaced by the expressions, is what the
text is read as. -/
theorem C58_read (E : Env) (s : Str) (v : PyVal) (h : ReadsText E s v) : parseYaml E s = .ok v := reads_parse h

/-- C58: a text that the loader stumbles over, because it begins with a reserved character, is read as if it were in quotes. -/
theorem C58_read_in_quotes (E : Env) (s : Str) (v : PyVal) (he : E.load s = .error .yamlScanner) (hn : ¬ HasExpression s)
    (hr : Reserved s) (h : E.load (jsonDumpsStr s) = .ok v) : parseYaml E s = .ok v := by
  unfold parseYaml
  simp only [he, bind, Except.bind, (C63_quoted s).1 ⟨hn, hr⟩, h, subJinja]

example : Toy.env.load §"*foo" = .error .yamlScanner ∧ ¬ HasExpression §"*foo" ∧ Reserved §"*foo" ∧
    Toy.env.load (jsonDumpsStr §"*foo") = .ok (.str §"*foo") := by
  refine ⟨by decide +kernel, fun h => ?_, (reserved_iff _).1 (by decide), by decide +kernel⟩
  exact absurd ((C63_expressions _).2 h) (by decide)

/-- C58: with variables, it is what the text is read as, with the variables in its texts replaced. -/
theorem C58_read_filled (E : Env) (c : JinjaCtx) (s : Str) (v w : PyVal) (h : ReadsText E s v)
    (hf : Filled E c.schema c.vars E.recLimit v w) : parseYaml E s (some c) = .ok w := reads_filled c h hf

/-- C58: a text without expressions and reserved characters that the loader refuses cannot be read. -/
theorem C58_unread (E : Env) (s : Str) (e : PyErr) (he : E.load s = .error e) (hn : ¬ HasPart V0Substitution s)
    (hr : ¬ (¬ HasExpression s ∧ Reserved s)) : ∃ e', parseYaml E s = .error e' := by
  have hf := (findall_substitution s).2 hn
  have hq := (C63_quoted s).2.1 hr
  have hs : Regex.jinjaV0Sub.sub (fun _ => subMarker) s = s := by
    obtain ⟨p, rest, h1, h2, h3⟩ := Rx.sub_findall_weave Regex.jinjaV0Sub (by decide) subMarker [] s
    unfold Rx.findall at hf
    rw [hf] at h2
    have : rest = [] := by simpa using h2.symm
    subst this
    unfold Rx.sub
    rw [h3]
    simpa using h1.symm
  unfold parseYaml
  cases e <;> simp [he, bind, Except.bind, hq, hs]

example : Toy.env.load §"{foo" = .error .yamlError ∧ ¬ HasPart V0Substitution §"{foo" ∧ ¬ Reserved §"{foo" :=
  ⟨by decide +kernel, fun h => absurd ((substitution_iff _).2 h) (by decide), fun h => absurd ((reserved_iff _).2 h) (by decide)⟩

end Crm
