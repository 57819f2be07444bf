import Verif.Props.Jinja

/-! # Where reading with variables goes wrong (C73) -/

namespace Crm
open Spec

/-- A V0 recipe with sums of three operands and a variable whose value has braces. -/
def sumRecipe : Recipe := Toy.recipe
  "{% set a = \"x\" %}\n{% set b = \"y\" %}\n{% set c = \"z\" %}\n{% set d = \"{{ a }}\" %}\nsum: {{ a + b + c }}\nrest: {{ 1 + 2 - 1 }}\nbraces: {{ d }}-{{ a }}\nalone: {{ d }}\n"

/-- Only the first two operands of a sum count; what follows is dropped without a trace. -/
theorem C73_third_operand_violation :
    sumRecipe.vars.take 3 = [(§"a", .str §"x"), (§"b", .str §"y"), (§"c", .str §"z")] ∧
    textAt sumRecipe.root [§"sum"] = some §"{{ a + b + c }}" ∧ textAt sumRecipe.root [§"rest"] = some §"{{ 1 + 2 - 1 }}" ∧
    sumRecipe.getValue Toy.env §"/sum" none true = .ok (.str §"xy") ∧
    sumRecipe.getValue Toy.env §"/rest" none true = .ok (.int 3) := by decide +kernel

/-- A variable whose value has braces: they are evaluated again if the same expression stands later in the line, otherwise
YAML gets the braces (and refuses them). -/
theorem C73_braces_violation :
    lookupD §"d" sumRecipe.vars = some (.str §"{{ a }}") ∧
    textAt sumRecipe.root [§"braces"] = some §"{{ d }}-{{ a }}" ∧
    sumRecipe.getValue Toy.env §"/braces" none true = .ok (.str §"x-x") ∧
    textAt sumRecipe.root [§"alone"] = some §"{{ d }}" ∧
    sumRecipe.getValue Toy.env §"/alone" none true = .error .yamlError := by decide +kernel

def filterRecipe : Recipe := Toy.recipe
  "{% set a = \"Ab\" %}\n{% set b = \"y\" %}\ncall: {{ pin('q', a + b) }}\nboth: {{ a | upper | lower }}\n"

/-- A sum within a call takes the place of the whole call; of two filters `upper` comes last, wherever it stands. -/
theorem C73_sum_in_a_call_violation :
    filterRecipe.vars = [(§"a", .str §"Ab"), (§"b", .str §"y")] ∧
    textAt filterRecipe.root [§"call"] = some §"{{ pin('q', a + b) }}" ∧
    filterRecipe.getValue Toy.env §"/call" none true = .ok (.str §"Aby") ∧
    textAt filterRecipe.root [§"both"] = some §"{{ a | upper | lower }}" ∧
    filterRecipe.getValue Toy.env §"/both" none true = .ok (.str §"AB") := by decide +kernel

end Crm
