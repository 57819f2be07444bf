import Verif.Props.ConvJinja

/-!
# Converting a recipe: a substitution in a value that is not a text (C83), a file without entries (C90),
tests (C84)
-/

namespace Crm
open Spec Act

/-- C83: a value that holds a substitution but is not read as a text is reported with that value, and the recipe stays as it is. -/
theorem C83_not_a_text (E : Env) (path : Str) (c : Conv) (v : PyVal) (hv : c.v1.getValue E path none = .ok v)
    (hn : ∀ s, v ≠ .str s) :
    upgradeSubstitution E path c = (.ok (), { c with
      msgs := c.msgs.add .warning (§"A non-string value was found as a JINJA substitution: " ++ pyStr v) }) := by
  show Act.bind (valueAt E path) _ c = _
  unfold Act.bind valueAt ask
  simp only [hv]
  cases v <;> first | rfl | exact absurd rfl (hn _)

/-- A recipe with a list written on one line that holds a substitution. -/
def oddList : Recipe :=
  ⟨[], { value := .str §"/", children := [{ value := .str §"a", key := true, children := [{ value := .list [.str §"x", .str §"{{ b }}"] }] }] },
    .v0, [], [], false⟩

example : oddList.search Regex.jinjaV0Sub.test = [§"/a"] ∧
    oddList.getValue Toy.env §"/a" none = .ok (.list [.str §"x", .str §"{{ b }}"]) := by decide +kernel

/-- C90: a file that holds definitions only is converted to an empty text: the definitions and the format version cannot be put into a
recipe without entries.  (The conversion reports that.) -/
theorem C90_no_entries_violation :
    (converted Toy.env exWorld §"{% set name = \"x\" %}\n").map (fun x => (x.1, x.2.map (·.2))) =
      .ok ([], [[§"Failed to patch: {'op': 'add', 'path': '/context', 'value': {'name': 'x'}}",
        §"Failed to patch: {'op': 'add', 'path': '/schema_version', 'value': 1}"]]) := by
  decide +kernel

/-! ## Where C84 fails -/

/-- The text of the converted recipe, and the number of messages. -/
def convertedText (text : Str) : Option (Str × Nat) :=
  match converted Toy.env exWorld text with
  | .ok x => some (x.1, (x.2.map (·.2.length)).sum)
  | .error _ => none

/-- C84: a test with `script` and `commands` loses its script, without a message. -/
theorem C84_script_lost_violation :
    convertedText §"package:\n  name: a\ntest:\n  script:\n    - a\n    - c\n  commands:\n    - b\n    - d\n" =
      some (§"schema_version: 1\n\npackage:\n  name: a\n\ntests:\n  - script:\n      - b\n      - d\n", 0) := by decide +kernel

/-- C84: where `pip check` is the only command, all requirements of the test are dropped without a message, although there are imports
left to test. -/
theorem C84_requirements_lost_violation :
    convertedText (§"package:\n  name: a\nrequirements:\n  host:\n    - python\n    - pip\ntest:\n  imports:\n    - a\n" ++
        §"  requires:\n    - pip\n    - x\n  commands:\n    - pip check\n") =
      some (§"schema_version: 1\n\npackage:\n  name: a\n\nrequirements:\n  host:\n    - python\n    - pip\n\ntests:\n" ++
        §"  - python:\n      imports:\n        - a\n      pip_check: true\n", 0) := by decide +kernel

/-- C84: a package that needs a certain version of python gets no flag. -/
theorem C84_python_version_violation :
    convertedText (§"package:\n  name: a\nrequirements:\n  host:\n    - python >=3\n    - pip\ntest:\n  commands:\n    - pip check\n    - c\n") =
      some (§"schema_version: 1\n\npackage:\n  name: a\n\nrequirements:\n  host:\n    - python >=3\n    - pip\n\ntests:\n" ++
        §"  - script:\n      - pip check\n      - c\n", 0) := by decide +kernel

/-- C84: a single command that is not written as a list is not recognised: the flag says no, and the command stays. -/
theorem C84_single_command_violation :
    convertedText §"package:\n  name: a\nrequirements:\n  host:\n    - python\n    - pip\ntest:\n  commands: pip check\n" =
      some (§"schema_version: 1\n\npackage:\n  name: a\n\nrequirements:\n  host:\n    - python\n    - pip\n\ntests:\n" ++
        §"  - python:\n      pip_check: false\n  - script: pip check\n", 0) := by decide +kernel

/-- C84: a test section without entries becomes a test called `test`. -/
theorem C84_empty_test_violation :
    convertedText §"package:\n  name: a\ntest:\n" =
      some (§"schema_version: 1\n\npackage:\n  name: a\n\ntests:\n  - test\n", 0) := by decide +kernel

/-- C84: a test section that is a list ends the conversion if one of its entries is `python`. -/
theorem C84_list_of_tests_violation : convertedText §"package:\n  name: a\ntest:\n  - python\n  - b\n" = none := by decide +kernel

end Crm
