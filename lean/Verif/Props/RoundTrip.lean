import Verif.Lemmas.DocVars
import Verif.Lemmas.DocRender
import Verif.Examples.DocCheck

/-!
# C31: writing a recipe and reading it back

`Spec/Document.lean` says what a document is, how it is laid out as text and which tree it stands for, without using the
parser or the renderer.
-/

namespace Crm
open Spec Doc

/-- The tree of a document is written as the text of the document. -/
theorem C31_tree_is_written (E : Env) (ds : List Doc) (h : OkL E ds) : joinStr §"\n" (renderTree (-1) none (root ds)) = text ds := by
  rw [render_document E ds h]; rfl

/-- The text of a document is read as the tree of the document. -/
theorem C31_text_is_read (E : Env) (ds : List Doc) (h : Document E ds) : parseTree E (text ds) = .ok (root ds) := by
  apply parseTree_document E ds h _ [] (by simp)
  have := sub_defs [] (by simp) (text ds) (text_noStatement h.1)
  exact this

/-- With definitions of variables in front of it. -/
theorem C31_recipe_text_is_read (E : Env) (vars : List (Str × PyVal)) (ds : List Doc) (hv : Writable E vars) (h : Document E ds) :
    parseTree E (recipeText vars ds) = .ok (root ds) ∧ initVarsV0 E (recipeText vars ds) = vars := by
  have hno : ∀ pre : List Str, (∀ l ∈ pre, l = []) → inStr §"{%" (joinStr §"\n" (pre ++ documentLines ds)) = false ∧
      inStr §"{#" (joinStr §"\n" (pre ++ documentLines ds)) = false := by
    intro pre hpre
    constructor
    · apply inStr_join (by decide)
      intro l hl
      rcases List.mem_append.1 hl with hl | hl
      · rw [hpre l hl]; rfl
      · exact (textLine_document h.1 l hl).2.1
    · apply inStr_join (by decide)
      intro l hl
      rcases List.mem_append.1 hl with hl | hl
      · rw [hpre l hl]; rfl
      · exact (textLine_document h.1 l hl).2.2
  have hpre : ∀ l ∈ (if vars = [] then [] else [[]] : List Str), l = [] := by
    intro l hl
    split at hl
    · cases hl
    · simpa using hl
  rw [recipeText_defs]
  refine ⟨?_, initVars_defs E vars hv _ (hno _ hpre).1⟩
  apply parseTree_document E ds h _ _ hpre
  exact sub_defs vars hv.defOk _ (hno _ hpre)

/-- What a recipe with the tree of a document is written as. -/
theorem C31_render (E : Env) (r : Recipe) (ds : List Doc) (hr : r.root = root ds) (h : OkL E ds) :
    r.render = recipeText (if r.schema = .v0 then r.vars else []) ds := by
  unfold Recipe.render recipeText
  rw [hr, render_document E ds h]
  cases hs : r.schema with
  | v0 => simp only [if_true, renderVars_defs]
  | v1 => rfl

/-- A recipe in memory, however it came about, is read back from what `render` writes: same tree, same variables. -/
theorem C31_written_recipe_is_read_back_partial (E : Env) (r : Recipe) (ds : List Doc) (hr : r.root = root ds) (h : Document E ds)
    (hv : r.schema = .v0 → Writable E r.vars) :
    parseTree E r.render = .ok r.root ∧ (r.schema = .v0 → initVarsV0 E r.render = r.vars) := by
  rw [C31_render E r ds hr h.1]
  have hw : Writable E (if r.schema = .v0 then r.vars else []) := by
    split
    · rename_i hs; exact hv hs
    · exact ⟨by simp, by simp, by simp, by simp, by simp⟩
  obtain ⟨h1, h2⟩ := C31_recipe_text_is_read E _ ds hw h
  refine ⟨by rw [h1, hr], ?_⟩
  intro hs
  rw [if_pos hs] at h2 ⊢
  exact h2

/-- Reading what `render` writes gives the recipe: tree, comments, format version, variables, selectors, and no pending change. -/
theorem C31_round_trip_partial (E : Env) (content : Str) (r : Recipe) (ds : List Doc) (hr : Recipe.ofString E content = .ok r)
    (hd : r.root = root ds) (h : Document E ds) (hv : r.schema = .v0 → Writable E r.vars) :
    Recipe.ofString E r.render = .ok { r with init := r.render } := by
  obtain ⟨h1, h2⟩ := C31_written_recipe_is_read_back_partial E r ds hd h hv
  unfold Recipe.ofString at hr ⊢
  rw [h1]
  simp only [bind, Except.bind] at hr ⊢
  cases hp : parseTree E content with
  | error e => rw [hp] at hr; cases hr
  | ok rt =>
    rw [hp] at hr
    simp only at hr
    cases hs : getValueIn E rt §"/schema_version" (some (.int 0)) with
    | error e => rw [hs] at hr; cases hr
    | ok sv =>
      rw [hs] at hr
      simp only at hr
      have hroot : r.root = rt := by
        revert hr
        repeat' split
        all_goals (intro hr; first | (cases hr; done) | (injection hr with hr; rw [← hr]))
      rw [hroot, hs]
      simp only
      cases hsv : schemaOf sv with
      | v0 =>
        rw [hsv] at hr
        simp only at hr ⊢
        injection hr with hr
        have hsch : r.schema = .v0 := by rw [← hr]
        rw [h2 hsch, ← hr]
      | v1 =>
        rw [hsv] at hr
        simp only at hr ⊢
        cases hc : getValueIn E rt §"/context" (some (.dict [])) with
        | error e => rw [hc] at hr; cases hr
        | ok v =>
          rw [hc] at hr
          simp only at hr ⊢
          injection hr with hr
          rw [← hr]

/-- Rendering, reading and rendering again changes nothing. -/
theorem C31_render_is_stable_partial (E : Env) (content : Str) (r : Recipe) (ds : List Doc) (hr : Recipe.ofString E content = .ok r)
    (hd : r.root = root ds) (h : Document E ds) (hv : r.schema = .v0 → Writable E r.vars) :
    ∃ r', Recipe.ofString E r.render = .ok r' ∧ r'.render = r.render ∧ r'.root = r.root ∧ r'.vars = r.vars ∧ r'.selTbl = r.selTbl :=
  ⟨_, C31_round_trip_partial E content r ds hr hd h hv, rfl, rfl, rfl, rfl⟩

/-- A text in the layout of `Spec/Document.lean` is written back character by character. -/
theorem C31_text_is_kept_partial (E : Env) (vars : List (Str × PyVal)) (ds : List Doc) (r : Recipe) (hv : Writable E vars)
    (h : Document E ds) (hr : Recipe.ofString E (recipeText vars ds) = .ok r) (hs : r.schema = .v1 → vars = []) :
    r.render = recipeText vars ds ∧ r.root = root ds ∧ (r.schema = .v0 → r.vars = vars) := by
  obtain ⟨h1, h2⟩ := C31_recipe_text_is_read E vars ds hv h
  unfold Recipe.ofString at hr
  rw [h1, h2] at hr
  simp only [bind, Except.bind] at hr
  have hroot : r.root = root ds ∧ (r.schema = .v0 → r.vars = vars) := by
    cases hsv : getValueIn E (root ds) §"/schema_version" (some (.int 0)) with
    | error e => rw [hsv] at hr; cases hr
    | ok sv =>
      rw [hsv] at hr
      simp only at hr
      cases hc : schemaOf sv with
      | v0 =>
        rw [hc] at hr
        injection hr with hr
        rw [← hr]
        exact ⟨rfl, fun _ => rfl⟩
      | v1 =>
        rw [hc] at hr
        simp only at hr
        cases hx : getValueIn E (root ds) §"/context" (some (.dict [])) with
        | error e => rw [hx] at hr; cases hr
        | ok v =>
          rw [hx] at hr
          injection hr with hr
          rw [← hr]
          refine ⟨rfl, ?_⟩
          intro hne; cases hne
  refine ⟨?_, hroot⟩
  rw [C31_render E r ds hroot.1 h.1]
  cases hc : r.schema with
  | v0 => rw [if_pos rfl, hroot.2 hc]
  | v1 => rw [if_neg (by decide), hs hc]

/-! ## A document with every kind of entry -/

theorem sample_document : Document Toy.env sampleDoc := documentB_sound (by decide +kernel)

theorem sample_writable : Writable Toy.env sampleVars :=
  ⟨by decide +kernel, by decide +kernel, by decide +kernel, by decide +kernel, by decide +kernel⟩

example : recipeText sampleVars sampleDoc = §"{% set name = \"foo\" %}
{% set n = 3 %}
{% set b = True %}

# A recipe
package:
  name: {{ name }}
  version: 1.2  # [win]

source:
  - url: a.tgz  # [unix]
    # why
    sha256: abc
    patches:
      - p1  # [osx]
      # last
      - 2
  - git:  # c
      - x

build:  # [linux]
  number: 0
  script: |  # [win]
    make
    make install
  ignore:  # none
  skip:
    - a: true
      t: >-
        line
      b: 2

about:

extra: {}

- loose

# end" := by decide +kernel

example : ∃ r, Recipe.ofString Toy.env (recipeText sampleVars sampleDoc) = .ok r ∧ r.schema = .v0 := by
  have h := C31_recipe_text_is_read Toy.env sampleVars sampleDoc sample_writable sample_document
  unfold Recipe.ofString
  rw [h.1, h.2]
  have h3 : getValueIn Toy.env (root sampleDoc) §"/schema_version" (some (.int 0)) = .ok (.int 0) := by decide +kernel
  simp only [bind, Except.bind, h3]
  exact ⟨_, rfl, rfl⟩

/-! ## Where the full statement fails

The full statement of C31 has no condition on the document.  These recipes are read without an error, but writing them and
reading the result back gives another tree or fails. -/

/-- A key whose only entry is an empty key: `a:\n  b:` is written as `a: b`. -/
theorem C31_nested_empty_key_is_lost : (Toy.recipe "a:\n  b:\n").render = §"a: b\n" := by decide +kernel

/-- A multi-line text at the end of a section grows by an empty line on every round trip. -/
theorem C31_trailing_text_grows :
    (Toy.recipe "a:\n  b: |\n    x\n\nc: 1\n").render = §"a:\n  b: |\n    x\n\n\nc: 1\n" ∧
    (Toy.recipe "a:\n  b: |\n    x\n\n\nc: 1\n").render = §"a:\n  b: |\n    x\n\n\n\nc: 1\n" := by decide +kernel

/-- A recipe that ends with a multi-line text cannot be read at all, although `render` can write one. -/
theorem C31_text_at_the_end_cannot_be_read :
    (match Recipe.ofString Toy.env §"a:\n  b: |\n    x\n" with | .error e => e == .indexError | .ok _ => false) = true := by
  decide +kernel

/-- Quotes around a number, and an empty text, do not survive: the second reading gives a number, and no value. -/
theorem C31_quotes_are_lost :
    (Toy.recipe "a: \"1\"\nb: 2").render = §"a: 1\n\nb: 2\n" ∧ (Toy.recipe "a: \"\"\nb: 2").render = §"a:\n\nb: 2\n" := by
  decide +kernel

/-- An entry equal to the first one of its list element starts another list element. -/
theorem C31_repeated_entry_splits : (Toy.recipe "l:\n  - a: 1\n    a: 1\n").render = §"l:\n  - a: 1\n  - a: 1\n" := by decide +kernel

/-- An entry below an empty first key of a list element moves into that key. -/
theorem C31_empty_first_key_captures : (Toy.recipe "l:\n  - a:\n    b: 2\n").render = §"l:\n  - a:\n      b: 2\n" := by
  decide +kernel

/-- With four spaces per level an entry ends up at another level. -/
theorem C31_wide_indentation_moves :
    (Toy.recipe "a:\n    b:\n        c: 1\n        d: 1\n    e: 1\n").render = §"a:\n  b:\n    c: 1\n    d: 1\n\ne: 1\n" := by
  decide +kernel

/-- A version constraint after a colon is taken for a multi-line text and lost. -/
theorem C31_constraint_is_lost : (Toy.recipe "foo: >=3\nb: 2\n").render = §"foo: >\n\nb: 2\n" := by decide +kernel

end Crm
