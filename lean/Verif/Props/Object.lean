import Verif.Lemmas.Object
import Verif.Props.RoundTrip

/-! # A recipe as a data object (C93) -/

namespace Crm
open Spec Spec.Doc

/-- The data of a recipe: every key with its value, in the order of the text; texts are left as they are. -/
theorem C93_object_partial (E : Env) (r : Recipe) (ds : List Doc) (hr : r.root = root ds) (ht : ds.all Top = true)
    (hn : (keys ds).Nodup) :
    r.renderToObject E = (entries (fun s => .ok (.str s)) E.load ds).map .dict := by
  have := object_top E none ds [] ht (by simpa using hn) (fun key _ => ⟨_, rfl⟩)
  unfold Recipe.renderToObject
  rw [hr]
  exact this

/-- With variables replaced: every text is replaced by its value (C73 says what that is), at the places where it stands. -/
theorem C93_replaced_partial (E : Env) (r : Recipe) (ds : List Doc) (hr : r.root = root ds) (ht : ds.all Top = true)
    (hn : (keys ds).Nodup) (hk : ∀ key ∈ allKeysL ds, ∃ w, renderJinjaVars E ⟨r.schema, r.vars⟩ key = .ok w) :
    r.renderToObject E true =
      (entries (renderJinjaVars E ⟨r.schema, r.vars⟩) (renderJinjaVars E ⟨r.schema, r.vars⟩) ds).map .dict := by
  have := object_top E (some ⟨r.schema, r.vars⟩) ds [] ht (by simpa using hn) hk
  unfold Recipe.renderToObject
  rw [hr]
  exact this

/-- From the text of a recipe to its data. -/
theorem C93_text_partial (E : Env) (vars : List (Str × PyVal)) (ds : List Doc) (r : Recipe) (hv : Writable E vars)
    (h : Document E ds) (hr : Recipe.ofString E (recipeText vars ds) = .ok r) (hs : r.schema = .v1 → vars = [])
    (ht : ds.all Top = true) (hn : (keys ds).Nodup) :
    r.renderToObject E = (entries (fun s => .ok (.str s)) E.load ds).map .dict :=
  C93_object_partial E r ds (C31_text_is_kept_partial E vars ds r hv h hr hs).2.1 ht hn

/-! ## A recipe -/

def objectDoc : List Doc :=
  [ comment §"# A recipe",
    block §"package" [] [scalar §"name" §"{{ name }}" (.str §"{{ name }}") [], scalar §"version" §"1.2" (.flt §"1.2") §"# [win]"],
    block §"source" [] [
      elem (scalar §"url" §"a.tgz" (.str §"a.tgz") §"# [unix]") [comment §"# why", scalar §"sha256" §"abc" (.str §"abc") [],
        block §"patches" [] [item §"p1" (.str §"p1") §"# [osx]", comment §"# last", item §"2" (.int 2) []]],
      elem (block §"git" §"# c" [item §"x" (.str §"x") []]) []],
    block §"build" §"# [linux]" [empty §"ignore" §"# none",
      multi §"script" .pipe §"# [win]" [§"make", §"make install"],
      block §"deep" [] [comment §"# c", scalar §"number" §"0" (.int 0) [], empty §"none" []]],
    scalar §"extra" §"{}" (.dict []) [],
    comment §"# end" ]

theorem objectDoc_document : Document Toy.env objectDoc := documentB_sound (by decide +kernel)

example : objectDoc.all Top = true ∧ (keys objectDoc).Nodup := by decide

example : Recipe.renderToObject Toy.env ⟨[], root objectDoc, .v0, sampleVars, [], false⟩ = .ok (.dict [
    (§"package", .dict [(§"name", .str §"{{ name }}"), (§"version", .flt §"1.2")]),
    (§"source", .list [.dict [(§"url", .str §"a.tgz"), (§"sha256", .str §"abc"), (§"patches", .list [.str §"p1", .int 2])],
      .dict [(§"git", .list [.str §"x"])]]),
    (§"build", .dict [(§"ignore", .none), (§"script", .str §"make\nmake install"),
      (§"deep", .dict [(§"number", .int 0), (§"none", .none)])]),
    (§"extra", .dict [])]) := by
  rw [C93_object_partial Toy.env _ objectDoc rfl (by decide) (by decide)]
  decide +kernel

example : (∀ key ∈ allKeysL objectDoc, ∃ w, renderJinjaVars Toy.env ⟨.v0, sampleVars⟩ key = .ok w) := by
  have : ∀ key ∈ allKeysL objectDoc, (renderJinjaVars Toy.env ⟨.v0, sampleVars⟩ key).toOption.isSome = true := by decide +kernel
  intro key hk
  cases h : renderJinjaVars Toy.env ⟨.v0, sampleVars⟩ key with
  | error e => have := this key hk; rw [h] at this; cases this
  | ok w => exact ⟨w, rfl⟩

example : Recipe.renderToObject Toy.env ⟨[], root (objectDoc.take 2), .v0, sampleVars, [], false⟩ true = .ok (.dict [
    (§"package", .dict [(§"name", .str §"foo"), (§"version", .flt §"1.2")])]) := by decide +kernel

/-! ## Where the full statement fails -/

/-- A list of values at the top level: an error. -/
theorem C93_top_list_violation : (Toy.recipe "channels:\n  - x\n").renderToObject Toy.env = .error .attributeError := by decide +kernel

/-- A list of mappings further down: an error. -/
theorem C93_inner_mappings_violation :
    (Toy.recipe "tests:\n  files:\n    - name: x\n").renderToObject Toy.env = .error .keyError := by decide +kernel

/-- A key without value at the top level gives an empty mapping instead of `None`. -/
theorem C93_top_empty_violation : (Toy.recipe "about:\n").renderToObject Toy.env = .ok (.dict [(§"about", .dict [])]) := by
  decide +kernel

/-- A key without value that is the first one of an inner mapping: an error. -/
theorem C93_inner_empty_violation :
    (Toy.recipe "a:\n  b:\n    c:\n    d: 1\n").renderToObject Toy.env = .error .keyError ∧
    (Toy.recipe "a:\n  b:\n    d: 1\n    c:\n").renderToObject Toy.env =
      .ok (.dict [(§"a", .dict [(§"b", .dict [(§"d", .int 1), (§"c", .none)])])]) := by decide +kernel

/-- A key without value in a list element is lost. -/
theorem C93_element_empty_violation :
    (Toy.recipe "a:\n  - b: 1\n    c:\n").renderToObject Toy.env = .ok (.dict [(§"a", .list [.dict [(§"b", .int 1)]])]) := by
  decide +kernel

/-- A key that has only a comment below it is lost. -/
theorem C93_only_comment_violation :
    (Toy.recipe "a:\n  b:\n    # c\n  d: 1\n").renderToObject Toy.env = .ok (.dict [(§"a", .dict [(§"d", .int 1)])]) := by
  decide +kernel

/-- Replacing variables changes a text that has none: a quoted version becomes a number. -/
theorem C93_quoted_number_violation :
    (Toy.recipe "a:\n  v: \"1.10\"\n").renderToObject Toy.env = .ok (.dict [(§"a", .dict [(§"v", .str §"1.10")])]) ∧
    (Toy.recipe "a:\n  v: \"1.10\"\n").renderToObject Toy.env true = .ok (.dict [(§"a", .dict [(§"v", .flt §"1.1")])]) := by
  decide +kernel

/-- A variable within a list that is written on one line is not replaced. -/
theorem C93_inline_list_violation (E : Env) :
    Recipe.renderToObject E ⟨[], root [scalar §"a" §"[\"{{ v }}\"]" (.list [.str §"{{ v }}"]) []], .v0, [(§"v", .int 1)], [], false⟩ true =
      .ok (.dict [(§"a", .list [.str §"{{ v }}"])]) := rfl

end Crm
