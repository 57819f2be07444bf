import Verif.Spec.Convert
import Verif.Lemmas.Convert
import Verif.Props.Scanner
import Verif.Examples.ToyYaml

/-!
# Converting a recipe: the original, the messages, the result (C51, C78, C79)
-/

namespace Crm
open Spec Act

/-- A recipe to convert, for examples. -/
def exConvText : Str :=
  §"{% set name = \"foo\" %}\n{% set parts = [1] %}\n\npackage:\n  name: {{ name }}\n\nbuild:\n  skip: true  # [win]\n  tags: x\n\nabout:\n  home: h\n  tags: t\n"

/-- The object built from it. -/
def exConv : Conv :=
  ⟨Toy.recipe (String.ofList exConvText), Toy.recipe (String.ofList (Toy.recipe (String.ofList exConvText)).render), []⟩

/-- A world for examples: sets are visited in the order they were built, no licence is close to another. -/
def exWorld : ConvWorld := ⟨id, fun _ _ => [], [⟨§"MIT", §"MIT License"⟩]⟩

/-! ## C51 -/

theorem inv_self (E : Env) : Act.Inv E fun a _ b => b.self = a.self where
  refl _ _ := rfl
  trans h1 h2 := h2.trans h1
  say _ _ := ⟨fun _ => rfl⟩
  patch p := by
    constructor
    intro c
    show (patchAndLog E p c).2.self = c.self
    simp only [patchAndLog, Bind.bind, Act.bind, edit]
    rcases (c.v1.patch E p).1 with e | _ | _ <;> rfl
  selector _ := ⟨fun _ => rfl⟩
  sort _ _ := ⟨fun _ => rfl⟩
  vars _ := ⟨fun _ => rfl⟩
  schema := ⟨fun _ => rfl⟩
  context := ⟨fun _ => rfl⟩

/-- C51: a conversion, whether it returns or raises, leaves the recipe it was called on exactly as it was: tree,
variables, selectors, `is_modified()`. -/
theorem C51_original_untouched_partial (E : Env) (W : ConvWorld) (c : Conv) : (renderToV1 E W c).2.self = c.self :=
  ((inv_self E).renderToV1 W).after c

/-- C51: the object converts what its recipe renders: the copy is the recipe read from the rendered text, and the
messages start empty. -/
theorem C51_copy (E : Env) (content : Str) (c : Conv) (h : newConv E content = .ok c) :
    Recipe.ofString E content = .ok c.self ∧ Recipe.ofString E c.self.render = .ok c.v1 ∧
      ∀ cat, c.msgs.get cat = [] := by
  unfold newConv at h
  cases h1 : Recipe.ofString E content with
  | error e => rw [h1] at h; cases h
  | ok r =>
    rw [h1] at h
    simp only [Bind.bind, Except.bind] at h
    cases h2 : Recipe.ofString E r.render with
    | error e => rw [h2] at h; cases h
    | ok v =>
      rw [h2] at h
      injection h with h
      subst h
      exact ⟨rfl, h2, fun _ => rfl⟩

example : newConv Toy.env exConvText = .ok exConv := by decide +kernel
example : (renderToV1 Toy.env exWorld exConv).1 = .ok
    (§"schema_version: 1\n\ncontext:\n  name: foo\n  parts: \"[1]\"\n\npackage:\n  name: ${{ name }}\n\nbuild:\n  skip: win\n  tags: x\n\nabout:\n  homepage: h\n",
     [(.warning, [§"No `license` provided in `/about`", §"Field at `/about/tags` is no longer supported."])]) := by decide +kernel

/-! ## C78 -/

theorem Spec.Changes.append {E : Env} {a b c : Recipe} {f g : List PyVal} (h1 : Changes E a f b) (h2 : Changes E b g c) :
    Changes E a (f ++ g) c := by
  induction h1 with
  | done r => exact h2
  | step hc _ ih => rw [List.append_assoc]; exact .step hc (ih h2)

theorem inv_reports (E : Env) : Act.Inv E fun a o b => ∃ failed, (o = true → Changes E a.v1 failed b.v1) ∧
    Reports a.msgs b.msgs .error (failed.map refusal) ∧ ∀ cat, Reports a.msgs b.msgs cat [] where
  refl c o := ⟨[], fun _ => .done _, ⟨[], by simp, by simp⟩, fun cat => ⟨[], by simp, by simp⟩⟩
  trans := by
    rintro a b c o ⟨f1, h1, ⟨m1, e1, s1⟩, r1⟩ ⟨f2, h2, ⟨m2, e2, s2⟩, r2⟩
    refine ⟨f1 ++ f2, fun ho => ?_, ⟨m1 ++ m2, by rw [e2, e1, List.append_assoc], ?_⟩, ?_⟩
    · exact (h1 rfl).append (h2 ho)
    · rw [List.map_append]; exact s1.append s2
    · intro cat
      obtain ⟨m3, e3, _⟩ := r1 cat
      obtain ⟨m4, e4, _⟩ := r2 cat
      exact ⟨m3 ++ m4, by rw [e4, e3, List.append_assoc], by simp⟩
  say cat m := by
    constructor
    intro c
    refine ⟨[], fun _ => .done _, ?_, fun cat' => ?_⟩
    · exact ⟨_, get_add c.msgs cat .error m, by simp⟩
    · exact ⟨_, get_add c.msgs cat cat' m, by simp⟩
  patch p := by
    constructor
    intro c
    have key : ∀ o r', c.v1.patch E p = (o, r') → patchAndLog E p c = match o with
        | .error e => (.error e, { c with v1 := r' })
        | .ok true => (.ok true, { c with v1 := r' })
        | .ok false => (.ok false, { c with v1 := r', msgs := c.msgs.add .error (refusal p) }) := by
      intro o r' h
      simp only [patchAndLog, Bind.bind, Act.bind, edit, h]
      rcases o with e | _ | _ <;> rfl
    have keep : ∀ cat, Reports c.msgs c.msgs cat [] := fun cat => ⟨[], by simp, by simp⟩
    have one : ∀ {r r' f}, Change E r f r' → Changes E r f r' := fun h => by simpa using Changes.step h (.done _)
    rcases hp : c.v1.patch E p with ⟨o, r'⟩
    rw [key o r' hp]
    rcases o with e | _ | _
    · exact ⟨[], fun h => by simp [returned] at h, keep _, keep⟩
    · exact ⟨[p], fun _ => one (.refused p hp), ⟨_, get_add c.msgs .error .error _, by simp⟩,
        fun cat => ⟨_, get_add c.msgs .error cat _, by simp⟩⟩
    · exact ⟨[], fun _ => one (.patched p hp), keep _, keep⟩
  selector path := by
    constructor
    intro c
    refine ⟨[], fun h => ?_, ⟨[], by simp [edit], by simp⟩, fun cat => ⟨[], by simp [edit], by simp⟩⟩
    rcases hp : c.v1.removeSelector path with ⟨o, r'⟩
    simp only [edit, hp] at h ⊢
    cases o with
    | error e => cases h
    | ok o => simpa using Changes.step (.unselected path o hp) (.done _)
  sort path tbl := by
    constructor
    intro c
    refine ⟨[], fun h => ?_, ⟨[], by simp [edit, sortKeys], by simp⟩, fun cat => ⟨[], by simp [edit, sortKeys], by simp⟩⟩
    rcases hp : c.v1.sortSubtreeKeys path tbl with e | r'
    · simp only [edit, sortKeys, hp] at h; cases h
    · simp only [edit, sortKeys, hp]
      simpa using Changes.step (.sorted path tbl hp) (.done _)
  vars vs := by
    constructor
    intro c
    refine ⟨[], fun _ => ?_, ⟨[], by simp [edit], by simp⟩, fun cat => ⟨[], by simp [edit], by simp⟩⟩
    simpa [edit] using Changes.step (E := E) (r := c.v1) (.variables vs) (.done _)
  schema := by
    constructor
    intro c
    refine ⟨[], fun _ => ?_, ⟨[], by simp [edit], by simp⟩, fun cat => ⟨[], by simp [edit], by simp⟩⟩
    simpa [edit] using Changes.step (E := E) (r := c.v1) .schema (.done _)
  context := by
    constructor
    intro c
    refine ⟨[], fun _ => ?_, ⟨[], by simp [edit], by simp⟩, fun cat => ⟨[], by simp [edit], by simp⟩⟩
    have : ∃ vs, (edit (·.initVarsV1 E) c).2.v1 = { c.v1 with vars := vs } := by
      simp only [edit, Recipe.initVarsV1]
      split <;> exact ⟨_, rfl⟩
    obtain ⟨vs, h⟩ := this
    rw [h]
    simpa using Changes.step (.variables vs) (.done _)

/-- C78: the messages returned are those of the object, and the text is the rendered copy. -/
theorem C78_returned (E : Env) (W : ConvWorld) (c : Conv) (text : Str) (msgs : MsgTable)
    (h : (renderToV1 E W c).1 = .ok (text, msgs)) :
    text = (renderToV1 E W c).2.v1.render ∧ msgs = (renderToV1 E W c).2.msgs := by
  simp only [renderToV1, Bind.bind, Act.bind] at h ⊢
  rcases hs : convertSteps E W c with ⟨o, c'⟩
  rw [hs] at h
  cases o with
  | error e => cases h
  | ok u => injection h with h; injection h with h1 h2; exact ⟨h1.symm, h2.symm⟩

/-- C78: a conversion that returns has changed the copy by patches, selector removals, sorts, and by setting variables
and schema only; every patch that was refused is reported as an error, in the order of the attempts, and no message
given before is lost. -/
theorem C78_refusals_reported (E : Env) (W : ConvWorld) (c : Conv) (text : Str) (msgs : MsgTable)
    (h : (renderToV1 E W c).1 = .ok (text, msgs)) :
    ∃ failed, Changes E c.v1 failed (renderToV1 E W c).2.v1 ∧ Reports c.msgs msgs .error (failed.map refusal) ∧
      ∀ cat, Reports c.msgs msgs cat [] := by
  obtain ⟨failed, h1, h2, h3⟩ := ((inv_reports E).renderToV1 W).after c
  rw [(C78_returned E W c text msgs h).2]
  exact ⟨failed, h1 (by rw [h]; rfl), h2, h3⟩

/-- C78: a conversion that returns without errors made only changes that succeeded. -/
theorem C78_no_errors (E : Env) (W : ConvWorld) (c : Conv) (text : Str) (msgs : MsgTable)
    (h : (renderToV1 E W c).1 = .ok (text, msgs)) (he : msgs.get .error = []) :
    Changes E c.v1 [] (renderToV1 E W c).2.v1 := by
  obtain ⟨failed, h1, ⟨added, h2, h3⟩, _⟩ := C78_refusals_reported E W c text msgs h
  rw [he] at h2
  have : added = [] := by
    cases added with
    | nil => rfl
    | cons a as => simp at h2
  subst this
  have : failed = [] := by simpa using h3
  subst this
  exact h1

/-- C78: even a conversion that raises keeps every message given so far. -/
theorem C78_messages_kept (E : Env) (W : ConvWorld) (c : Conv) (cat : Category) :
    Reports c.msgs (renderToV1 E W c).2.msgs cat [] := by
  obtain ⟨_, _, _, h⟩ := ((inv_reports E).renderToV1 W).after c
  exact h cat

/-! ## C79 -/

/-- Following the outcome of `x; f(result of x)`. -/
theorem Act.bind_ok {x : Act α} {f : α → Act β} {c c'' : Conv} {b : β} (h : (x >>= f) c = (.ok b, c'')) :
    ∃ a c', x c = (.ok a, c') ∧ f a c' = (.ok b, c'') := by
  simp only [Bind.bind, Act.bind] at h
  rcases hx : x c with ⟨o, c'⟩
  rw [hx] at h
  cases o with
  | error e => cases h
  | ok a => exact ⟨a, c', rfl, h⟩

theorem convertSteps_finish (E : Env) (W : ConvWorld) (c c' : Conv) (h : convertSteps E W c = (.ok (), c')) :
    ∃ c1, finishV1 E c1 = (.ok (), c') := by
  unfold convertSteps at h
  iterate 12
    obtain ⟨_, c, _, h⟩ := Act.bind_ok h
  exact ⟨_, h⟩

/-- C79: the text a conversion returns has no `{% set %}` lines and no variables but those of its `context` section: the
copy is rendered as a V1 recipe, whose variables are what `context` holds. -/
theorem C79_result (E : Env) (W : ConvWorld) (c : Conv) (text : Str) (msgs : MsgTable)
    (h : (renderToV1 E W c).1 = .ok (text, msgs)) :
    let v1 := (renderToV1 E W c).2.v1
    text = v1.render ∧ v1.schema = .v1 ∧
      ∃ v, v1.getValue E §"/context" (some (.dict [])) = .ok v ∧
        (∀ kvs, v = .dict kvs → v1.vars = kvs) ∧ ((∀ kvs, v ≠ .dict kvs) → v1.vars = []) := by
  refine ⟨(C78_returned E W c text msgs h).1, ?_⟩
  rcases hr : renderToV1 E W c with ⟨o, c'⟩
  rw [hr] at h
  dsimp only at h ⊢
  subst h
  obtain ⟨_, c1, h1, h2⟩ := Act.bind_ok hr
  obtain ⟨c2, h3⟩ := convertSteps_finish E W c c1 h1
  injection h2 with _ h2
  subst h2
  unfold finishV1 at h3
  obtain ⟨_, c3, _, h3⟩ := Act.bind_ok h3
  obtain ⟨_, c4, _, h3⟩ := Act.bind_ok h3
  obtain ⟨_, c5, h4, h3⟩ := Act.bind_ok h3
  have hs : c5.v1.schema = .v1 := by
    simp only [edit] at h4
    injection h4 with _ h4
    rw [← h4]
  simp only [edit, Recipe.initVarsV1] at h3
  rcases hg : c5.v1.getValue E §"/context" (some (.dict [])) with e | v
  · rw [hg] at h3; cases h3
  · rw [hg] at h3
    have key : ∃ kvs, c1.v1 = { c5.v1 with vars := kvs } ∧ (∀ d, v = .dict d → kvs = d) ∧
        ((∀ d, v ≠ .dict d) → kvs = []) := by
      cases v with
      | dict d =>
        injection h3 with _ h3
        exact ⟨d, by rw [← h3], fun _ h => by injection h, fun h => absurd rfl (h d)⟩
      | _ =>
        injection h3 with _ h3
        exact ⟨[], by rw [← h3], (fun _ h => by cases h), fun _ => rfl⟩
    obtain ⟨kvs, hk, h5, h6⟩ := key
    rw [hk]
    exact ⟨hs, v, hg, h5, h6⟩

example : (renderToV1 Toy.env exWorld exConv).2.v1.vars = [(§"name", .str §"foo"), (§"parts", .str §"[1]")] := by
  decide +kernel

/-- C51: the text is not a function of the recipe the object was built from: a second conversion starts from the copy the
first one left behind, and its messages repeat the first ones. -/
theorem C51_second_call_differs :
    let first := renderToV1 Toy.env exWorld exConv
    (renderToV1 Toy.env exWorld first.2).1 ≠ first.1 := by decide +kernel

end Crm
