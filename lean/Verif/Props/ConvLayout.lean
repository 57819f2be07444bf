import Verif.Props.ConvertMain
import Verif.Props.Layout

/-! # What the result of a conversion depends on (C51, C108) -/

namespace Crm
open Spec Spec.Doc

/-- C51: the first conversion depends on nothing but the text that the recipe renders: two new objects whose recipes render the same
text give the same text and messages, or the same exception. -/
theorem C51_first_result (E : Env) (W : ConvWorld) (a b : Str) (c d : Conv) (hc : newConv E a = .ok c) (hd : newConv E b = .ok d)
    (h : c.self.render = d.self.render) : (renderToV1 E W c).1 = (renderToV1 E W d).1 := by
  have key : ∀ {t : Str} {x : Conv}, newConv E t = .ok x → Recipe.ofString E x.self.render = .ok x.v1 ∧ x.msgs = [] := by
    intro t x hx
    unfold newConv at hx
    simp only [Bind.bind, Except.bind] at hx
    cases h1 : Recipe.ofString E t with
    | error e => rw [h1] at hx; cases hx
    | ok r =>
      rw [h1] at hx
      simp only at hx
      cases h2 : Recipe.ofString E r.render with
      | error e => rw [h2] at hx; cases hx
      | ok v => rw [h2] at hx; injection hx with hx; subst hx; exact ⟨h2, rfl⟩
  obtain ⟨c1, c2⟩ := key hc
  obtain ⟨d1, d2⟩ := key hd
  rw [h, d1] at c1
  injection c1 with c1
  have hs : d = { c with self := d.self } := by
    obtain ⟨s, v, m⟩ := c
    obtain ⟨s', v', m'⟩ := d
    simp only at c1 c2 d2 ⊢
    rw [c1, c2, d2]
  rw [hs, (Act.noSelf E).renderToV1 W c d.self]

/-- Two ways of writing the same document. -/
theorem layouts_opened (E : Env) {vars : List (Str × PyVal)} {ds : List Doc} {fs gs : List Str} (ho : OkL E ds) (hf : FreeFile E vars ds fs)
    (hg : FreeFile E vars ds gs) :
    Recipe.ofString E (fileText gs) = (Recipe.ofString E (fileText fs)).map fun r => { r with init := fileText gs } := by
  obtain ⟨a1, a2⟩ := free_file_is_read E vars ds fs ho hf
  obtain ⟨b1, b2⟩ := free_file_is_read E vars ds gs ho hg
  unfold Recipe.ofString
  rw [a1, a2, b1, b2]
  simp only [bind, Except.bind]
  cases getValueIn E (root ds) §"/schema_version" (some (.int 0)) with
  | error e => rfl
  | ok sv =>
    simp only
    cases schemaOf sv with
    | v0 => rfl
    | v1 =>
      simp only
      cases getValueIn E (root ds) §"/context" (some (.dict [])) <;> rfl

/-- C108: `crm convert` on two files that are, after pre-processing, ways of writing the same variables and the same document: the
same output, messages and exit code, whether the conversion succeeds or not.  Missing: layouts outside `FreeFile`, see the violation below. -/
theorem C108_layout_does_not_matter_partial (E : Env) (W : ConvWorld) {variants : List Str} (hv : variants.Perm hashTypeLines)
    (shown : PyErr → Str) (round2 : Nat → Nat → Int) (minRate : Threshold) (output : Option Str) (f g : SrcFile) {textF textG : Str}
    {vars : List (Str × PyVal)} {ds : List Doc} {fs gs : List Str} (ho : OkL E ds)
    (hf : f.content = some textF) (hpf : PreProcessed variants textF (fileText fs)) (hff : FreeFile E vars ds fs)
    (hg : g.content = some textG) (hpg : PreProcessed variants textG (fileText gs)) (hgg : FreeFile E vars ds gs) :
    convertOne (crmConverter E W variants) shown round2 f output minRate = convertOne (crmConverter E W variants) shown round2 g output minRate := by
  have ef : preProcessRecipeText variants textF = fileText fs := (C87_pre_process variants hv textF _).2 hpf
  have eg : preProcessRecipeText variants textG = fileText gs := (C87_pre_process variants hv textG _).2 hpg
  have hopen := layouts_opened E ho hff hgg
  have hparse : (crmConverter E W variants).parse (fileText gs) =
      ((crmConverter E W variants).parse (fileText fs)).map fun r => { r with init := fileText gs } := by
    show (do let c ← newConv E (fileText gs); Except.ok c.self) = (do let c ← newConv E (fileText fs); Except.ok c.self).map _
    unfold newConv
    rw [hopen]
    simp only [Bind.bind, Except.bind]
    cases Recipe.ofString E (fileText fs) with
    | error e => rfl
    | ok r =>
      have hr : ({ r with init := fileText gs } : Recipe).render = r.render := rfl
      simp only [Except.map, hr]
      cases Recipe.ofString E r.render <;> rfl
  have hconv : ∀ r : Recipe, (crmConverter E W variants).convert { r with init := fileText gs } = (crmConverter E W variants).convert r := by
    intro r
    show (do let v1 ← Recipe.ofString E r.render; (renderToV1 E W ⟨{ r with init := fileText gs }, v1, []⟩).1) =
      (do let v1 ← Recipe.ofString E r.render; (renderToV1 E W ⟨r, v1, []⟩).1)
    simp only [Bind.bind, Except.bind]
    cases Recipe.ofString E r.render with
    | error e => rfl
    | ok v =>
      have := (Act.noSelf E).renderToV1 W ⟨r, v, []⟩ { r with init := fileText gs }
      simp only at this ⊢
      rw [this]
  have hpre : ∀ t, (crmConverter E W variants).pre t = .ok (preProcessRecipeText variants t) := fun _ => rfl
  have e1 : convertFile (crmConverter E W variants) f.path f.content = convertFile (crmConverter E W variants) g.path g.content := by
    rw [hf, hg]
    simp only [convertFile, hpre, ef, eg, hparse]
    cases (crmConverter E W variants).parse (fileText fs) with
    | error e => rfl
    | ok r => simp only [Except.map, hconv]
  have e2 : convertPrints (crmConverter E W variants) shown f output = convertPrints (crmConverter E W variants) shown g output := by
    simp only [convertPrints, hf, hg, hpre, ef, eg, hparse]
    cases (crmConverter E W variants).parse (fileText fs) with
    | error e => rfl
    | ok r => simp only [Except.map, hconv]
  unfold convertOne
  simp only [convertCommand, e1, e2]

/-! ## Files that meet the hypotheses -/

namespace ConvLayoutExample
open LayoutExample (oneLineB blankB)

/-- The file of `LayoutExample` with its definitions at the front, without the remark. -/
def tidy : List Str := [§"{% set name = \"foo\" %}", §"{% set n = 3 %}"] ++ LayoutExample.body

theorem tidy_lines : FileLines tidy [(§"name", §"\"foo\""), (§"n", §"3")] LayoutExample.body := by
  refine .defn ⟨⟨§" ", §" ", §" ", §" ", §" ", ?_⟩, by decide, by decide, by decide, by decide⟩ ?_
  · exact ⟨blankB rfl, blankB rfl, blankB rfl, blankB rfl, blankB rfl, by decide⟩
  refine .defn ⟨⟨§" ", §" ", §" ", §" ", §" ", ?_⟩, by decide, by decide, by decide, by decide⟩ ?_
  · exact ⟨blankB rfl, blankB rfl, blankB rfl, blankB rfl, blankB rfl, by decide⟩
  repeat' first
    | exact .nil
    | refine .line (oneLineB (by decide)) ?_

theorem tidy_file : FreeFile Toy.env LayoutExample.vars LayoutExample.doc tidy :=
  ⟨⟨_, LayoutExample.body, tidy_lines, LayoutExample.laid, by decide +kernel⟩, by decide, by decide⟩

theorem pre_lines : PreProcessed hashTypeLines (fileText LayoutExample.lines) (fileText LayoutExample.lines) :=
  (C87_pre_process hashTypeLines (List.Perm.refl _) _ _).1 (by decide +kernel)
theorem pre_tidy : PreProcessed hashTypeLines (fileText tidy) (fileText tidy) :=
  (C87_pre_process hashTypeLines (List.Perm.refl _) _ _).1 (by decide +kernel)

/-- What the theorem gives for these two files. -/
example (shown : PyErr → Str) (round2 : Nat → Nat → Int) (minRate : Threshold) (output : Option Str) :
    convertOne (crmConverter Toy.env exWorld hashTypeLines) shown round2 ⟨§"d", §"d/a", §"a", some (fileText LayoutExample.lines)⟩ output minRate =
      convertOne (crmConverter Toy.env exWorld hashTypeLines) shown round2 ⟨§"d", §"d/b", §"b", some (fileText tidy)⟩ output minRate :=
  C108_layout_does_not_matter_partial Toy.env exWorld (List.Perm.refl _) shown round2 minRate output _ _ LayoutExample.document.1
    rfl pre_lines LayoutExample.free_file rfl pre_tidy tidy_file

end ConvLayoutExample

/-- C108 fails for a list that is not indented below its key: its entries are not converted. -/
theorem C108_unindented_list_violation :
    let run := fun text => (convertOne (crmConverter Toy.env exWorld hashTypeLines) (fun _ => []) (fun _ _ => 0)
      ⟨§"d", §"d/a", §"a", some text⟩ none ⟨1, 1⟩).stdout
    run §"source:\n- url: u\n  fn: f\n" = [§"schema_version: 1\n\nsource:\n\n- url: u\n  fn: f\n"] ∧
      run §"source:\n  - url: u\n    fn: f\n" = [§"schema_version: 1\n\nsource:\n  - url: u\n    file_name: f\n"] :=
  ⟨by decide +kernel, by decide +kernel⟩

end Crm
