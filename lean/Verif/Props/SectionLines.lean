import Verif.Spec.SectionLines
import Verif.Props.TemplateSection

/-!
# Dependencies in sections that use variables (C102, C103)
-/

namespace Crm
open Spec Spec.Doc

theorem leadsTo_cons {k c0 : Str} {cs : List Doc} {pre post : List Doc} {path : List Str} {d : Doc} (hk : isDigitS k = false)
    (hf : Fresh k pre) (hne : cs ≠ []) (h : LeadsTo path cs d) : LeadsTo (k :: path) (pre ++ sec k c0 cs :: post) d := by
  rw [sec, if_neg hne]
  exact .key (by unfold Picks; rw [if_neg (by rw [hk]; decide)]; exact ⟨rfl, hf⟩) h

theorem leadsTo_some {path : List Str} {ds : List Doc} {d : Doc} (h : LeadsTo path ds d) : ds ≠ [] := by cases h <;> simp

/-- The place of an edit is where the path leads. -/
theorem within_leadsTo {R : List Doc → List Doc → Prop} {path : List Str} {ds ds' : List Doc} (h : Within R path ds ds')
    (hp : path ≠ []) (hn : endsInNumber path = false) (hR : ∀ cs cs', R cs cs' → cs ≠ []) :
    ∃ k c cs cs', R cs cs' ∧ LeadsTo path ds (block k c cs) := by
  induction h with
  | here => exact absurd rfl hp
  | @key k c cs cs' pre post path hk hf hw ih =>
    by_cases hpath : path = []
    · subst hpath
      cases hw with
      | here h =>
        refine ⟨k, c, cs, cs', h, ?_⟩
        rw [sec, if_neg (hR _ _ h)]
        exact .here (by unfold Picks; rw [if_neg (by rw [hk]; decide)]; exact ⟨rfl, hf⟩)
    · obtain ⟨k2, c2, a, b, h1, h2⟩ := ih hpath (by
        cases path with
        | nil => exact absurd rfl hpath
        | cons x xs => simpa [endsInNumber] using hn)
      exact ⟨k2, c2, a, b, h1, leadsTo_cons hk hf (leadsTo_some h2) h2⟩
  | @element i first rest first' rest' pre post path hi hc hw ih =>
    by_cases hpath : path = []
    · subst hpath
      simp [endsInNumber, hi] at hn
    · obtain ⟨k2, c2, a, b, h1, h2⟩ := ih hpath (by
        cases path with
        | nil => exact absurd rfl hpath
        | cons x xs => simpa [endsInNumber] using hn)
      exact ⟨k2, c2, a, b, h1, .element (by unfold Picks; rw [if_pos hi]; exact ⟨rfl, hc⟩) h2⟩

theorem linesRead_some {E : Env} {vars : List (Str × PyVal)} {cs : List Doc} {items : List PyVal} (h : LinesRead E vars cs items) :
    cs ≠ [] := by cases h with
  | one => simp
  | lines h => exact h

/-- The lines of a list in the file are what `get_value` reads there. -/
theorem sectionReads_lines {E : Env} (hl : 0 < E.recLimit) {vars : List (Str × PyVal)} {comps : List Str} {ds cs : List Doc} {k c : Str}
    {items : List PyVal} (ho : OkL E ds) (hp : ∀ x ∈ comps, Component x) (hd : LeadsTo comps ds (block k c cs))
    (h : LinesRead E vars cs items) : SectionReads E .v0 vars comps ds items := by
  intro r hr hs hv
  refine value_in_tree true _ hr ho hp hd ?_
  have hctx : r.ctx = ⟨.v0, vars⟩ := by rw [Recipe.ctx, hs, hv rfl]
  rw [if_pos rfl, hctx]
  cases h with
  | one hw =>
    refine .single (says_parse hl hw) ?_
    rintro xs rfl
    exact hw.scalar
  | @lines _ raw _ _ hc hread hf => exact section_written hc (fun _ _ _ => ⟨_, rfl⟩) (reads_filled ⟨.v0, vars⟩ hread hf)

/-- C102 in terms of the lines of the file alone: a dependency that no line of the section names, under the definitions of the file, is
added as one line at the end of the section. -/
theorem C102_append_to_lines_partial (E : Env) (hl : 0 < E.recLimit) (M : Str → Option Str) (vars : List (Str × PyVal)) (ds ds' : List Doc)
    (r : Recipe) (dep : Dep) (mode : DepMode) (selMode : SelMode) (comps : List Str) (i : Str) (n : Nat) (w : PyVal) (items : List PyVal)
    (hv : Writable E vars) (h : Document E ds) (hr : Recipe.ofString E (recipeText vars ds) = .ok r) (hs : r.schema = .v0)
    (hsp : SectionPath comps) (hi : isDigitS i = true) (hp : dep.path = absPath (comps ++ [i])) (hx : mode ≠ .exactPosition)
    (hn : mode = .useBoth ∨ textItems items ∧ ∀ x ∈ items, ¬ named M dep.data.name x)
    (hsc : Scalar E (.str dep.data.render) w) (hws : w ≠ .sentinel) (hsel : dep.selector = none)
    (he : Within (fun cs cs' => LinesRead E vars cs items ∧ EndsAt n (item (yamlText w) w []) cs cs') comps ds ds') (ho : OkL E ds') :
    ∃ r', r.addDependency E M dep mode selMode = (.ok true, r') ∧
      LinesSaved vars ds' (LineChange.added (withComment (§"- " ++ yamlText w) [])).Holds r r' ∧
      (Document E ds' → SameFormat ds ds' → ReadBackSel E r') := by
  have hn0 : r.schema = .v1 → vars = [] := by rw [hs]; intro hc; cases hc
  obtain ⟨_, t2, t3⟩ := C31_text_is_kept_partial E vars ds r hv h hr hn0
  obtain ⟨k, c, cs, cs', ⟨h1, _⟩, h2⟩ := within_leadsTo he hsp.ne_nil hsp.not_number fun _ _ h => linesRead_some h.1
  exact C102_append_partial E M vars ds ds' r dep mode selMode comps i n w [] items hv h hr hn0 hsp hi hp
    (sectionReads_lines hl h.1 hsp.components h2 h1 r t2 hs fun _ => t3 hs) hx hn hsc hws (by rw [hsel]; exact rfl)
    (fun hc => absurd hsel hc) (within_mono he fun _ _ h => h.2) ho

/-- C102 in terms of the lines of the file alone, for a dependency with a selector: the new line has the selector behind it. Of the section
with the new line, but without the selector, it is assumed that it reads as a list that has one entry more. -/
theorem C102_append_selector_to_lines_partial (E : Env) (hl : 0 < E.recLimit) (M : Str → Option Str) (vars : List (Str × PyVal))
    (ds dm ds' : List Doc) (r : Recipe) (dep : Dep) (mode : DepMode) (selMode : SelMode) (comps : List Str) (i : Str) (n : Nat) (w : PyVal)
    (c : Str) (items raw : List PyVal)
    (hv : Writable E vars) (h : Document E ds) (hr : Recipe.ofString E (recipeText vars ds) = .ok r) (hs : r.schema = .v0)
    (hsp : SectionPath comps) (hi : isDigitS i = true) (hp : dep.path = absPath (comps ++ [i])) (hx : mode ≠ .exactPosition)
    (hn : mode = .useBoth ∨ textItems items ∧ ∀ x ∈ items, ¬ named M dep.data.name x)
    (hsc : Scalar E (.str dep.data.render) w) (hws : w ≠ .sentinel) (hsel : SelectorComment dep.selector c)
    (hm : Within (fun cs cm => LinesRead E vars cs items ∧ EndsAt n (item (yamlText w) w []) cs cm ∧ ReadsText E (text cm) (.list raw))
      comps ds dm) (hraw : raw.length = n + 1) (hom : OkL E dm)
    (he : Within (EndsAt n (item (yamlText w) w c)) comps ds ds') (ho : OkL E ds') :
    ∃ r', r.addDependency E M dep mode selMode = (.ok true, r') ∧
      LinesSaved vars ds' (LineChange.added (withComment (§"- " ++ yamlText w) c)).Holds r r' ∧
      (Document E ds' → SameFormat ds ds' → ReadBackSel E r') := by
  have hn0 : r.schema = .v1 → vars = [] := by rw [hs]; intro hc; cases hc
  obtain ⟨_, t2, t3⟩ := C31_text_is_kept_partial E vars ds r hv h hr hn0
  obtain ⟨k, c0, cs, cm, ⟨h1, _⟩, h2⟩ := within_leadsTo hm hsp.ne_nil hsp.not_number fun _ _ h => linesRead_some h.1
  refine C102_append_partial E M vars ds ds' r dep mode selMode comps i n w c items hv h hr hn0 hsp hi hp
    (sectionReads_lines hl h.1 hsp.components h2 h1 r t2 hs fun _ => t3 hs) hx hn hsc hws hsel ?_ he ho
  intro _ dm' hd r' hr'
  obtain rfl : dm = dm' := within_functional (within_mono hm fun _ _ h => h.2.1) hd (by
    rintro cs a b ⟨_, rfl⟩ ⟨_, rfl⟩; rfl)
  obtain ⟨k2, c2, cm2, cs2, ⟨h3, ⟨_, h4⟩, h5⟩, h6⟩ := within_leadsTo (within_flip hm) hsp.ne_nil hsp.not_number (by
    rintro _ _ ⟨_, ⟨_, rfl⟩, _⟩; simp)
  refine ⟨raw, value_in_tree false none hr' hom hsp.components h6 ?_, hraw⟩
  refine section_written ?_ (fun _ _ _ => ⟨_, rfl⟩) (reads_parse h5)
  intro vt v c' hc
  rw [h4] at hc
  cases cs2 with
  | nil => exact linesRead_some h3 rfl
  | cons d ds => simp at hc

/-- C102 in terms of the lines of the file alone: the first line that names the package of the dependency makes way for it. -/
theorem C102_replace_lines_partial (E : Env) (hl : 0 < E.recLimit) (M : Str → Option Str) (vars : List (Str × PyVal)) (ds ds' : List Doc)
    (r : Recipe) (dep : Dep) (comps : List Str) (i old : Str) (w x : PyVal) (c : Str) (before after : List PyVal)
    (hv : Writable E vars) (h : Document E ds) (hr : Recipe.ofString E (recipeText vars ds) = .ok r) (hs : r.schema = .v0)
    (hsp : SectionPath comps) (hi : isDigitS i = true) (hp : dep.path = absPath (comps ++ [i])) (ht : textItems before)
    (hn : ∀ y ∈ before, ¬ named M dep.data.name y) (hx : named M dep.data.name x)
    (hsc : Scalar E (.str dep.data.render) w) (hws : w ≠ .sentinel) (hsel : SelectorComment dep.selector c)
    (he : Within (fun cs cs' => LinesRead E vars cs (before ++ x :: after) ∧ ItemLine before.length old [item (yamlText w) w c] cs cs')
      comps ds ds') (ho : OkL E ds') :
    ∃ r', r.addDependency E M dep .replace .replace = (.ok true, r') ∧
      LinesSaved vars ds' (OneLineDiffers old (withComment (§"- " ++ yamlText w) c)) r r' ∧
      (Document E ds' → SameFormat ds ds' → ReadBackSel E r') := by
  have hn0 : r.schema = .v1 → vars = [] := by rw [hs]; intro hc; cases hc
  obtain ⟨_, t2, t3⟩ := C31_text_is_kept_partial E vars ds r hv h hr hn0
  obtain ⟨k, c0, cs, cs', ⟨h1, _⟩, h2⟩ := within_leadsTo he hsp.ne_nil hsp.not_number fun _ _ h => linesRead_some h.1
  exact C102_replace_partial E M vars ds ds' r dep comps i old w x c before after hv h hr hn0 hsp hi hp
    (sectionReads_lines hl h.1 hsp.components h2 h1 r t2 hs fun _ => t3 hs) ht hn hx hsc hws hsel (within_mono he fun _ _ h => h.2) ho

/-! ## A file that meets the hypotheses -/

namespace SectionLinesExample
open DocDepsExample (file at_run section_run scalar_text fresh)
open TemplateSectionExample (vars writable compiler version hides_compiler hides_version after)

def cc : Doc := item §"{{ compiler('c') }}" (.str §"{{ compiler('c') }}") §"# [linux]"
def dd : Doc := item §"d >={{ ver }}" (.str §"d >={{ ver }}") []
def lines : List Doc := [cc, comment §"# c", dd]
def ddSegs : List Seg := [.text §"d >=", .hole §" " (.access §"ver" none .none [] []) §" "]

def segs : List Seg :=
  [.text §"- ", .hole §" " (.other §"compiler('c')") §" ", .text §"  # [linux]\n\n# c\n- d >=",
   .hole §" " (.access §"ver" none .none [] []) §" ", .text §"\n"]

def fill : PyVal → PyVal
  | .str t => if t = §"d >={{ ver }}" then .str §"d >=1.2" else .str §"${{ compiler('c') }}"
  | v => v

/-- The first line makes YAML refuse the section; with placeholders it reads two texts, which say `${{ compiler('c') }}` and `d >=1.2`. -/
theorem read : LinesRead Toy.env vars lines [.str §"${{ compiler('c') }}", .str §"d >=1.2"] := by
  have ht : text lines = source .v0 segs := rfl
  refine .lines (raw := [.str §"{{ compiler('c') }}", .str §"d >={{ ver }}"]) (by decide) (by intro vt v c h; cases h) ?_ ?_
  · rw [ht]
    refine .placeholders (segB_sound (E := Toy.env) (vars := vars) (by decide +kernel)).1 ⟨_, _, _, .tail _ (.head _)⟩
      (e := .yamlError) (by decide +kernel) (v' := .list [.str (hidden compiler), .str (hidden ddSegs)]) (by decide +kernel) ?_
    refine .list (n := 49) [(.str §"{{ compiler('c') }}", .str (hidden compiler), [§"{{ compiler('c') }}"]),
      (.str §"d >={{ ver }}", .str (hidden ddSegs), [§"{{ ver }}"])] ?_
    intro x hx
    simp only [List.mem_cons, List.not_mem_nil, or_false] at hx
    rcases hx with rfl | rfl
    · exact hides_compiler 48
    · exact .text (n := 48) (segs := ddSegs) (segB_sound (E := Toy.env) (vars := vars) (by decide +kernel)).1
        ⟨by decide, by decide, by rintro c ⟨⟩; decide⟩ (by decide +kernel)
  · refine .list (n := 49) (xs := [.str §"{{ compiler('c') }}", .str §"d >={{ ver }}"]) fill ?_
    intro x hx
    simp only [List.mem_cons, List.not_mem_nil, or_false] at hx
    rcases hx with rfl | rfl
    · exact .text (n := 48) ⟨compiler, rfl, segB_sound (by decide +kernel), .inl ⟨_, _, _, .head _⟩, by decide +kernel⟩ trivial
    · exact .text (n := 48) ⟨ddSegs, rfl, segB_sound (by decide +kernel), .inl ⟨_, _, _, .tail _ (.head _)⟩, by decide +kernel⟩ trivial

theorem document : Document Toy.env (file lines) := documentB_sound (by decide +kernel)
theorem document' : Document Toy.env (file (lines ++ [item §"c 3" (.str §"c 3") []])) := documentB_sound (by decide +kernel)

def newDep : Dep := exDep §"/requirements/run/0" §"c 3"

theorem nobody : ∀ x ∈ [PyVal.str §"${{ compiler('c') }}", .str §"d >=1.2"], ¬ named exMatch newDep.data.name x := by
  intro x hx
  simp only [List.mem_cons, List.not_mem_nil, or_false] at hx
  rcases hx with rfl | rfl <;> (rintro ⟨t, ht, _, h⟩; injection ht with ht; subst ht; revert h; decide)

example (r : Recipe) (hr : Recipe.ofString Toy.env (recipeText vars (file lines)) = .ok r) (hs : r.schema = .v0) :
    ∃ r', r.addDependency Toy.env exMatch newDep .replace .replace = (.ok true, r') ∧
      r'.render = recipeText vars (file (lines ++ [item §"c 3" (.str §"c 3") []])) ∧ ReadBackSel Toy.env r' := by
  obtain ⟨r', h1, h2, h3⟩ := C102_append_to_lines_partial Toy.env (by decide) exMatch vars (file lines)
    (file (lines ++ [item §"c 3" (.str §"c 3") []])) r newDep .replace .replace [§"requirements", §"run"] §"0" 2 (.str §"c 3") _
    writable document hr hs section_run (by decide) rfl (by decide)
    (Or.inr ⟨by intro x hx; simp only [List.mem_cons, List.not_mem_nil, or_false] at hx; rcases hx with rfl | rfl <;> exact Or.inr ⟨_, rfl⟩,
      nobody⟩) (scalar_text §"c 3" (by simp)) (by simp) rfl
    (at_run ⟨read, by decide +kernel, rfl⟩ (by decide) (by decide)) document'.1
  exact ⟨r', h1, h2.text, h3 document' (same_fresh (fresh _) (fresh _))⟩

def selDep : Dep := exDep §"/requirements/run/0" §"c 3" (some (SelectorParser.mk' §"[win]" false))
def newSegs : List Seg :=
  [.text §"- ", .hole §" " (.other §"compiler('c')") §" ", .text §"  # [linux]\n\n# c\n- d >=",
   .hole §" " (.access §"ver" none .none [] []) §" ", .text §"\n\n- c 3\n"]

/-- The section with the new line, without the selector, reads as a list of three texts. -/
theorem read_new : ReadsText Toy.env (text (lines ++ [item §"c 3" (.str §"c 3") []]))
    (.list [.str §"{{ compiler('c') }}", .str §"d >={{ ver }}", .str §"c 3"]) := by
  have ht : text (lines ++ [item §"c 3" (.str §"c 3") []]) = source .v0 newSegs := rfl
  rw [ht]
  refine .placeholders (segB_sound (E := Toy.env) (vars := vars) (by decide +kernel)).1 ⟨_, _, _, .tail _ (.head _)⟩
    (e := .yamlError) (by decide +kernel) (v' := .list [.str (hidden compiler), .str (hidden ddSegs), .str §"c 3"]) (by decide +kernel) ?_
  refine .list (n := 49) [(.str §"{{ compiler('c') }}", .str (hidden compiler), [§"{{ compiler('c') }}"]),
    (.str §"d >={{ ver }}", .str (hidden ddSegs), [§"{{ ver }}"]), (.str §"c 3", .str §"c 3", [])] ?_
  intro x hx
  simp only [List.mem_cons, List.not_mem_nil, or_false] at hx
  rcases hx with rfl | rfl | rfl
  · exact hides_compiler 48
  · exact .text (n := 48) (segs := ddSegs) (segB_sound (E := Toy.env) (vars := vars) (by decide +kernel)).1
      ⟨by decide, by decide, by rintro c ⟨⟩; decide⟩ (by decide +kernel)
  · exact .text (n := 48) (segs := [.text §"c 3"]) (segB_sound (E := Toy.env) (vars := vars) (by decide +kernel)).1
      ⟨by decide, by decide, by rintro c ⟨⟩; decide⟩ (by decide +kernel)

theorem document_sel : Document Toy.env (file (lines ++ [item §"c 3" (.str §"c 3") §"# [win]"])) := documentB_sound (by decide +kernel)

example (r : Recipe) (hr : Recipe.ofString Toy.env (recipeText vars (file lines)) = .ok r) (hs : r.schema = .v0) :
    ∃ r', r.addDependency Toy.env exMatch selDep .replace .replace = (.ok true, r') ∧
      r'.render = recipeText vars (file (lines ++ [item §"c 3" (.str §"c 3") §"# [win]"])) ∧ ReadBackSel Toy.env r' := by
  obtain ⟨r', h1, h2, h3⟩ := C102_append_selector_to_lines_partial Toy.env (by decide) exMatch vars (file lines)
    (file (lines ++ [item §"c 3" (.str §"c 3") []])) (file (lines ++ [item §"c 3" (.str §"c 3") §"# [win]"])) r selDep .replace .replace
    [§"requirements", §"run"] §"0" 2 (.str §"c 3") §"# [win]" _ [.str §"{{ compiler('c') }}", .str §"d >={{ ver }}", .str §"c 3"]
    writable document hr hs section_run (by decide) rfl (by decide)
    (Or.inr ⟨by intro x hx; simp only [List.mem_cons, List.not_mem_nil, or_false] at hx; rcases hx with rfl | rfl <;> exact Or.inr ⟨_, rfl⟩,
      nobody⟩) (scalar_text §"c 3" (by simp)) (by simp) ⟨§"win", by decide +kernel, by decide, rfl⟩
    (at_run ⟨read, ⟨by decide +kernel, rfl⟩, read_new⟩ (by decide) (by decide)) rfl document'.1
    (at_run ⟨by decide +kernel, rfl⟩ (by decide) (by decide)) document_sel.1
  exact ⟨r', h1, h2.text, h3 document_sel (same_fresh (fresh _) (fresh _))⟩

example : ∃ r, Recipe.ofString Toy.env (recipeText vars (file lines)) = .ok r := by
  have h : (Recipe.ofString Toy.env (recipeText vars (file lines))).toOption.isSome = true := by decide +kernel
  cases hr : Recipe.ofString Toy.env (recipeText vars (file lines)) with
  | error e => rw [hr] at h; cases h
  | ok r => exact ⟨r, rfl⟩

end SectionLinesExample

end Crm
