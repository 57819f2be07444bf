import Verif.Props.TemplateLine

/-!
# Sections of a file that use variables (C111)
-/

namespace Crm
open Spec Spec.Doc

/-- A section that is no list of one text says what YAML reads in the lines below its key. -/
theorem section_written {E : Env} {ctx : Option JinjaCtx} {k c : Str} {cs : List Doc} {w : PyVal} (hc : ∀ vt v c', cs ≠ [item vt v c'])
    (he : ∀ first rest, cs = [elem first rest] → ∃ xs, w = .list xs) (h : parseYaml E (text cs) ctx = .ok w) :
    WrittenValue E ctx (block k c cs) w := by
  by_cases hx : ∃ first rest, cs = [elem first rest]
  · obtain ⟨first, rest, rfl⟩ := hx
    obtain ⟨xs, rfl⟩ := he first rest rfl
    exact .element h
  · refine .block ?_ h
    rintro d rfl
    cases d with
    | item => exact absurd rfl (hc _ _ _)
    | elem first rest => exact absurd ⟨first, rest, rfl⟩ hx
    | _ => rfl

theorem filled_lists {E : Env} {schema : Schema} {vars : List (Str × PyVal)} {n : Nat} {P : Doc → List Doc → Prop} {raw w : PyVal}
    (h : ∀ first rest, P first rest → ∃ xs, raw = .list xs) (hf : Filled E schema vars n raw w) :
    ∀ first rest, P first rest → ∃ xs, w = .list xs := by
  intro first rest hp
  obtain ⟨xs, rfl⟩ := h first rest hp
  obtain ⟨g, _, hg, _⟩ := filled_list hf
  exact ⟨_, hg⟩

/-- C111: a section of a file of the old format is read as the lists and mappings that YAML finds in it, with the expressions in its
texts as they are written, and with `sub_vars` as the same lists and mappings with every text replaced by what YAML makes of it under
the definitions of the file; after a session of edits, under the definitions as they are then.  A line that starts with an expression,
such as `- {{ compiler('c') }}`, makes YAML refuse the section; it is then read with placeholders for the expressions. -/
theorem C111_section_partial (E : Env) (vars vars' : List (Str × PyVal)) (ds ds' : List Doc) (r : Recipe) (calls : List Call)
    (path : List Str) (k c : Str) (cs : List Doc) (raw w : PyVal) (dflt : Option PyVal)
    (hv : Writable E vars) (h : Document E ds) (hr : Recipe.ofString E (recipeText vars ds) = .ok r) (hs : r.schema = .v0)
    (he : FileSession E r.schema calls vars ds vars' ds') (ho : OkL E ds') (hp : ∀ x ∈ path, Component x)
    (hd : LeadsTo path ds' (block k c cs)) (hc : ∀ vt v c', cs ≠ [item vt v c'])
    (he' : ∀ first rest, cs = [elem first rest] → ∃ xs, raw = .list xs)
    (hread : ReadsText E (text cs) raw) (hf : Filled E .v0 vars' E.recLimit raw w) :
    (performAll E r calls).getValue E (absPath path) dflt false = .ok raw ∧
      (performAll E r calls).getValue E (absPath path) dflt true = .ok w := by
  have hn : r.schema = .v1 → vars = [] ∧ ∀ c ∈ calls, changesVariables c = false := by rw [hs]; intro hc; cases hc
  constructor
  · exact (C105_value_after_session_partial E vars vars' ds ds' r calls path _ raw false dflt hv h hr hn he ho hp hd
      (section_written hc he' (reads_parse hread))).2
  · refine (C105_value_after_session_partial E vars vars' ds ds' r calls path _ w true dflt hv h hr hn he ho hp hd ?_).2
    rw [if_pos rfl, if_pos hs, hs]
    exact section_written hc (filled_lists he' hf) (reads_filled ⟨.v0, vars'⟩ hread hf)

/-- C111: the same for a file in any layout. -/
theorem C111_section_in_free_layout_partial (E : Env) (vars vars' : List (Str × PyVal)) (ds ds' : List Doc) (fs : List Str) (r : Recipe)
    (calls : List Call) (path : List Str) (k c : Str) (cs : List Doc) (raw w : PyVal) (dflt : Option PyVal)
    (h : OkL E ds) (hf' : FreeFile E vars ds fs) (hr : Recipe.ofString E (fileText fs) = .ok r) (hs : r.schema = .v0)
    (he : FileSession E r.schema calls vars ds vars' ds') (ho : OkL E ds') (hp : ∀ x ∈ path, Component x)
    (hd : LeadsTo path ds' (block k c cs)) (hc : ∀ vt v c', cs ≠ [item vt v c'])
    (he' : ∀ first rest, cs = [elem first rest] → ∃ xs, raw = .list xs)
    (hread : ReadsText E (text cs) raw) (hf : Filled E .v0 vars' E.recLimit raw w) :
    (performAll E r calls).getValue E (absPath path) dflt false = .ok raw ∧
      (performAll E r calls).getValue E (absPath path) dflt true = .ok w := by
  have hn : r.schema = .v1 → ∀ c ∈ calls, changesVariables c = false := by rw [hs]; intro hc; cases hc
  constructor
  · exact C105_value_from_free_layout_partial E vars vars' ds ds' fs r calls path _ raw false dflt h hf' hr hn he ho hp hd
      (section_written hc he' (reads_parse hread))
  · refine C105_value_from_free_layout_partial E vars vars' ds ds' fs r calls path _ w true dflt h hf' hr hn he ho hp hd ?_
    rw [if_pos rfl, if_pos hs, hs]
    exact section_written hc (filled_lists he' hf) (reads_filled ⟨.v0, vars'⟩ hread hf)

/-- C111: a list of one line is read as the list of the value of the line. -/
theorem C111_list_of_one_line_partial (E : Env) (hl : 0 < E.recLimit) (vars vars' : List (Str × PyVal)) (ds ds' : List Doc)
    (r : Recipe) (calls : List Call) (path : List Str) (k c vt c' : Str) (segs : List Seg) (w : PyVal) (dflt : Option PyVal)
    (hv : Writable E vars) (h : Document E ds) (hr : Recipe.ofString E (recipeText vars ds) = .ok r) (hs : r.schema = .v0)
    (he : FileSession E r.schema calls vars ds vars' ds') (ho : OkL E ds') (hp : ∀ x ∈ path, Component x)
    (hd : LeadsTo path ds' (block k c [item vt (.str (source .v0 segs)) c'])) (hw : Says E .v0 vars' segs w) :
    (performAll E r calls).getValue E (absPath path) dflt true = .ok (.list [w]) := by
  have hn : r.schema = .v1 → vars = [] ∧ ∀ c ∈ calls, changesVariables c = false := by rw [hs]; intro hc; cases hc
  refine (C105_value_after_session_partial E vars vars' ds ds' r calls path _ _ true dflt hv h hr hn he ho hp hd ?_).2
  rw [if_pos rfl, if_pos hs, hs]
  refine .single (says_parse hl hw) ?_
  rintro xs rfl
  exact hw.scalar

/-! ## A file that meets the hypotheses -/

namespace TemplateSectionExample

def vars : List (Str × PyVal) := [(§"ver", .str §"1.2")]

def reqs : List Doc :=
  [ block §"build" [] [item §"{{ compiler('c') }}" (.str §"{{ compiler('c') }}") §"# [linux]"],
    block §"run" [] [item §"a >={{ ver }}" (.str §"a >={{ ver }}") [], comment §"# c", item §"b" (.str §"b") []] ]

def file : List Doc :=
  [ block §"package" [] [scalar §"name" §"p" (.str §"p") []], block §"requirements" [] reqs ]

def opened : Recipe :=
  match Recipe.ofString Toy.env (recipeText vars file) with
  | .ok o => o
  | .error _ => ⟨[], {}, .v0, [], [], false⟩

theorem writable : Writable Toy.env vars := ⟨by decide +kernel, by decide +kernel, by decide +kernel, by decide +kernel, by decide +kernel⟩
theorem document : Document Toy.env file := documentB_sound (by decide +kernel)
theorem opened_ok : (Recipe.ofString Toy.env (recipeText vars file)).toOption.isSome = true := by decide +kernel
theorem old_format : opened.schema = .v0 := by decide +kernel
theorem opened_eq : Recipe.ofString Toy.env (recipeText vars file) = .ok opened := by
  unfold opened
  have := opened_ok
  cases h : Recipe.ofString Toy.env (recipeText vars file) with
  | error e => rw [h] at this; cases this
  | ok o => rfl

def compiler : List Seg := [.hole §" " (.other §"compiler('c')") §" "]
def version : List Seg := [.text §"a >=", .hole §" " (.access §"ver" none .none [] []) §" "]
/-- The text of the section. -/
def segs : List Seg :=
  [.text §"build:\n  - ", .hole §" " (.other §"compiler('c')") §" ", .text §"  # [linux]\n\nrun:\n  - a >=",
   .hole §" " (.access §"ver" none .none [] []) §" ", .text §"\n  # c\n  - b\n"]

def raw : PyVal := .dict [(§"build", .list [.str §"{{ compiler('c') }}"]), (§"run", .list [.str §"a >={{ ver }}", .str §"b"])]
def value : PyVal := .dict [(§"build", .list [.str §"${{ compiler('c') }}"]), (§"run", .list [.str §"a >=1.2", .str §"b"])]

theorem hides_compiler (n : Nat) : Hides (n + 1) (.str §"{{ compiler('c') }}") (.str (hidden compiler)) [§"{{ compiler('c') }}"] :=
  .text (segs := compiler) (segB_sound (E := Toy.env) (vars := vars) (by decide +kernel)).1
    ⟨by decide, by decide, by rintro c ⟨⟩; decide⟩ (by decide +kernel)
theorem hides_version (n : Nat) : Hides (n + 1) (.str §"a >={{ ver }}") (.str (hidden version)) [§"{{ ver }}"] :=
  .text (segs := version) (segB_sound (E := Toy.env) (vars := vars) (by decide +kernel)).1
    ⟨by decide, by decide, by rintro c ⟨⟩; decide⟩ (by decide +kernel)
theorem hides_plain (n : Nat) : Hides (n + 1) (.str §"b") (.str §"b") [] :=
  .text (segs := [.text §"b"]) (segB_sound (E := Toy.env) (vars := vars) (by decide +kernel)).1
    ⟨by decide, by decide, by rintro c ⟨⟩; decide⟩ (by decide +kernel)

/-- YAML refuses the section because of the first expression, and reads it with placeholders. -/
theorem read : ReadsText Toy.env (text reqs) raw := by
  have ht : text reqs = source .v0 segs := rfl
  rw [ht]
  refine .placeholders (segB_sound (E := Toy.env) (vars := vars) (by decide +kernel)).1 ⟨_, _, _, .tail _ (.head _)⟩
    (e := .yamlError) (by decide +kernel)
    (v' := .dict [(§"build", .list [.str (hidden compiler)]), (§"run", .list [.str (hidden version), .str §"b"])]) (by decide +kernel) ?_
  refine .dict (n := 49) [(§"build", .list [.str §"{{ compiler('c') }}"], .list [.str (hidden compiler)], [§"{{ compiler('c') }}"]),
    (§"run", .list [.str §"a >={{ ver }}", .str §"b"], .list [.str (hidden version), .str §"b"], [§"{{ ver }}"])] ?_
  intro x hx
  simp only [List.mem_cons, List.not_mem_nil, or_false] at hx
  rcases hx with rfl | rfl
  · refine .list (n := 48) [(.str §"{{ compiler('c') }}", .str (hidden compiler), [§"{{ compiler('c') }}"])] ?_
    intro x hx
    rw [List.mem_singleton.1 hx]
    exact hides_compiler 47
  · refine .list (n := 48) [(.str §"a >={{ ver }}", .str (hidden version), [§"{{ ver }}"]), (.str §"b", .str §"b", [])] ?_
    intro x hx
    simp only [List.mem_cons, List.not_mem_nil, or_false] at hx
    rcases hx with rfl | rfl
    · exact hides_version 47
    · exact hides_plain 47

def after : PyVal → PyVal
  | .str t => if t = §"a >={{ ver }}" then .str §"a >=1.2" else if t = §"{{ compiler('c') }}" then .str §"${{ compiler('c') }}" else .str t
  | v => v

theorem filled : Filled Toy.env .v0 vars Toy.env.recLimit raw value := by
  refine .dict (n := 49) (kvs := [(§"build", .list [.str §"{{ compiler('c') }}"]), (§"run", .list [.str §"a >={{ ver }}", .str §"b"])])
    (fun kv => match kv.2 with | .list xs => .list (xs.map after) | v => v) ?_
  have h1 : Filled Toy.env .v0 vars 48 (.str §"{{ compiler('c') }}") (after (.str §"{{ compiler('c') }}")) :=
    .text (n := 47) ⟨compiler, rfl, segB_sound (by decide +kernel), .inl ⟨_, _, _, .head _⟩, by decide +kernel⟩ trivial
  have h2 : Filled Toy.env .v0 vars 48 (.str §"a >={{ ver }}") (after (.str §"a >={{ ver }}")) :=
    .text (n := 47) ⟨version, rfl, segB_sound (by decide +kernel), .inl ⟨_, _, _, .tail _ (.head _)⟩, by decide +kernel⟩ trivial
  have h3 : Filled Toy.env .v0 vars 48 (.str §"b") (after (.str §"b")) :=
    .text (n := 47) (fills_plain (by decide) ⟨by decide, by decide, by rintro c ⟨⟩; decide⟩ (by decide +kernel)) trivial
  intro kv hkv
  simp only [List.mem_cons, List.not_mem_nil, or_false] at hkv
  rcases hkv with rfl | rfl
  · refine .list (n := 48) (xs := [.str §"{{ compiler('c') }}"]) after ?_
    intro x hx
    rw [List.mem_singleton.1 hx]
    exact h1
  · refine .list (n := 48) (xs := [.str §"a >={{ ver }}", .str §"b"]) after ?_
    intro x hx
    simp only [List.mem_cons, List.not_mem_nil, or_false] at hx
    rcases hx with rfl | rfl
    · exact h2
    · exact h3

theorem place : LeadsTo [§"requirements"] file (block §"requirements" [] reqs) :=
  .here (pre := [block §"package" [] [scalar §"name" §"p" (.str §"p") []]]) (post := [])
    (by unfold Picks; rw [if_neg (by decide)]; exact ⟨rfl, by simp [Fresh, node]⟩)

theorem both (r : Recipe) (h : Recipe.ofString Toy.env (recipeText vars file) = .ok r) (hs : r.schema = .v0) :
    r.getValue Toy.env §"/requirements" none false = .ok raw ∧ r.getValue Toy.env §"/requirements" none true = .ok value :=
  C111_section_partial Toy.env vars vars file file r [] [§"requirements"] _ _ _ raw value none writable document h hs .nil document.1
    (by decide) place (by intro vt v c' hd; cases hd) (by intro a b hd; cases hd) read filled

example : opened.getValue Toy.env §"/requirements" none true = .ok value := (both opened opened_eq old_format).2

end TemplateSectionExample

end Crm
