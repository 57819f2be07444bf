import Verif.Spec.TemplateLine
import Verif.Props.Layout
import Verif.Props.BumpNew

/-!
# Lines of a file that use variables (C111)
-/

namespace Crm
open Spec Spec.Doc

theorem says_parse {E : Env} (hl : 0 < E.recLimit) {v : Schema} {vars : List (Str × PyVal)} {segs : List Seg} {w : PyVal}
    (h : Says E v vars segs w) : parseYaml E (source v segs) (some ⟨v, vars⟩) = .ok w := by
  rcases h.itself with hs | ⟨rfl, ⟨e, he⟩, hm, hh, hq⟩
  · exact parseYaml_direct E ⟨v, vars⟩ hl segs h.template h.expression hs w h.scalar h.loaded
  · rw [parseYaml_hidden E _ hl segs h.template.1 h.expression e he hm hh hq]
    exact subJinja_text E ⟨.v0, vars⟩ hl segs h.template h.expression w h.scalar h.loaded

theorem says_written {E : Env} (hl : 0 < E.recLimit) {v : Schema} {vars : List (Str × PyVal)} {segs : List Seg} {w : PyVal} {d : Doc}
    (ht : LineText d (source v segs)) (h : Says E v vars segs w) : WrittenValue E (some ⟨v, vars⟩) d w := by
  cases ht with
  | scalar => exact .scalarText (says_parse hl h)
  | item => exact .itemText (says_parse hl h)

/-- C111: a line of a file of the old format whose text uses variables is read, with `sub_vars`, as what YAML makes of the text with
every expression replaced by its value under the definitions of the file; after a session of edits, under the definitions as they are
then, which are those of the text that is rendered. -/
theorem C111_definitions_are_used_partial (E : Env) (hl : 0 < E.recLimit) (vars vars' : List (Str × PyVal)) (ds ds' : List Doc)
    (r : Recipe) (calls : List Call) (path : List Str) (d : Doc) (segs : List Seg) (w : PyVal) (dflt : Option PyVal)
    (hv : Writable E vars) (h : Document E ds) (hr : Recipe.ofString E (recipeText vars ds) = .ok r) (hs : r.schema = .v0)
    (he : FileSession E r.schema calls vars ds vars' ds') (ho : OkL E ds') (hp : ∀ x ∈ path, Component x) (hd : LeadsTo path ds' d)
    (ht : LineText d (source .v0 segs)) (hw : Says E .v0 vars' segs w) :
    (performAll E r calls).render = recipeText vars' ds' ∧
      (performAll E r calls).getValue E (absPath path) dflt true = .ok w := by
  have hn : r.schema = .v1 → vars = [] ∧ ∀ c ∈ calls, changesVariables c = false := by rw [hs]; intro hc; cases hc
  refine C105_value_after_session_partial E vars vars' ds ds' r calls path d w true dflt hv h hr hn he ho hp hd ?_
  rw [if_pos rfl, if_pos hs, hs]
  exact says_written hl ht hw

/-- C111: in particular in the file as it is opened. -/
theorem C111_file_partial (E : Env) (hl : 0 < E.recLimit) (vars : List (Str × PyVal)) (ds : List Doc) (r : Recipe) (path : List Str)
    (d : Doc) (segs : List Seg) (w : PyVal) (dflt : Option PyVal) (hv : Writable E vars) (h : Document E ds)
    (hr : Recipe.ofString E (recipeText vars ds) = .ok r) (hs : r.schema = .v0) (hp : ∀ x ∈ path, Component x)
    (hd : LeadsTo path ds d) (ht : LineText d (source .v0 segs)) (hw : Says E .v0 vars segs w) :
    r.getValue E (absPath path) dflt true = .ok w :=
  (C111_definitions_are_used_partial E hl vars vars ds ds r [] path d segs w dflt hv h hr hs .nil h.1 hp hd ht hw).2

/-- C111: the same for a file in any layout. -/
theorem C111_definitions_in_free_layout_partial (E : Env) (hl : 0 < E.recLimit) (vars vars' : List (Str × PyVal)) (ds ds' : List Doc)
    (fs : List Str) (r : Recipe) (calls : List Call) (path : List Str) (d : Doc) (segs : List Seg) (w : PyVal) (dflt : Option PyVal)
    (h : OkL E ds) (hf : FreeFile E vars ds fs) (hr : Recipe.ofString E (fileText fs) = .ok r) (hs : r.schema = .v0)
    (he : FileSession E r.schema calls vars ds vars' ds') (ho : OkL E ds') (hp : ∀ x ∈ path, Component x) (hd : LeadsTo path ds' d)
    (ht : LineText d (source .v0 segs)) (hw : Says E .v0 vars' segs w) :
    (performAll E r calls).getValue E (absPath path) dflt true = .ok w := by
  have hn : r.schema = .v1 → ∀ c ∈ calls, changesVariables c = false := by rw [hs]; intro hc; cases hc
  refine C105_value_from_free_layout_partial E vars vars' ds ds' fs r calls path d w true dflt h hf hr hn he ho hp hd ?_
  rw [if_pos rfl, if_pos hs, hs]
  exact says_written hl ht hw

/-- C111: `set_variable` on a variable of the file: every line that uses it is read with the new value. -/
theorem C111_after_set_variable_partial (E : Env) (hl : 0 < E.recLimit) (pre post : List (Str × PyVal)) (x : Str) (old new : PyVal)
    (ds : List Doc) (r : Recipe) (path : List Str) (d : Doc) (segs : List Seg) (w : PyVal) (dflt : Option PyVal)
    (hx : ∀ e ∈ pre, e.1 ≠ x) (hv : Writable E (pre ++ (x, old) :: post)) (h : Document E ds)
    (hr : Recipe.ofString E (recipeText (pre ++ (x, old) :: post) ds) = .ok r) (hs : r.schema = .v0)
    (hp : ∀ c ∈ path, Component c) (hd : LeadsTo path ds d) (ht : LineText d (source .v0 segs))
    (hw : Says E .v0 (pre ++ (x, new) :: post) segs w) :
    (r.setVariable x new).getValue E (absPath path) dflt true = .ok w :=
  (C111_definitions_are_used_partial E hl _ _ ds ds r [.setVariable x new] path d segs w dflt hv h hr hs
    (.cons (.setVariable x new (.change pre old post hx)) .nil) h.1 hp hd ht hw).2

/-- C111: a text of several lines is evaluated as a whole, header included. -/
theorem C111_block_text_partial (E : Env) (vars vars' : List (Str × PyVal)) (ds ds' : List Doc) (r : Recipe) (calls : List Call)
    (path : List Str) (k : Str) (m : Multiline) (c : Str) (body : List Str) (segs : List Seg) (w : PyVal) (dflt : Option PyVal)
    (hv : Writable E vars) (h : Document E ds) (hr : Recipe.ofString E (recipeText vars ds) = .ok r) (hs : r.schema = .v0)
    (he : FileSession E r.schema calls vars ds vars' ds') (ho : OkL E ds') (hp : ∀ x ∈ path, Component x)
    (hd : LeadsTo path ds' (multi k m c body)) (ht : m.text ++ §"\n  " ++ joinStr §"\n  " body = source .v0 segs)
    (htm : Template E vars' segs) (hw : E.load (substituted E .v0 vars' segs) = .ok w) :
    (performAll E r calls).getValue E (absPath path) dflt true = .ok w := by
  have hn : r.schema = .v1 → vars = [] ∧ ∀ c ∈ calls, changesVariables c = false := by rw [hs]; intro hc; cases hc
  refine (C105_value_after_session_partial E vars vars' ds ds' r calls path _ w true dflt hv h hr hn he ho hp hd ?_).2
  rw [if_pos rfl, if_pos hs, hs]
  refine .multiFilled (j := ⟨.v0, vars'⟩) ?_ rfl
  rw [ht]
  exact (renderJinjaVars_segs E ⟨.v0, vars'⟩ segs htm).trans hw

/-- The variables of a new-format recipe. -/
theorem new_format_vars {E : Env} {content : Str} {r : Recipe} {kvs : List (Str × PyVal)} (hr : Recipe.ofString E content = .ok r)
    (hs : r.schema = .v1) (h : r.getValue E §"/context" (some (.dict [])) = .ok (.dict kvs)) : r.vars = kvs := by
  unfold Recipe.ofString at hr
  simp only [bind, Except.bind] at hr
  split at hr
  · cases hr
  rename_i root _
  split at hr
  · cases hr
  rename_i sv _
  cases hsv : schemaOf sv with
  | v0 =>
    rw [hsv] at hr
    injection hr with hr
    subst hr
    cases hs
  | v1 =>
    rw [hsv] at hr
    simp only at hr
    split at hr
    · cases hr
    rename_i v hv
    injection hr with hr
    subst hr
    unfold Recipe.getValue at h
    simp only [Bool.false_eq_true, if_false] at h
    rw [hv] at h
    injection h with h
    subst h
    rfl

/-- C111: a line of a file of the new format is read with the variables of its `context` section, as YAML reads them there. -/
theorem C111_context_is_used_partial (E : Env) (hl : 0 < E.recLimit) (ds : List Doc) (r : Recipe) (c : Str) (cs : List Doc)
    (kvs : List (Str × PyVal)) (path : List Str) (d : Doc) (segs : List Seg) (w : PyVal) (dflt : Option PyVal)
    (h : Document E ds) (hr : Recipe.ofString E (recipeText [] ds) = .ok r) (hs : r.schema = .v1)
    (hc : LeadsTo [§"context"] ds (block §"context" c cs)) (hkeys : ∀ d, cs = [d] → d.isElement = false)
    (hread : E.load (text cs) = .ok (.dict kvs)) (hp : ∀ x ∈ path, Component x) (hd : LeadsTo path ds d)
    (ht : LineText d (source .v1 segs)) (hw : Says E .v1 kvs segs w) :
    r.vars = kvs ∧ r.getValue E (absPath path) dflt true = .ok w := by
  have hv : r.vars = kvs := by
    refine new_format_vars hr hs ?_
    refine (C105_value_partial E [] ds r [§"context"] _ (.dict kvs) false (some (.dict [])) (by constructor <;> simp) h hr (fun _ => rfl)
      (by decide) hc (.block hkeys ?_)).1
    exact parseYaml_ok hread
  refine ⟨hv, (C105_value_partial E [] ds r path d w true dflt (by constructor <;> simp) h hr (fun _ => rfl) hp hd ?_).1⟩
  rw [if_pos rfl, hs, hv]
  exact says_written hl ht hw

/-! ## Files that meet the hypotheses -/

namespace TemplateLineExample

def segs : List Seg := [.text §"a >=", .hole §" " (.access §"ver" none .none [] []) §" "]

theorem says0 : Says Toy.env .v0 FileDepsExample.vars0 segs (.str §"a >=0") :=
  ⟨segB_sound (by decide +kernel), ⟨_, _, _, List.mem_cons_of_mem _ List.mem_cons_self⟩, trivial, by decide +kernel,
    Or.inl (by decide +kernel)⟩
theorem says : Says Toy.env .v0 FileDepsExample.vars segs (.str §"a >=1.2") :=
  ⟨segB_sound (by decide +kernel), ⟨_, _, _, List.mem_cons_of_mem _ List.mem_cons_self⟩, trivial, by decide +kernel,
    Or.inl (by decide +kernel)⟩

theorem line (b : Doc) : LeadsTo [§"requirements", §"run", §"0"]
    [block §"package" [] [scalar §"name" §"p" (.str §"p") []], block §"requirements" [] FileDepsExample.top, b]
    (item §"a >={{ ver }}" (.str §"a >={{ ver }}") §"# [osx] why") :=
  .key (k := §"requirements") (pre := [block §"package" [] [scalar §"name" §"p" (.str §"p") []]]) (c := []) (cs := FileDepsExample.top) (post := [b])
    (by unfold Picks; rw [if_neg (by decide)]; exact ⟨rfl, by simp [Fresh, node]⟩)
    (.key (k := §"run") (pre := [block §"host" [] [item §"h" (.str §"h") []]]) (c := [])
      (cs := [comment §"# c", item §"a >={{ ver }}" (.str §"a >={{ ver }}") §"# [osx] why", item §"b" (.str §"b") []]) (post := [])
      (by unfold Picks; rw [if_neg (by decide)]; exact ⟨rfl, by simp [Fresh, node]⟩)
      (.here (pre := [comment §"# c"]) (post := [item §"b" (.str §"b") []])
        (by unfold Picks; rw [if_pos (by decide)]; exact ⟨rfl, by decide⟩)))

/-- The line in the file, and after the variable has been set and a selector added elsewhere. -/
example : FileDepsExample.opened0.getValue Toy.env §"/requirements/run/0" none true = .ok (.str §"a >=0") :=
  C111_file_partial Toy.env (by decide) _ _ FileDepsExample.opened0 [§"requirements", §"run", §"0"] _ segs _ none
    FileDepsExample.writable0 FileDepsExample.document0 FileDepsExample.opened0_eq FileDepsExample.old_format0 (by decide) (line _) .item
    says0
example : (performAll Toy.env FileDepsExample.opened0 FileDepsExample.calls).getValue Toy.env §"/requirements/run/0" none true =
    .ok (.str §"a >=1.2") :=
  (C111_definitions_are_used_partial Toy.env (by decide) _ _ _ _ FileDepsExample.opened0 FileDepsExample.calls
    [§"requirements", §"run", §"0"] _ segs _ none FileDepsExample.writable0 FileDepsExample.document0 FileDepsExample.opened0_eq
    FileDepsExample.old_format0 FileDepsExample.session FileDepsExample.document.1 (by decide) (line _) .item says).2
example : (FileDepsExample.opened0.setVariable §"ver" (.str §"1.2")).getValue Toy.env §"/requirements/run/0" none true =
    .ok (.str §"a >=1.2") :=
  C111_after_set_variable_partial Toy.env (by decide) [] [] §"ver" (.str §"0") (.str §"1.2") _ FileDepsExample.opened0
    [§"requirements", §"run", §"0"] _ segs _ none (by simp) FileDepsExample.writable0 FileDepsExample.document0
    FileDepsExample.opened0_eq FileDepsExample.old_format0 (by decide) (line _) .item says

def nameSegs : List Seg := [.hole §" " (.access §"name" none .none [] []) §" "]

/-- A file of the new format. -/
example : (BumpNewExample.recipe BumpNewExample.d0).getValue Toy.env §"/package/name" none true = .ok (.str §"p") := by
  have h := BumpNewExample.opened0
  refine (C111_context_is_used_partial Toy.env (by decide) BumpNewExample.d0 _ [] [scalar §"name" §"p" (.str §"p") §"# why"]
    [(§"name", .str §"p")] [§"package", §"name"] (scalar §"name" §"${{ name }}" (.str §"${{ name }}") []) nameSegs _ none h.1 h.2 h.3
    (.here (pre := [scalar §"schema_version" §"1" (.int 1) []])
      (post := [BumpNewExample.pkg §"1.0.0", BumpNewExample.src [], BumpNewExample.bld §"5" 5])
      (by unfold Picks; rw [if_neg (by decide)]; exact ⟨rfl, by simp [Fresh, node]⟩))
    (by rintro d hd; injection hd with hd; subst hd; rfl) (by decide +kernel) (by decide)
    (.key (k := §"package") (pre := BumpNewExample.front) (c := []) (post := [BumpNewExample.src [], BumpNewExample.bld §"5" 5])
      (by unfold Picks; rw [if_neg (by decide)]; exact ⟨rfl, by simp [Fresh, node, BumpNewExample.front]⟩)
      (.here (pre := []) (post := [scalar §"version" §"1.0.0" (.str §"1.0.0") []])
        (by unfold Picks; rw [if_neg (by decide)]; exact ⟨rfl, by simp [Fresh]⟩)))
    .scalar ?_).2
  exact ⟨segB_sound (by decide +kernel), ⟨_, _, _, List.mem_cons_self⟩, trivial, by decide +kernel, Or.inl (by decide +kernel)⟩

end TemplateLineExample

end Crm
