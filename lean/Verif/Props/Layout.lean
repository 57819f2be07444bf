import Verif.Lemmas.LayoutVars
import Verif.Props.RoundTrip
import Verif.Props.FileSession
import Verif.Spec.Layout

/-!
# C31: recipe files as people write them

`Spec/Layout.lean` says which lines are a way of writing a document: any white space within lines, quotes, blank lines, definitions
between the lines, remarks to Jinja.  Opening such a file gives the recipe of the document.
-/

namespace Crm
open Spec Doc

/-- The tree and the variables of a file. -/
theorem free_file_is_read (E : Env) (vars : List (Str × PyVal)) (ds : List Doc) (fs : List Str) (ho : OkL E ds)
    (hf : FreeFile E vars ds fs) : parseTree E (fileText fs) = .ok (Doc.root ds) ∧ initVarsV0 E (fileText fs) = vars := by
  obtain ⟨⟨defs, ls, h1, h2, rfl⟩, hd, hc⟩ := hf
  have hone := oneLine_file h1
  constructor
  · unfold parseTree
    rw [sub_file h1, splitlines_file ls fun l hl => (hone l hl).1]
    have h0 : At (⟨{ value := .str rootValue }, [[]], 0, []⟩ : Build) [[]] := ⟨rfl, List.suffix_refl _⟩
    have hread := read_laidL E ds ho ls ⟨{ value := .str rootValue }, [[]], 0, []⟩ [] [] _ [] h2 hone h0.ready rfl
      (fun he => by rw [hc] at he; cases he)
    obtain ⟨b', f', _, he, hb', _⟩ := hread ls.length (by simp)
    rw [List.append_nil] at he
    simp only [he]
    have hend : buildLoop E f' [] b' = .ok b' := by cases f' <;> rfl
    simp only [hend, bind, Except.bind, hb']
    simp [updateAt, addKids, Doc.root, rootValue]
  · refine initVars_file E h1 ?_
    rw [List.map_map] at hd
    exact hd

/-- C31: the layout of a file does not matter: opening any way of writing a document does what opening the canonical text of the
document does, with the same error or the same recipe. -/
theorem C31_layout_does_not_matter_partial (E : Env) (vars : List (Str × PyVal)) (ds : List Doc) (fs : List Str)
    (hv : Writable E vars) (h : Document E ds) (hf : FreeFile E vars ds fs) :
    Recipe.ofString E (fileText fs) = (Recipe.ofString E (recipeText vars ds)).map fun r => { r with init := fileText fs } := by
  obtain ⟨a1, a2⟩ := free_file_is_read E vars ds fs h.1 hf
  obtain ⟨b1, b2⟩ := C31_recipe_text_is_read E vars ds hv h
  unfold Recipe.ofString
  rw [a1, a2, b1, b2]
  simp only [bind, Except.bind]
  cases getValueIn E (root ds) §"/schema_version" (some (.int 0)) with
  | error e => rfl
  | ok sv =>
    simp only
    cases schemaOf sv with
    | v0 => rfl
    | v1 =>
      simp only
      cases getValueIn E (root ds) §"/context" (some (.dict [])) <;> rfl

theorem free_file_opened {E : Env} {vars : List (Str × PyVal)} {ds : List Doc} {fs : List Str} {r : Recipe} (ho : OkL E ds)
    (hf : FreeFile E vars ds fs) (hr : Recipe.ofString E (fileText fs) = .ok r) :
    r.root = root ds ∧ (r.schema = .v0 → r.vars = vars) := by
  obtain ⟨h1, h2⟩ := free_file_is_read E vars ds fs ho hf
  obtain ⟨rt, sv, e1, _, _, e3, e4, _, _, e5, _⟩ := ofString_parts hr
  rw [h1] at e1
  injection e1 with e1
  refine ⟨by rw [e3, ← e1], fun hs => ?_⟩
  rw [e5 (e4 ▸ hs), h2]

/-- C31: opening any way of writing a document and saving it gives the canonical text of the document. -/
theorem C31_free_layout_partial (E : Env) (vars : List (Str × PyVal)) (ds : List Doc) (fs : List Str) (r : Recipe) (ho : OkL E ds)
    (hf : FreeFile E vars ds fs) (hr : Recipe.ofString E (fileText fs) = .ok r) (hs : r.schema = .v1 → vars = []) :
    r.root = root ds ∧ (r.schema = .v0 → r.vars = vars) ∧ r.render = recipeText vars ds := by
  obtain ⟨h1, h2⟩ := free_file_opened ho hf hr
  refine ⟨h1, h2, ?_⟩
  rw [C31_render E r ds h1 ho]
  cases hc : r.schema with
  | v0 => rw [if_pos rfl, h2 hc]
  | v1 => rw [if_neg (by decide), hs hc]

/-- C31: saving and opening again gives the recipe that was opened: tree, comments, format version, variables and selectors. -/
theorem C31_free_layout_round_trip_partial (E : Env) (vars : List (Str × PyVal)) (ds : List Doc) (fs : List Str) (r : Recipe)
    (hv : Writable E vars) (h : Document E ds) (hf : FreeFile E vars ds fs) (hr : Recipe.ofString E (fileText fs) = .ok r) :
    Recipe.ofString E r.render = .ok { r with init := r.render } := by
  obtain ⟨h1, h2⟩ := free_file_opened h.1 hf hr
  exact C31_round_trip_partial E _ r ds hr h1 h fun hs => (h2 hs).symm ▸ hv

/-- C103: a session of edits on a file in any layout is saved as the canonical text of the edited document, and opening that text
gives a recipe that answers everything as the recipe in memory does. -/
theorem C103_session_from_free_layout_partial (E : Env) (vars vars' : List (Str × PyVal)) (ds ds' : List Doc) (fs : List Str) (r : Recipe)
    (calls : List Call) (hv : Writable E vars) (h : Document E ds) (hf : FreeFile E vars ds fs)
    (hr : Recipe.ofString E (fileText fs) = .ok r) (hs : r.schema = .v1 → vars = [] ∧ ∀ c ∈ calls, changesVariables c = false)
    (he : FileSession E r.schema calls vars ds vars' ds') (ho : OkL E ds') :
    (performAll E r calls).render = recipeText vars' ds' ∧
      (Writable E vars' → Document E ds' → SameFormat ds ds' → ReadBackSel E (performAll E r calls)) := by
  obtain ⟨t2, t3⟩ := free_file_opened h.1 hf hr
  obtain ⟨⟨a1, a2, a3, a4, a5⟩, b2⟩ := holds_session (r₀ := r) he (r := r) ⟨t2, rfl, t3, fun _ => rfl, C19_initially E _ r hr⟩
    fun hc => (hs hc).2
  have htext : (performAll E r calls).render = recipeText vars' ds' := by
    rw [shows_render a1 (shows_nodes ds') ho]
    cases hc : (performAll E r calls).schema with
    | v0 => rw [if_pos rfl, a3 hc]
    | v1 =>
      rw [a2] at hc
      rw [if_neg (by decide), b2 hc, (hs hc).1]
  refine ⟨htext, ?_⟩
  intro hv' h' hsame
  rw [C31_layout_does_not_matter_partial E vars ds fs hv h hf] at hr
  cases hr0 : Recipe.ofString E (recipeText vars ds) with
  | error e => rw [hr0] at hr; cases hr
  | ok r0 =>
    rw [hr0] at hr
    injection hr with hr
    have s1 : r0.schema = r.schema := by rw [← hr]
    have s2 : r0.vars = r.vars := by rw [← hr]
    obtain ⟨r2, c1, c2, c3, c4, c5, c6⟩ := open_session hv hv' h h' hr0 hsame fun hc => (b2 (s1 ▸ hc)).symm
    rw [s1] at c3 c4 c5
    rw [s2] at c5
    have q1 : (performAll E r calls).root = r2.root := by rw [a1, c2]
    have q2 : (performAll E r calls).vars = r2.vars := by
      cases hc : r.schema with
      | v0 => rw [c4 hc, a3 (a2.trans hc)]
      | v1 => rw [c5 hc, a4 (a2.trans hc)]
    have q3 : (performAll E r calls).schema = r2.schema := by rw [a2, c3]
    exact ⟨r2, by rw [htext]; exact c1, same_answers q1 q2 q3 E, same_render q1 q2 q3, agrees_selectors a5 (by rw [c6, q1])⟩

/-- C105: after a session of edits on a file in any layout, `get_value` gives what the edited document says. -/
theorem C105_value_from_free_layout_partial (E : Env) (vars vars' : List (Str × PyVal)) (ds ds' : List Doc) (fs : List Str) (r : Recipe)
    (calls : List Call) (path : List Str) (d : Doc) (w : PyVal) (sub : Bool) (dflt : Option PyVal) (h : OkL E ds)
    (hf : FreeFile E vars ds fs) (hr : Recipe.ofString E (fileText fs) = .ok r)
    (hs : r.schema = .v1 → ∀ c ∈ calls, changesVariables c = false)
    (he : FileSession E r.schema calls vars ds vars' ds') (ho : OkL E ds')
    (hp : ∀ x ∈ path, Component x) (hl : LeadsTo path ds' d)
    (hw : WrittenValue E (if sub then some ⟨r.schema, if r.schema = .v0 then vars' else r.vars⟩ else none) d w) :
    (performAll E r calls).getValue E (absPath path) dflt sub = .ok w := by
  obtain ⟨t2, t3⟩ := free_file_opened h hf hr
  obtain ⟨⟨a1, a2, a3, a4, _⟩, _⟩ := holds_session (r₀ := r) he (r := r) ⟨t2, rfl, t3, fun _ => rfl, C19_initially E _ r hr⟩ hs
  refine value_in_tree sub dflt a1 ho hp hl ?_
  have : (performAll E r calls).ctx = ⟨r.schema, if r.schema = .v0 then vars' else r.vars⟩ := by
    unfold Recipe.ctx
    rw [a2]
    cases hc : r.schema with
    | v0 => rw [if_pos rfl, a3 (a2.trans hc)]
    | v1 => rw [if_neg (by decide), a4 (a2.trans hc)]
  rw [this]
  exact hw

/-- C104: after a session of edits on a file in any layout, `get_all_dependencies` reports the lines of the edited document. -/
theorem C104_from_free_layout_partial (E : Env) (M : Str → Option Str) (vars vars' : List (Str × PyVal)) (ds ds' : List Doc)
    (fs : List Str) (r : Recipe) (calls : List Call) (tbl : List (PyVal × Str)) (reqs : Str → List Doc)
    (d : Str → List (Str × PyVal)) (fill : Str → Str) (h : OkL E ds) (hf : FreeFile E vars ds fs)
    (hr : Recipe.ofString E (fileText fs) = .ok r) (hs : r.schema = .v1 → ∀ c ∈ calls, changesVariables c = false)
    (he : FileSession E r.schema calls vars ds vars' ds') (ho : OkL E ds')
    (ht : (performAll E r calls).packageNamesToPath E = .ok tbl)
    (hreq : ∀ e ∈ tbl, RequirementsOf ds' e.2 (reqs e.2) ∧ YamlReads E (reqs e.2) (d e.2) ∧
      ∃ w, Filled E r.schema (if r.schema = .v0 then vars' else r.vars) E.recLimit (.dict (d e.2)) w)
    (hfill : ∀ e ∈ tbl, ∀ l ∈ dependencyLines (reqs e.2),
      Fills E r.schema (if r.schema = .v0 then vars' else r.vars) l.text (.str (fill l.text))) :
    (performAll E r calls).getAllDependencies E M = .ok (tbl.map fun e => (e.1,
      (dependencyLines (reqs e.2)).filterMap (reportedLine M (decide (r.schema = .v1)) fill e.2 e.1) ++
        if e.2 = §"/" then []
        else (dependencyLines (reqs §"/")).filterMap (reportedLine M (decide (r.schema = .v1)) fill §"/" e.1))) := by
  obtain ⟨t2, t3⟩ := free_file_opened h hf hr
  obtain ⟨⟨a1, a2, a3, a4, _⟩, _⟩ := holds_session (r₀ := r) he (r := r) ⟨t2, rfl, t3, fun _ => rfl, C19_initially E _ r hr⟩ hs
  have hvars : (performAll E r calls).vars = if r.schema = .v0 then vars' else r.vars := by
    cases hc : r.schema with
    | v0 => rw [if_pos rfl, a3 (a2.trans hc)]
    | v1 => rw [if_neg (by decide), a4 (a2.trans hc)]
  rw [← a2]
  exact dependencies_in_tree E M ds' _ tbl reqs d fill a1 ho ht (by rw [a2, hvars]; exact hreq) (by rw [a2, hvars]; exact hfill)

/-! ## A file that meets the hypotheses -/

namespace LayoutExample

def isEntry : Doc → Bool
  | comment _ => false
  | multi _ _ _ _ => false
  | _ => true

def commentedB (base gap body c : Str) : Bool :=
  (c == [] && body == base) || (c.head? == some '#' && gap != [] && gap.all isSpace && body == base ++ gap ++ c)

theorem commentedB_sound {base gap body c : Str} (h : commentedB base gap body c = true) : Commented base body c := by
  simp only [commentedB, Bool.or_eq_true, Bool.and_eq_true, beq_iff_eq, bne_iff_ne, List.all_eq_true] at h
  rcases h with ⟨h1, h2⟩ | ⟨⟨⟨h1, h2⟩, h3⟩, h4⟩
  · exact Or.inl ⟨h1, h2⟩
  · cases c with
    | nil => cases h1
    | cons x t =>
      simp only [List.head?_cons, Option.some.injEq] at h1
      exact Or.inr ⟨gap, t, by rw [h1], h2, h3, h4⟩

/-- A line: indentation, text, white space and comment, white space. -/
def entryB (level : Nat) (d : Doc) (base gap body tail line : Str) : Bool :=
  isEntry d && commentedB base gap body d.trail && (base != []) && (strip base == base) && noTrailB base && (base.head? != some '#') &&
    (strip body == body) && noMarkerB body && readsB Toy.env body d && tail.all isSpace && (line == ind level ++ body ++ tail)

theorem entryB_sound {level : Nat} {d : Doc} {base gap body tail line : Str} (h : entryB level d base gap body tail line = true) :
    FreeLine Toy.env level d line := by
  simp only [entryB, Bool.and_eq_true, beq_iff_eq, bne_iff_ne, List.all_eq_true] at h
  obtain ⟨⟨⟨⟨⟨⟨⟨⟨⟨⟨h1, h2⟩, h3⟩, h4⟩, h5⟩, h6⟩, h7⟩, h8⟩, h9⟩, h10⟩, h11⟩ := h
  refine ⟨body, tail, h11, h10, .entry ?_ ?_ (commentedB_sound h2) h3 h4 (noTrailB_sound h5) ?_ h7 (noMarkerB_sound h8) (readsB_sound h9)⟩
  · cases d <;> first | rfl | cases h1
  · rintro k m c b rfl; cases h1
  · rintro u rfl; exact h6 rfl

def vars : List (Str × PyVal) := [(§"name", .str §"foo"), (§"n", .int 3)]

def doc : List Doc :=
  [ comment §"# A recipe",
    block §"package" [] [scalar §"name" §"foo" (.str §"foo") §"# [win]", scalar §"version" §"1.2" (.flt §"1.2") []],
    block §"build" [] [multi §"script" .pipe [] [§"make", §"make install", []], scalar §"number" §"0" (.int 0) []] ]

/-- The lines below the definitions. -/
def body : List Str :=
  [ §"", §"# A recipe", §"", §"package:   ", §"  name:   'foo' # [win]", §"  version: 1.2", §"", §"  ", §"build:", §"  script:   |",
    §"      make", §"        make install", §"", §"  number: 0    ", §"" ]

def lines : List Str :=
  [ §"{#  how to build foo #}", §"{%set name=\"foo\"%}", §"", §"# A recipe", §"{% set n   = 3   %}", §"", §"package:   ",
    §"  name:   'foo' # [win]", §"  version: 1.2", §"", §"  ", §"build:", §"  script:   |",
    §"      make", §"        make install", §"", §"  number: 0    ", §"" ]

theorem document : Document Toy.env doc := documentB_sound (by decide +kernel)
theorem writable : Writable Toy.env vars := ⟨by decide +kernel, by decide +kernel, by decide +kernel, by decide +kernel, by decide +kernel⟩

theorem oneLineB {l : Str} (h : (l.all (fun c => !isLineBreak c) && !inStr §"{%" l && !inStr §"{#" l) = true) : OneLine l := by
  simp only [Bool.and_eq_true, List.all_eq_true, Bool.not_eq_true'] at h
  exact ⟨h.1.1, h.1.2, h.2⟩

theorem blankB {w : Str} (h : w.all isSpace = true) : Doc.Blank w := by simpa [Doc.Blank] using h

theorem file_lines : FileLines lines [(§"name", §"\"foo\""), (§"n", §"3")] body := by
  refine .remark ⟨§"  how to build foo ", by decide, by decide, by decide⟩ ?_
  refine .defn ⟨⟨[], §" ", [], [], [], ?_⟩, by decide, by decide, by decide, by decide⟩ ?_
  · exact ⟨blankB rfl, blankB rfl, blankB rfl, blankB rfl, blankB rfl, by decide⟩
  refine .line (oneLineB (by decide)) (.line (oneLineB (by decide)) ?_)
  refine .defn ⟨⟨§" ", §" ", §"   ", §" ", §"   ", ?_⟩, by decide, by decide, by decide, by decide⟩ ?_
  · exact ⟨blankB rfl, blankB rfl, blankB rfl, blankB rfl, blankB rfl, by decide⟩
  repeat' first
    | exact .nil
    | refine .line (oneLineB (by decide)) ?_

theorem blank1 : Doc.Blank [] := by intro c hc; cases hc
theorem blank2 : Doc.Blank §"  " := blankB rfl

theorem laid : LaidL Toy.env 0 doc body := by
  refine ⟨[§""], [§"# A recipe"], _, rfl, by simp [blank1], ⟨_, rfl, §"# A recipe", [], rfl, blank1, ?_⟩, by simp [endsInText], ?_⟩
  · exact .comment ⟨_, rfl⟩ (by decide) (noMarkerB_sound (by decide)) (readsB_sound (by decide +kernel))
  refine ⟨[§""], [§"package:   ", §"  name:   'foo' # [win]", §"  version: 1.2"], _, rfl, by simp [blank1],
    ⟨_, _, rfl, entryB_sound (base := §"package:") (gap := []) (body := §"package:") (tail := §"   ") (by decide +kernel), ?_⟩,
    by simp [endsInText, endsInTextL], ?_⟩
  · refine ⟨[], [§"  name:   'foo' # [win]"], _, rfl, by simp, ⟨_, rfl, entryB_sound (base := §"name:   'foo'") (gap := §" ")
      (body := §"name:   'foo' # [win]") (tail := []) (by decide +kernel)⟩, by simp [endsInText], ?_⟩
    exact ⟨[], [§"  version: 1.2"], [], rfl, by simp, ⟨_, rfl, entryB_sound (base := §"version: 1.2") (gap := [])
      (body := §"version: 1.2") (tail := []) (by decide +kernel)⟩, by simp [endsInText], by intro l hl; cases hl⟩
  refine ⟨[§"", §"  "], [§"build:", §"  script:   |", §"      make", §"        make install", §"", §"  number: 0    "], [§""], rfl,
    by simp [blank1, blank2],
    ⟨_, _, rfl, entryB_sound (base := §"build:") (gap := []) (body := §"build:") (tail := []) (by decide +kernel), ?_⟩,
    by simp [endsInText, endsInTextL], by simp [LaidL, blank1]⟩
  refine ⟨[], [§"  script:   |", §"      make", §"        make install", §""], _, rfl, by simp,
    ⟨_, _, rfl, ⟨§"script:   |", [], rfl, blank1, ?_⟩, ?_⟩, ?_, ?_⟩
  · exact .marker (name := §"script") (w := §"   ") (Or.inl ⟨rfl, rfl⟩) (by decide) (blankB rfl) (by decide) (noTrailB_sound (by decide))
      (by intro u hu; cases hu) (by decide) (noMarkerB_sound (by decide)) (readsB_sound (by decide +kernel))
  · refine .cons ⟨by decide, Or.inr ⟨6, §"make", by decide, by decide⟩⟩ (.cons ⟨by decide, Or.inr ⟨8, §"make install", by decide, by decide⟩⟩
      (.cons ⟨by decide, Or.inl rfl⟩ .nil))
  · intro _ l hl
    simp only [List.head?_cons, Option.some.injEq] at hl
    subst hl
    intro hb
    exact absurd (hb 'n' (by simp)) (by decide)
  · exact ⟨[], [§"  number: 0    "], [], rfl, by simp, ⟨_, rfl, entryB_sound (base := §"number: 0") (gap := [])
      (body := §"number: 0") (tail := §"    ") (by decide +kernel)⟩, by simp [endsInText], by intro l hl; cases hl⟩

theorem free_file : FreeFile Toy.env vars doc lines :=
  ⟨⟨_, body, file_lines, laid, by decide +kernel⟩, by decide, by decide⟩

example : fileText lines = §"{#  how to build foo #}
{%set name=\"foo\"%}

# A recipe
{% set n   = 3   %}

package:   
  name:   'foo' # [win]
  version: 1.2

  
build:
  script:   |
      make
        make install

  number: 0    

" := by decide +kernel

def opened : Recipe :=
  match Recipe.ofString Toy.env (fileText lines) with
  | .ok o => o
  | .error _ => ⟨[], {}, .v0, [], [], false⟩

theorem opened_ok : (Recipe.ofString Toy.env (fileText lines)).toOption.isSome = true := by decide +kernel
theorem opened_schema : opened.schema = .v0 := by decide +kernel
theorem opened_eq : Recipe.ofString Toy.env (fileText lines) = .ok opened := by
  unfold opened
  have := opened_ok
  cases h : Recipe.ofString Toy.env (fileText lines) with
  | error e => rw [h] at this; cases this
  | ok o => rfl

example : opened.render = recipeText vars doc :=
  (C31_free_layout_partial Toy.env vars doc lines opened document.1 free_file opened_eq (fun h => by rw [opened_schema] at h; cases h)).2.2

example : recipeText vars doc = §"{% set name = \"foo\" %}
{% set n = 3 %}

# A recipe
package:
  name: foo  # [win]
  version: 1.2

build:
  script: |
    make
    make install

  number: 0
" := by decide +kernel

end LayoutExample

/-! ## Where the full statement fails -/

/-- A list that is not indented below its key, as many recipes write it, becomes entries next to the key. -/
theorem C31_unindented_list_violation :
    (Toy.recipe "a:\n- b\n- c\nd: 1\n").render = §"a:\n\n- b\n\n- c\n\nd: 1\n" ∧
    (Toy.recipe "a:\n- b\n- c\nd: 1\n").getValue Toy.env §"/a/0" (some .none) false = .ok .none ∧
    (Toy.recipe "a:\n  - b\n  - c\nd: 1\n").getValue Toy.env §"/a/0" (some .none) false = .ok (.str §"b") :=
  ⟨by decide +kernel, by decide +kernel, by decide +kernel⟩

/-- Remarks to Jinja are not written back, and the other statements of Jinja neither. -/
theorem C31_remark_is_lost_violation :
    (Toy.recipe "{# why #}\n{% if win %}\na: 1\n{% endif %}\n").render = §"a: 1\n" := by decide +kernel

end Crm
