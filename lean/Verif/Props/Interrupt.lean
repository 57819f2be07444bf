import Verif.Spec.Interrupt
import Verif.Props.FreeSession
import Verif.Props.Commute

/-!
# C118: The work can be interrupted

Saving a recipe and opening the file again between two calls makes no difference to the calls that follow.
-/

namespace Crm
open Spec Doc

/-! ## Lemmas -/

/-- Two outcomes with the same answer and the same content. -/
structure Alike {α : Type} (x y : Outcome α) : Prop where
  answer : y.1 = x.1
  content : Restored x.2 y.2

theorem patch_alike (E : Env) {r r' : Recipe} (h : Restored r r') (p : PyVal) : Alike (r.patch E p) (r'.patch E p) := by
  unfold Recipe.patch
  rw [h.lines]
  split
  · exact ⟨rfl, h⟩
  · split
    · dsimp only
      split
      · exact ⟨rfl, h⟩
      · split
        · split
          · exact ⟨rfl, restored_of rfl h.variables h.format⟩
          · exact ⟨rfl, restored_of rfl h.variables h.format⟩
        · exact ⟨rfl, restored_of rfl h.variables h.format⟩
    · exact ⟨rfl, h⟩

theorem searchGo_alike (E : Env) (d : List (Str × PyVal)) : ∀ (paths : List Str) (b : Bool) {r r' : Recipe}, Restored r r' →
    Alike (Recipe.searchAndPatchGo E d paths r b) (Recipe.searchAndPatchGo E d paths r' b)
  | [], _, _, _, h => ⟨rfl, h⟩
  | path :: rest, b, r, r', h => by
    have hp : Alike (Recipe.patchIf E d r b path) (Recipe.patchIf E d r' b path) := by
      unfold Recipe.patchIf
      split
      · exact patch_alike E h _
      · exact ⟨rfl, h⟩
    simp only [Recipe.searchAndPatchGo]
    generalize Recipe.patchIf E d r b path = x at hp
    generalize Recipe.patchIf E d r' b path = y at hp
    obtain ⟨x1, x2⟩ := x
    obtain ⟨y1, y2⟩ := y
    obtain ⟨h1, h2⟩ := hp
    have h1 : y1 = x1 := h1
    subst h1
    cases y1 with
    | error e => exact ⟨rfl, h2⟩
    | ok b' => exact searchGo_alike E d rest b' h2

theorem addSelector_alike {r r' : Recipe} (h : Restored r r') (path s : Str) (mode : SelMode) :
    Alike (r.addSelector path s mode) (r'.addSelector path s mode) := by
  unfold Recipe.addSelector
  rw [h.lines]
  split
  · exact ⟨rfl, h⟩
  · split
    · exact ⟨rfl, h⟩
    · split
      · exact ⟨rfl, h⟩
      · exact ⟨rfl, restored_of rfl h.variables h.format⟩

theorem removeSelector_alike {r r' : Recipe} (h : Restored r r') (path : Str) : Alike (r.removeSelector path) (r'.removeSelector path) := by
  unfold Recipe.removeSelector
  rw [h.lines]
  split
  · exact ⟨rfl, h⟩
  · split
    · exact ⟨rfl, h⟩
    · dsimp only
      split
      · exact ⟨rfl, h⟩
      · exact ⟨rfl, restored_of rfl h.variables h.format⟩

theorem addComment_alike {r r' : Recipe} (h : Restored r r') (path text : Str) : Alike (r.addComment path text) (r'.addComment path text) := by
  unfold Recipe.addComment
  rw [h.lines]
  dsimp only
  split
  · exact ⟨rfl, h⟩
  · split
    · exact ⟨rfl, h⟩
    · split
      · exact ⟨rfl, h⟩
      · split
        · exact ⟨rfl, h⟩
        · exact ⟨rfl, restored_of rfl h.variables h.format⟩

theorem reading_same {r r' : Recipe} (h : Restored r r') (E : Env) : SameAnswers E r r' :=
  same_answers h.lines.symm h.variables.symm h.format.symm E

theorem patchAddDep_alike (E : Env) {r r' : Recipe} (h : Restored r r') (dep : Dep) (op path : Str) (mode : SelMode) (isNew : Bool) :
    Alike (r.patchAddDep E dep op path mode isNew) (r'.patchAddDep E dep op path mode isNew) := by
  have hs : r'.preservedSelector op path mode = r.preservedSelector op path mode := by
    unfold Recipe.preservedSelector
    rw [(reading_same h E).selectorAt]
  unfold Recipe.patchAddDep
  rw [hs]
  split
  · exact ⟨rfl, h⟩
  · dsimp only
    have hp := patch_alike E h (.dict [(§"op", .str op), (§"path", .str path),
      (§"value", if isNew then .list [.str dep.data.render] else .str dep.data.render)])
    generalize r.patch E _ = x at hp
    generalize r'.patch E _ = y at hp
    obtain ⟨x1, x2⟩ := x
    obtain ⟨y1, y2⟩ := y
    obtain ⟨h1, h2⟩ := hp
    have h1 : y1 = x1 := h1
    subst h1
    cases y1 with
    | error e => exact ⟨rfl, h2⟩
    | ok b =>
      dsimp only
      split
      · exact ⟨rfl, h2⟩
      · rename_i s _
        have hq := addSelector_alike h2 path s .replace
        generalize x2.addSelector path s = x at hq
        generalize y2.addSelector path s = y at hq
        obtain ⟨x1, x2⟩ := x
        obtain ⟨y1, y2⟩ := y
        obtain ⟨h1, h2⟩ := hq
        have h1 : y1 = x1 := h1
        subst h1
        cases y1 with
        | error e => exact ⟨rfl, h2⟩
        | ok b => exact ⟨rfl, h2⟩

theorem applyAddDep_alike (E : Env) {r r' : Recipe} (h : Restored r r') (dep : Dep) (op path base : Str) (mode : SelMode) (isNew : Bool) :
    Alike (r.applyAddDep E dep op path base mode isNew) (r'.applyAddDep E dep op path base mode isNew) := by
  unfold Recipe.applyAddDep
  have hp := patchAddDep_alike E h dep op path mode isNew
  generalize r.patchAddDep E dep op path mode isNew = x at hp
  generalize r'.patchAddDep E dep op path mode isNew = y at hp
  obtain ⟨x1, x2⟩ := x
  obtain ⟨y1, y2⟩ := y
  obtain ⟨h1, h2⟩ := hp
  have h1 : y1 = x1 := h1
  subst h1
  have h2 : Restored x2 y2 := h2
  have hd : y2.depSelectorPath E base path = x2.depSelectorPath E base path := by
    unfold Recipe.depSelectorPath
    rw [(reading_same h2 E).value]
  cases y1 with
  | error e => exact ⟨rfl, h2⟩
  | ok b =>
    cases b with
    | false => exact ⟨rfl, h2⟩
    | true =>
      dsimp only
      rw [hd]
      split
      · exact ⟨rfl, h2⟩
      · rename_i s _
        split
        · exact ⟨rfl, h2⟩
        · rename_i q _
          have hq := addSelector_alike h2 q s.render mode
          generalize x2.addSelector q s.render mode = x at hq
          generalize y2.addSelector q s.render mode = y at hq
          obtain ⟨x1, x2⟩ := x
          obtain ⟨y1, y2⟩ := y
          obtain ⟨h1, h2⟩ := hq
          have h1 : y1 = x1 := h1
          subst h1
          cases y1 with
          | error e => exact ⟨rfl, h2⟩
          | ok b => exact ⟨rfl, h2⟩

theorem addDependency_alike (E : Env) (M : Str → Option Str) {r r' : Recipe} (h : Restored r r') (dep : Dep) (mode : DepMode) (selMode : SelMode) :
    Alike (r.addDependency E M dep mode selMode) (r'.addDependency E M dep mode selMode) := by
  have hc : ∀ base, r'.calcIsNewSection base = r.calcIsNewSection base := by
    intro base
    unfold Recipe.calcIsNewSection
    simp only [(reading_same h E).present]
  unfold Recipe.addDependency
  split
  · exact ⟨rfl, h⟩
  · unfold Recipe.addDependencyAt
    rw [hc, (reading_same h E).value]
    split
    · exact ⟨rfl, h⟩
    · exact ⟨rfl, h⟩
    · split
      · exact ⟨rfl, h⟩
      · split
        · exact ⟨rfl, h⟩
        · exact applyAddDep_alike E h _ _ _ _ _ _
        · split
          · exact ⟨rfl, h⟩
          · exact applyAddDep_alike E h _ _ _ _ _ _

theorem perform_same (E : Env) {r r' : Recipe} (h : Restored r r') (c : Call) :
    (asksPlaces c = false → reply E r' c = reply E r c) ∧ Restored (perform E r c) (perform E r' c) := by
  cases c with
  | patch p => exact ⟨fun _ => congrArg Reply.truth (patch_alike E h p).1, (patch_alike E h p).2⟩
  | searchAndPatch re p ic =>
    have hs : r'.search re ic = r.search re ic := by unfold Recipe.search; rw [h.lines]
    have := searchGo_alike E p (r.search re ic) true h
    simp only [reply, perform, Recipe.searchAndPatch, hs]
    exact ⟨fun _ => congrArg Reply.truth this.1, this.2⟩
  | setVariable k v => exact ⟨fun _ => rfl, restored_of h.lines (by simp only [perform, Recipe.setVariable, h.variables]) h.format⟩
  | delVariable k =>
    refine ⟨fun _ => rfl, ?_⟩
    simp only [perform, Recipe.delVariable, h.variables]
    split
    · exact h
    · exact restored_of h.lines rfl h.format
  | addSelector path s mode => exact ⟨fun _ => congrArg Reply.done (addSelector_alike h path s mode).1, (addSelector_alike h path s mode).2⟩
  | removeSelector path => exact ⟨fun _ => congrArg Reply.selector (removeSelector_alike h path).1, (removeSelector_alike h path).2⟩
  | addComment path text => exact ⟨fun _ => congrArg Reply.done (addComment_alike h path text).1, (addComment_alike h path text).2⟩
  | addDependency M dep mode selMode =>
    exact ⟨fun _ => congrArg Reply.truth (addDependency_alike E M h dep mode selMode).1, (addDependency_alike E M h dep mode selMode).2⟩
  | removeDependency dep => exact ⟨fun _ => congrArg Reply.truth (patch_alike E h _).1, (patch_alike E h _).2⟩
  | getSelectorPaths s =>
    refine ⟨(by intro hc; cases hc), ?_⟩
    have key : ∀ x : Recipe, (x.getSelectorPaths s).2.root = x.root ∧ (x.getSelectorPaths s).2.vars = x.vars ∧
        (x.getSelectorPaths s).2.schema = x.schema := by
      intro x
      unfold Recipe.getSelectorPaths
      split <;> exact ⟨rfl, rfl, rfl⟩
    obtain ⟨a1, a2, a3⟩ := key r
    obtain ⟨b1, b2, b3⟩ := key r'
    exact restored_of (by rw [show perform E r' (.getSelectorPaths s) = (r'.getSelectorPaths s).2 from rfl, b1, h.lines]; exact a1.symm)
      (by rw [show perform E r' (.getSelectorPaths s) = (r'.getSelectorPaths s).2 from rfl, b2, h.variables]; exact a2.symm)
      (by rw [show perform E r' (.getSelectorPaths s) = (r'.getSelectorPaths s).2 from rfl, b3, h.format]; exact a3.symm)

theorem goes_on (E : Env) : ∀ (more : List Call) {r r' : Recipe}, Restored r r' →
    ((∀ c ∈ more, asksPlaces c = false) → replies E r' more = replies E r more) ∧ Restored (performAll E r more) (performAll E r' more)
  | [], _, _, h => ⟨fun _ => rfl, h⟩
  | c :: more, r, r', h => by
    obtain ⟨h1, h2⟩ := perform_same E h c
    obtain ⟨h3, h4⟩ := goes_on E more h2
    exact ⟨fun hc => by rw [replies, replies, h1 (hc c (by simp)), h3 fun c hm => hc c (by simp [hm])], h4⟩

/-! ## The property -/

/-- C118: nothing but the lines, the variables and the format of a recipe matters to the calls made on it: not the text it was read
from, not whether it counts as modified, not what was asked or changed before. -/
theorem C118_only_content_matters (E : Env) (r r' : Recipe) (h1 : r'.root = r.root) (h2 : r'.vars = r.vars) (h3 : r'.schema = r.schema)
    (more : List Call) : GoesOn E r r' more := by
  obtain ⟨a, b⟩ := goes_on E more (restored_of h1 h2 h3)
  exact ⟨a, b, reading_same b E⟩

/-- C118: after a session on an opened file, saving the recipe and opening what was saved makes no difference to the calls that follow.
Missing: sessions and files outside `FileSession` and `Document`, see the violation below. -/
theorem C118_interrupted_partial (E : Env) (vars vars' : List (Str × PyVal)) (ds ds' : List Doc) (r r' : Recipe) (calls more : List Call)
    (hv : Writable E vars) (h : Document E ds) (hr : Recipe.ofString E (recipeText vars ds) = .ok r)
    (hs : r.schema = .v1 → vars = [] ∧ ∀ c ∈ calls, changesVariables c = false)
    (he : FileSession E r.schema calls vars ds vars' ds') (hv' : Writable E vars') (h' : Document E ds') (hf : SameFormat ds ds')
    (hr' : Recipe.ofString E (performAll E r calls).render = .ok r') : GoesOn E (performAll E r calls) r' more := by
  obtain ⟨t1, t2, t3⟩ := C31_text_is_kept_partial E vars ds r hv h hr fun hc => (hs hc).1
  obtain ⟨⟨a1, a2, a3, a4, a5⟩, b2⟩ := holds_session (r₀ := r) he (r := r) ⟨t2, rfl, t3, fun _ => rfl, C19_initially E _ r hr⟩
    fun hc => (hs hc).2
  obtain ⟨r2, c1, c2, c3, c4, c5, c6⟩ := open_session hv hv' h h' hr hf fun hc => (b2 hc).symm
  rw [(C103_session_is_saved_partial E vars vars' ds ds' r calls hv h hr hs he h'.1).1, c1] at hr'
  injection hr' with hr'
  subst hr'
  refine C118_only_content_matters E _ _ (by rw [a1, c2]) ?_ (by rw [a2, c3]) more
  cases hc : r.schema with
  | v0 => rw [c4 hc, a3 (a2.trans hc)]
  | v1 => rw [c5 hc, a4 (a2.trans hc)]

/-- C118: the same for a file in any layout, which is saved in the canonical one. -/
theorem C118_free_layout_partial (E : Env) (vars vars' : List (Str × PyVal)) (ds ds' : List Doc) (fs : List Str) (r r' : Recipe)
    (calls more : List Call) (hv : Writable E vars) (h : Document E ds) (hf : FreeFile E vars ds fs)
    (hr : Recipe.ofString E (fileText fs) = .ok r) (hs : r.schema = .v1 → vars = [] ∧ ∀ c ∈ calls, changesVariables c = false)
    (he : FileSession E r.schema calls vars ds vars' ds') (hv' : Writable E vars') (h' : Document E ds') (hsame : SameFormat ds ds')
    (hr' : Recipe.ofString E (performAll E r calls).render = .ok r') : GoesOn E (performAll E r calls) r' more := by
  have htext := (C103_session_from_free_layout_partial E vars vars' ds ds' fs r calls hv h hf hr hs he h'.1).1
  obtain ⟨t2, t3⟩ := free_file_opened h.1 hf hr
  obtain ⟨⟨a1, a2, a3, a4, a5⟩, b2⟩ := holds_session (r₀ := r) he (r := r) ⟨t2, rfl, t3, fun _ => rfl, C19_initially E _ r hr⟩
    fun hc => (hs hc).2
  rw [C31_layout_does_not_matter_partial E vars ds fs hv h hf] at hr
  cases hr0 : Recipe.ofString E (recipeText vars ds) with
  | error e => rw [hr0] at hr; cases hr
  | ok r0 =>
    rw [hr0] at hr
    injection hr with hr
    have s1 : r0.schema = r.schema := by rw [← hr]
    have s2 : r0.vars = r.vars := by rw [← hr]
    obtain ⟨r2, c1, c2, c3, c4, c5, c6⟩ := open_session hv hv' h h' hr0 hsame fun hc => (b2 (s1 ▸ hc)).symm
    rw [s1] at c3 c4 c5
    rw [s2] at c5
    rw [htext, c1] at hr'
    injection hr' with hr'
    subst hr'
    refine C118_only_content_matters E _ _ (by rw [a1, c2]) ?_ (by rw [a2, c3]) more
    cases hc : r.schema with
    | v0 => rw [c4 hc, a3 (a2.trans hc)]
    | v1 => rw [c5 hc, a4 (a2.trans hc)]

/-! ## Cases that meet the hypotheses -/

namespace InterruptExample

/-- After the session of C103: the selector is taken away again, a dependency is added where there is no section for it, a variable goes,
a key is added and a line is edited wherever `p1` is found. -/
def more : List Call :=
  [ .removeSelector §"/package/name",
    .addDependency (fun _ => none) ⟨.str §"foo", §"/requirements/host/0", .host, .spec §"a" §"a", none⟩ .replace .replace,
    .delVariable §"n",
    .patch (mkPatch §"add" §"/package/title" [(§"value", .str §"foo")]),
    .searchAndPatch (fun s => decide (s = §"p1")) [(§"op", .str §"replace"), (§"value", .int 3)] false ]

example (r r' : Recipe) (hs : r.schema = .v0)
    (hr : Recipe.ofString Toy.env (recipeText SessionExample.vars0 (DocCommentExample.file [] §"# [osx] why")) = .ok r)
    (hr' : Recipe.ofString Toy.env (performAll Toy.env r SessionExample.calls).render = .ok r') :
    GoesOn Toy.env (performAll Toy.env r SessionExample.calls) r' more :=
  C118_interrupted_partial Toy.env SessionExample.vars0 SessionExample.vars1 _ _ r r' SessionExample.calls more SessionExample.writable.1
    (DocCommentExample.document _ _ (by simp)) hr (by rw [hs]; decide) SessionExample.session SessionExample.writable.2
    SessionExample.document2 (same_fresh (DocCommentExample.fresh _ _) (by simp [Fresh, SessionExample.file2, node])) hr'

def opened : Recipe := Toy.recipe "{% set name = \"foo\" %}
{% set n = 1 %}

package:
  name: foo
  version: 1.2

# where
source:
  - url: a.tgz  # [unix]
    patches:
      - p1  # [osx] why
      # last
      - 2
"

def saved : Recipe := performAll Toy.env opened SessionExample.calls

def again : Recipe := match Recipe.ofString Toy.env saved.render with | .ok r => r | .error _ => opened

example : replies Toy.env again more = [.selector (.ok (some §"[win]")), .truth (.ok false), .nothing, .truth (.ok true), .truth (.ok true)] ∧
    replies Toy.env saved more = replies Toy.env again more := ⟨by decide +kernel, by decide +kernel⟩

example : (performAll Toy.env again more).render = (performAll Toy.env saved more).render := by decide +kernel

example : again.modified = false ∧ saved.modified = true := ⟨by decide +kernel, by decide +kernel⟩

example (r' : Recipe) (hr' : Recipe.ofString Toy.env (performAll Toy.env LayoutExample.opened FreeSessionExample.calls).render = .ok r') :
    GoesOn Toy.env (performAll Toy.env LayoutExample.opened FreeSessionExample.calls) r' more :=
  C118_free_layout_partial Toy.env LayoutExample.vars [(§"n", .int 4)] LayoutExample.doc LayoutExample.doc LayoutExample.lines
    LayoutExample.opened r' FreeSessionExample.calls more LayoutExample.writable LayoutExample.document LayoutExample.free_file
    LayoutExample.opened_eq (fun h => by rw [LayoutExample.opened_schema] at h; cases h) FreeSessionExample.session
    ⟨by decide +kernel, by decide +kernel, by decide +kernel, by decide +kernel, by decide +kernel⟩ LayoutExample.document
    ⟨rfl, Or.inr rfl⟩ hr'

end InterruptExample

namespace InterruptExample

/-- A mapping in a list is replaced by a text. -/
def shortened : Recipe := ((Toy.recipe "l:\n  - title: foo\n    u: x\n  - q\n").patch Toy.env (mkPatch §"replace" §"/l/0" [(§"value", .str §"foo")])).2

def shortenedAgain : Recipe := match Recipe.ofString Toy.env shortened.render with | .ok r => r | .error _ => ⟨[], {}, .v0, [], [], true⟩

end InterruptExample

/-- C118 fails when the recipe is written in a way that does not read back: after a mapping in a list was replaced by a text, the second
entry can be removed in memory, but not after saving and opening. -/
theorem C118_list_entry_violation :
    let more := [Call.patch (mkPatch §"remove" §"/l/1" [])]
    replies Toy.env InterruptExample.shortened more = [.truth (.ok true)] ∧
      replies Toy.env InterruptExample.shortenedAgain more = [.truth (.ok false)] :=
  ⟨by decide +kernel, by decide +kernel⟩

end Crm
