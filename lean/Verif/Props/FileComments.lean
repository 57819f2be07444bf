import Verif.Lemmas.FileNotes
import Verif.Props.Layout
import Verif.Props.FileSession

/-! # The selectors and comments of a file (C106) -/

namespace Crm
open Spec Spec.Doc

theorem tells_selectors {E : Env} {r : Recipe} {ds : List Doc} (hr : r.root = root ds) (ho : OkL E ds) (hi : indexAgrees r) :
    TellsSelectors ds r := by
  obtain ⟨h1, h2, h3⟩ := selectors_in_tree hr ho hi
  exact ⟨h1, h2, h3, fun _ _ hp h => selector_in_tree hr ho hp h, fun _ hp hne ht h => no_selector_in_tree hr hp hne ht h⟩

theorem only_oneLine {E : Env} {ds : List Doc} (ho : OkL E ds) {path c : Str} (h : OnlyComment ds path c) : '\n' ∉ c ∧ c ≠ [] := by
  obtain ⟨⟨p, h1, _⟩, _⟩ := h
  obtain ⟨h1, h2⟩ := List.mem_filter.1 h1
  exact ⟨commentsL_oneLine E ds ho [] 0 _ h1, by simpa using h2⟩

theorem tells_comments {E : Env} {r : Recipe} {ds : List Doc} (hr : r.root = root ds) (ho : OkL E ds) (hk : NoSlashKey ds) :
    TellsComments ds r := by
  have hn := fun path => notes_in_tree hr ho hk path
  refine ⟨(C74_table r []).2, fun path => (hn path).1, ?_, ?_, ?_, ?_⟩
  · intro path c h hs
    obtain ⟨h1, h2⟩ := only_oneLine ho h
    rw [(hn path).2 c h]
    unfold noteFor
    rw [C74_plain { value := .str [], comment := c } h1 hs, if_neg]
    rintro (h | h)
    · cases h
    · exact h2 h
  · intro path body text h ht h1 h2 hcl
    rw [(hn path).2 _ h]
    exact C74_usual { value := .str [], comment := _ } body text rfl ht hcl h1 h2 (only_oneLine ho h).1 rfl
  · intro path w1 body w2 h s1 s2
    rw [(hn path).2 _ h]
    exact C74_selector_only { value := .str [], comment := _ } [] w1 body w2 rfl (by simp) s1 s2 (only_oneLine ho h).1 rfl
  · intro path pre body post h h1 h2 hw
    have h3 := (only_oneLine ho h).1
    have hs := C74_text_is_noted { value := .str [], comment := _ } pre body post rfl h1 h2 h3 rfl hw
    obtain ⟨c, hc⟩ := Option.isSome_iff_exists.1 hs
    exact ⟨c, by rw [(hn path).2 _ h]; exact hc, C74_selector_is_left_out { value := .str [], comment := _ } pre body post rfl h1 h2 h3 c hc⟩

/-- C106: what a recipe that was read from a file answers about selectors and comments is what the comments of the lines of the file say.
Proved for the documents of `Spec/Document.lean`; for selectors that stand in a line on their own see the violations below. -/
theorem C106_file_partial (E : Env) (vars : List (Str × PyVal)) (ds : List Doc) (r : Recipe) (hv : Writable E vars) (h : Document E ds)
    (hr : Recipe.ofString E (recipeText vars ds) = .ok r) (hs : r.schema = .v1 → vars = []) :
    TellsSelectors ds r ∧ (NoSlashKey ds → TellsComments ds r) := by
  obtain ⟨_, hroot, _⟩ := C31_text_is_kept_partial E vars ds r hv h hr hs
  exact ⟨tells_selectors hroot h.1 (C19_initially E _ r hr), tells_comments hroot h.1⟩

/-- C106: the same for a file in any layout. -/
theorem C106_free_layout_partial (E : Env) (vars : List (Str × PyVal)) (ds : List Doc) (fs : List Str) (r : Recipe) (ho : OkL E ds)
    (hf : FreeFile E vars ds fs) (hr : Recipe.ofString E (fileText fs) = .ok r) :
    TellsSelectors ds r ∧ (NoSlashKey ds → TellsComments ds r) := by
  obtain ⟨hroot, _⟩ := free_file_opened ho hf hr
  exact ⟨tells_selectors hroot ho (C19_initially E _ r hr), tells_comments hroot ho⟩

/-- C106: after any session of edits the answers are what the lines of the edited file say. -/
theorem C106_after_session_partial (E : Env) (vars vars' : List (Str × PyVal)) (ds ds' : List Doc) (r : Recipe) (calls : List Call)
    (hv : Writable E vars) (h : Document E ds) (hr : Recipe.ofString E (recipeText vars ds) = .ok r)
    (hs : r.schema = .v1 → vars = [] ∧ ∀ c ∈ calls, changesVariables c = false)
    (he : FileSession E r.schema calls vars ds vars' ds') (ho : OkL E ds') :
    (performAll E r calls).render = recipeText vars' ds' ∧ TellsSelectors ds' (performAll E r calls) ∧
      (NoSlashKey ds' → TellsComments ds' (performAll E r calls)) := by
  obtain ⟨t1, t2, t3⟩ := C31_text_is_kept_partial E vars ds r hv h hr fun hc => (hs hc).1
  obtain ⟨⟨a1, _, _, _, a5⟩, _⟩ := holds_session (r₀ := r) he (r := r) ⟨t2, rfl, t3, fun _ => rfl, C19_initially E _ r hr⟩
    fun hc => (hs hc).2
  exact ⟨(C103_session_is_saved_partial E vars vars' ds ds' r calls hv h hr hs he ho).1, tells_selectors a1 ho a5, tells_comments a1 ho⟩

/-! ## A file that meets the hypotheses -/

namespace FileCommentsExample

def file : List Doc :=
  [ comment §"# [osx] is not built",
    block §"package" [] [scalar §"name" §"p" (.str §"p") §"# the name"],
    block §"build" [] [scalar §"skip" §"true" (.bool true) §"# [win]", scalar §"number" §"0" (.int 0) []],
    block §"requirements" [] [block §"run" [] [item §"a" (.str §"a") §"# [win] old", comment §"# b", item §"b" (.str §"b") §"# [linux]"]],
    block §"outputs" [] [elem (scalar §"name" §"q" (.str §"q") §"# [linux] see docs")
      [block §"test" §"# none" [multi §"script" .pipe §"# [win]" [§"x"], scalar §"n" §"1" (.int 1) []]]] ]

theorem document : Document Toy.env file := documentB_sound (by decide +kernel)
theorem writable : Writable Toy.env [] := ⟨by decide, by decide, by decide, by decide, by decide⟩

def opened : Recipe :=
  match Recipe.ofString Toy.env (recipeText [] file) with
  | .ok o => o
  | .error _ => ⟨[], {}, .v0, [], [], false⟩

theorem opened_ok : (Recipe.ofString Toy.env (recipeText [] file)).toOption.isSome = true := by decide +kernel
theorem opened_eq : Recipe.ofString Toy.env (recipeText [] file) = .ok opened := by
  unfold opened
  have := opened_ok
  cases h : Recipe.ofString Toy.env (recipeText [] file) with
  | error e => rw [h] at this; cases this
  | ok o => rfl

theorem no_slash : NoSlashKey file := by unfold NoSlashKey; decide +kernel
theorem not_alone : NotAlone file §"[win]" := by unfold NotAlone; decide +kernel

theorem tells : TellsSelectors file opened ∧ (NoSlashKey file → TellsComments file opened) :=
  C106_file_partial Toy.env [] file opened writable document opened_eq fun _ => rfl

example : fileSelectors file = [§"[osx]", §"[win]", §"[win]", §"[linux]", §"[linux]", §"[linux]", §"[win]"] := by decide +kernel
example : filePathsWith file §"[linux]" = [§"/requirements/run/1", §"/outputs/0", §"/outputs/0/name"] := by decide +kernel

/-- What the theorem gives for this file. -/
example : opened.listSelectors = [§"[osx]", §"[win]", §"[linux]"] := by
  have h := tells.1.listed
  rw [C57_dedupe_unique _ _ h.1 h.2.2]
  decide +kernel
example : (opened.getSelectorPaths §"[win]").1 = [§"/build/skip", §"/requirements/run/0", §"/outputs/0/test/script"] := by
  have h := tells.1.paths no_slash §"[win]" not_alone
  rw [C57_dedupe_unique _ _ h.1 h.2.2]
  decide +kernel
example : opened.getSelectorAtPath §"/build/skip" = .ok §"[win]" :=
  (tells.1.atLine [§"build", §"skip"] (scalar §"skip" §"true" (.bool true) §"# [win]") (by decide)
    (.key (pre := file.take 2) (post := file.drop 3) (c := []) (cs := [scalar §"skip" §"true" (.bool true) §"# [win]", scalar §"number" §"0" (.int 0) []])
      ⟨rfl, by simp [Fresh, file, node]⟩ (.here (pre := []) ⟨rfl, by simp [Fresh]⟩))).2
example : lookupD §"/requirements/run/0" opened.getCommentsTable = some §"# old" :=
  (tells.2 no_slash).usual _ §"win" §"old" ⟨⟨[§"requirements", §"run", §"0"], by decide +kernel, rfl⟩, by
    intro p c hm hp
    have : ∀ e ∈ commentsOf file, e.1.map absPath = some §"/requirements/run/0" → e.2 = §"# [win] old" := by decide +kernel
    exact this _ hm (by simp [hp])⟩ (by decide) (by decide) (by decide) (by
      intro c h
      rcases h with h | h <;> (injection h with h; subst h; rfl))
example : lookupD §"/package/name" opened.getCommentsTable = some §"# the name" :=
  (tells.2 no_slash).plain _ _ ⟨⟨[§"package", §"name"], by decide +kernel, rfl⟩, by
    intro p c hm hp
    have : ∀ e ∈ commentsOf file, e.1.map absPath = some §"/package/name" → e.2 = §"# the name" := by decide +kernel
    exact this _ hm (by simp [hp])⟩ (by decide)

/-- The file of `LayoutExample`, as people write it. -/
example (r : Recipe) (hr : Recipe.ofString Toy.env (fileText LayoutExample.lines) = .ok r) : r.listSelectors = [§"[win]"] := by
  have h := (C106_free_layout_partial Toy.env _ _ _ r LayoutExample.document.1 LayoutExample.free_file hr).1.listed
  rw [C57_dedupe_unique _ _ h.1 h.2.2]
  decide +kernel

/-- The session of `FileDepsExample` gives a dependency the selector `[win]`. -/
example : (performAll Toy.env FileDepsExample.opened0 FileDepsExample.calls).listSelectors = [§"[osx]", §"[win]"] := by
  have h := (C106_after_session_partial Toy.env _ _ _ _ _ _ FileDepsExample.writable0 FileDepsExample.document0 FileDepsExample.opened0_eq
    (fun hs => by rw [FileDepsExample.old_format0] at hs; cases hs) FileDepsExample.session FileDepsExample.document.1).2.1.listed
  rw [C57_dedupe_unique _ _ h.1 h.2.2]
  decide +kernel

end FileCommentsExample

/-! ## Where the claim fails -/

/-- A selector in a line that holds nothing but a comment is reported at a path that leads nowhere (`<SentinelType>` stands for what Python
prints for the marker of an empty line). -/
theorem C106_comment_line_violation :
    let r := Toy.recipe "package:\n  # [win] is not built\n  name: p\n"
    r.listSelectors = [§"[win]"] ∧ (r.getSelectorPaths §"[win]").1 = [§"/package/<SentinelType>"] ∧
      r.containsValue §"/package/<SentinelType>" = .ok false ∧ r.getSelectorAtPath §"/package/<SentinelType>" = .error .keyError := by
  decide +kernel

end Crm
