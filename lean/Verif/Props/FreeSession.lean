import Verif.Props.FileComments
import Verif.Props.FileRefs

/-!
# Sessions of edits on files in any layout (C70, C106, C107)
-/

namespace Crm
open Spec Spec.Doc

/-- C106: after any session of edits on a file in any layout, the selectors and comments reported are those in the lines of the edited
file. -/
theorem C106_session_from_free_layout_partial (E : Env) (vars vars' : List (Str × PyVal)) (ds ds' : List Doc) (fs : List Str) (r : Recipe)
    (calls : List Call) (h : OkL E ds) (hf : FreeFile E vars ds fs) (hr : Recipe.ofString E (fileText fs) = .ok r)
    (hs : r.schema = .v1 → ∀ c ∈ calls, changesVariables c = false)
    (he : FileSession E r.schema calls vars ds vars' ds') (ho : OkL E ds') :
    TellsSelectors ds' (performAll E r calls) ∧ (NoSlashKey ds' → TellsComments ds' (performAll E r calls)) := by
  obtain ⟨t2, t3⟩ := free_file_opened h hf hr
  obtain ⟨⟨a1, _, _, _, a5⟩, _⟩ := holds_session (r₀ := r) he (r := r) ⟨t2, rfl, t3, fun _ => rfl, C19_initially E _ r hr⟩ hs
  exact ⟨tells_selectors a1 ho a5, tells_comments a1 ho⟩

/-- C107: after any session of edits on a file in any layout, the values found are those in the lines of the edited file. -/
theorem C107_session_from_free_layout_partial (E : Env) (vars vars' : List (Str × PyVal)) (ds ds' : List Doc) (fs : List Str) (r : Recipe)
    (calls : List Call) (h : OkL E ds) (hf : FreeFile E vars ds fs) (hr : Recipe.ofString E (fileText fs) = .ok r)
    (hs : r.schema = .v1 → ∀ c ∈ calls, changesVariables c = false)
    (he : FileSession E r.schema calls vars ds vars' ds') (ho : OkL E ds') (hne : ds' ≠ []) (hk : NoSlashPath ds') :
    TellsValues ds' (performAll E r calls) := by
  obtain ⟨t2, t3⟩ := free_file_opened h hf hr
  obtain ⟨⟨a1, _, _, _, _⟩, _⟩ := holds_session (r₀ := r) he (r := r) ⟨t2, rfl, t3, fun _ => rfl, C19_initially E _ r hr⟩ hs
  exact tells_values a1 ho hne hk

/-- C70: after any session of edits on a file of the old format in any layout, the places listed for a variable are those of the lines
of the edited file that use it. -/
theorem C70_session_from_free_layout_partial (E : Env) (vars vars' : List (Str × PyVal)) (ds ds' : List Doc) (fs : List Str) (r : Recipe)
    (calls : List Call) (h : OkL E ds) (hf : FreeFile E vars ds fs) (hr : Recipe.ofString E (fileText fs) = .ok r) (hs : r.schema = .v0)
    (he : FileSession E r.schema calls vars ds vars' ds') (ho : OkL E ds') (hne : ds' ≠ []) (hp : PlainKeys ds') :
    TellsUses (· ∈ vars'.map (·.1)) ds' (performAll E r calls) := by
  obtain ⟨t2, t3⟩ := free_file_opened h hf hr
  obtain ⟨⟨a1, a2, a3, _, _⟩, _⟩ := holds_session (r₀ := r) he (r := r) ⟨t2, rfl, t3, fun _ => rfl, C19_initially E _ r hr⟩
    (by rw [hs]; intro hc; cases hc)
  exact tells_uses a1 ho hne hp (containsVariable_old (a3 (a2.trans hs)))

/-! ## A file that meets the hypotheses -/

namespace FreeSessionExample
open LayoutExample

/-- A variable changes and one goes. -/
def calls : List Call := [.setVariable §"n" (.int 4), .delVariable §"name"]

theorem session {v : Schema} : FileSession Toy.env v calls vars doc [(§"n", .int 4)] doc :=
  .cons (.setVariable §"n" (.int 4) (.change [(§"name", .str §"foo")] (.int 3) [] (by decide)))
    (.cons (.delVariable §"name" (.gone [] (.str §"foo") [(§"n", .int 4)] (by decide))) .nil)

theorem tells (r : Recipe) (hr : Recipe.ofString Toy.env (fileText lines) = .ok r) (hs : r.schema = .v0) :
    TellsSelectors doc (performAll Toy.env r calls) ∧ TellsValues doc (performAll Toy.env r calls) ∧
      TellsUses (· ∈ [§"n"]) doc (performAll Toy.env r calls) := by
  have hn : r.schema = .v1 → ∀ c ∈ calls, changesVariables c = false := by rw [hs]; intro hc; cases hc
  have hp : PlainKeys doc := ⟨by decide +kernel, by unfold NoSlashPath; decide +kernel, by decide +kernel⟩
  exact ⟨(C106_session_from_free_layout_partial Toy.env vars _ doc doc lines r calls document.1 free_file hr hn session document.1).1,
    C107_session_from_free_layout_partial Toy.env vars _ doc doc lines r calls document.1 free_file hr hn session document.1 (by simp [doc])
      (by unfold NoSlashPath; decide +kernel),
    C70_session_from_free_layout_partial Toy.env vars _ doc doc lines r calls document.1 free_file hr hs session document.1 (by simp [doc]) hp⟩

example : (performAll Toy.env LayoutExample.opened calls).listSelectors = [§"[win]"] := by decide +kernel

end FreeSessionExample

end Crm
