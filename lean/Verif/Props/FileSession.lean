import Verif.Props.Session
import Verif.Props.FileValue

/-! # What is answered after a session of edits (C104, C105) -/

namespace Crm
open Spec Spec.Doc

/-- C105: after any session of edits `get_value` in memory gives what the edited file says at the path. -/
theorem C105_value_after_session_partial (E : Env) (vars vars' : List (Str × PyVal)) (ds ds' : List Doc) (r : Recipe) (calls : List Call)
    (path : List Str) (d : Doc) (w : PyVal) (sub : Bool) (dflt : Option PyVal)
    (hv : Writable E vars) (h : Document E ds) (hr : Recipe.ofString E (recipeText vars ds) = .ok r)
    (hs : r.schema = .v1 → vars = [] ∧ ∀ c ∈ calls, changesVariables c = false)
    (he : FileSession E r.schema calls vars ds vars' ds') (ho : OkL E ds')
    (hp : ∀ x ∈ path, Component x) (hl : LeadsTo path ds' d)
    (hw : WrittenValue E (if sub then some ⟨r.schema, if r.schema = .v0 then vars' else r.vars⟩ else none) d w) :
    (performAll E r calls).render = recipeText vars' ds' ∧ (performAll E r calls).getValue E (absPath path) dflt sub = .ok w := by
  obtain ⟨t1, t2, t3⟩ := C31_text_is_kept_partial E vars ds r hv h hr fun hc => (hs hc).1
  obtain ⟨⟨a1, a2, a3, a4, _⟩, _⟩ := holds_session (r₀ := r) he (r := r) ⟨t2, rfl, t3, fun _ => rfl, C19_initially E _ r hr⟩
    fun hc => (hs hc).2
  refine ⟨(C103_session_is_saved_partial E vars vars' ds ds' r calls hv h hr hs he ho).1, value_in_tree sub dflt a1 ho hp hl ?_⟩
  have : (performAll E r calls).ctx = ⟨r.schema, if r.schema = .v0 then vars' else r.vars⟩ := by
    unfold Recipe.ctx
    rw [a2]
    cases hc : r.schema with
    | v0 => rw [if_pos rfl, a3 (a2.trans hc)]
    | v1 => rw [if_neg (by decide), a4 (a2.trans hc)]
  rw [this]
  exact hw

/-- C104: after any session of edits `get_all_dependencies` in memory reports the lines of the edited file. -/
theorem C104_after_session_partial (E : Env) (M : Str → Option Str) (vars vars' : List (Str × PyVal)) (ds ds' : List Doc) (r : Recipe)
    (calls : List Call) (tbl : List (PyVal × Str)) (reqs : Str → List Doc) (d : Str → List (Str × PyVal)) (fill : Str → Str)
    (hv : Writable E vars) (h : Document E ds) (hr : Recipe.ofString E (recipeText vars ds) = .ok r)
    (hs : r.schema = .v1 → vars = [] ∧ ∀ c ∈ calls, changesVariables c = false)
    (he : FileSession E r.schema calls vars ds vars' ds') (ho : OkL E ds')
    (ht : (performAll E r calls).packageNamesToPath E = .ok tbl)
    (hreq : ∀ e ∈ tbl, RequirementsOf ds' e.2 (reqs e.2) ∧ YamlReads E (reqs e.2) (d e.2) ∧
      ∃ w, Filled E r.schema (if r.schema = .v0 then vars' else r.vars) E.recLimit (.dict (d e.2)) w)
    (hfill : ∀ e ∈ tbl, ∀ l ∈ dependencyLines (reqs e.2),
      Fills E r.schema (if r.schema = .v0 then vars' else r.vars) l.text (.str (fill l.text))) :
    (performAll E r calls).render = recipeText vars' ds' ∧
    (performAll E r calls).getAllDependencies E M = .ok (tbl.map fun e => (e.1,
      (dependencyLines (reqs e.2)).filterMap (reportedLine M (decide (r.schema = .v1)) fill e.2 e.1) ++
        if e.2 = §"/" then []
        else (dependencyLines (reqs §"/")).filterMap (reportedLine M (decide (r.schema = .v1)) fill §"/" e.1))) := by
  obtain ⟨t1, t2, t3⟩ := C31_text_is_kept_partial E vars ds r hv h hr fun hc => (hs hc).1
  obtain ⟨⟨a1, a2, a3, a4, _⟩, _⟩ := holds_session (r₀ := r) he (r := r) ⟨t2, rfl, t3, fun _ => rfl, C19_initially E _ r hr⟩
    fun hc => (hs hc).2
  have hvars : (performAll E r calls).vars = if r.schema = .v0 then vars' else r.vars := by
    cases hc : r.schema with
    | v0 => rw [if_pos rfl, a3 (a2.trans hc)]
    | v1 => rw [if_neg (by decide), a4 (a2.trans hc)]
  refine ⟨(C103_session_is_saved_partial E vars vars' ds ds' r calls hv h hr hs he ho).1, ?_⟩
  rw [← a2]
  exact dependencies_in_tree E M ds' _ tbl reqs d fill a1 ho ht (by rw [a2, hvars]; exact hreq) (by rw [a2, hvars]; exact hfill)

/-! ## The hypotheses can be met

The session ends with the file of `FileDepsExample`: a variable is given its value and a dependency its selector. -/

namespace FileDepsExample

def vars0 : List (Str × PyVal) := [(§"ver", .str §"0")]

def out0 (c : Str) : List Doc :=
  [ block §"run" [] [item §"c 1.*" (.str §"c 1.*") c, comment §"# d", item §"b" (.str §"b") []] ]

def file0 (c : Str) : List Doc :=
  [ block §"package" [] [scalar §"name" §"p" (.str §"p") []],
    block §"requirements" [] top,
    block §"outputs" [] [elem (scalar §"name" §"q" (.str §"q") []) [block §"requirements" [] (out0 c)]] ]

def calls : List Call := [.setVariable §"ver" (.str §"1.2"), .addSelector §"/outputs/0/requirements/run/0" §"[win]" .and]

theorem atDep (c c' : Str) : CommentEditInside §"/outputs/0/requirements/run/0" §"- c 1.*" c c' (file0 c) (file0 c') :=
  ⟨[§"outputs", §"0", §"requirements", §"run"], §"0", by decide, by decide,
    .key (pre := (file0 c).take 2) (post := []) (c := [])
      (cs := [elem (scalar §"name" §"q" (.str §"q") []) [block §"requirements" [] (out0 c)]])
      (cs' := [elem (scalar §"name" §"q" (.str §"q") []) [block §"requirements" [] (out0 c')]])
      (by decide) (by simp [Fresh, file0, node])
      (.element (pre := []) (post := []) (by decide) (by decide)
        (.key (pre := [scalar §"name" §"q" (.str §"q") []]) (post := []) (c := []) (cs := out0 c) (cs' := out0 c')
          (by decide) (by simp [Fresh, node])
          (.key (pre := []) (post := []) (c := [])
            (cs := [item §"c 1.*" (.str §"c 1.*") c, comment §"# d", item §"b" (.str §"b") []])
            (cs' := [item §"c 1.*" (.str §"c 1.*") c', comment §"# d", item §"b" (.str §"b") []])
            (by decide) (by simp [Fresh])
            (.here ⟨⟨[], _, _, _, rfl, rfl, by
              simp only [Names, show isDigitS §"0" = true from by decide, if_true]
              exact ⟨⟨_, _, _, rfl⟩, by decide⟩, .item _ _ (by simp), rfl⟩, fun h => absurd h (by decide)⟩))))⟩

theorem session {v : Schema} : FileSession Toy.env v calls vars0 (file0 []) vars file :=
  .cons (.setVariable §"ver" (.str §"1.2") (.change [] (.str §"0") [] (by decide)))
    (.cons (.addSelector §"/outputs/0/requirements/run/0" §"- c 1.*" [] §"# [win]" §"win" .and (by decide) .fresh (atDep _ _)) .nil)

theorem writable0 : Writable Toy.env vars0 := ⟨by decide +kernel, by decide +kernel, by decide +kernel, by decide +kernel, by decide +kernel⟩
theorem document0 : Document Toy.env (file0 []) := documentB_sound (by decide +kernel)

def opened0 : Recipe :=
  match Recipe.ofString Toy.env (recipeText vars0 (file0 [])) with
  | .ok o => o
  | .error _ => ⟨[], {}, .v0, [], [], false⟩

theorem opened0_ok : (Recipe.ofString Toy.env (recipeText vars0 (file0 []))).toOption.isSome = true := by decide +kernel
theorem old_format0 : opened0.schema = .v0 := by decide +kernel
theorem opened_vars : opened.vars = vars := by decide +kernel
theorem opened0_eq : Recipe.ofString Toy.env (recipeText vars0 (file0 [])) = .ok opened0 := by
  unfold opened0
  have := opened0_ok
  cases h : Recipe.ofString Toy.env (recipeText vars0 (file0 [])) with
  | error e => rw [h] at this; cases this
  | ok o => rfl
theorem names0 : (performAll Toy.env opened0 calls).packageNamesToPath Toy.env = .ok tbl := by decide +kernel

/-- The variables after the session. -/
theorem same_vars : (if opened0.schema = .v0 then vars else opened0.vars) = opened.vars := by
  rw [if_pos old_format0, opened_vars]

/-- After the two calls the dependencies are those of the edited file. -/
example (M : Str → Option Str) :
    (performAll Toy.env opened0 calls).getAllDependencies Toy.env M = .ok [
      (.str §"p", [⟨.str §"p", §"/requirements/host/0", .host, depDataFromStr M §"h", none⟩,
        ⟨.str §"p", §"/requirements/run/0", .run, depDataFromStr M §"a >=1.2", some (SelectorParser.mk' §"[osx]" false)⟩,
        ⟨.str §"p", §"/requirements/run/1", .run, depDataFromStr M §"b", none⟩]),
      (.str §"q", [⟨.str §"q", §"/outputs/0/requirements/run/0", .run, depDataFromStr M §"c 1.*", some (SelectorParser.mk' §"[win]" false)⟩,
        ⟨.str §"q", §"/outputs/0/requirements/run/1", .run, depDataFromStr M §"b", none⟩,
        ⟨.str §"q", §"/requirements/host/0", .host, depDataFromStr M §"h", none⟩,
        ⟨.str §"q", §"/requirements/run/0", .run, depDataFromStr M §"a >=1.2", some (SelectorParser.mk' §"[osx]" false)⟩,
        ⟨.str §"q", §"/requirements/run/1", .run, depDataFromStr M §"b", none⟩])] := by
  rw [(C104_after_session_partial Toy.env M vars0 vars (file0 []) file opened0 calls tbl reqs mapping fill writable0 document0 opened0_eq
    (by rw [old_format0]; intro h; cases h) session document.1 names0 (by
      intro e he
      rw [same_vars, old_format0, ← old_format]
      simp only [tbl, List.mem_cons, List.not_mem_nil, or_false] at he
      rcases he with rfl | rfl
      · exact ⟨at_top, read_top, filled_value _⟩
      · exact ⟨at_out, read_out, filled_value _⟩) (by
        rw [same_vars, old_format0, ← old_format]
        exact fun e _ l hl => filled_text _ (lines_texts _ l hl))).2, old_format0]
  rfl

/-- A value that the session changed through the variable in it. -/
example : (performAll Toy.env opened0 calls).getValue Toy.env §"/requirements" none true =
    .ok (.dict [(§"host", .list [.str §"h"]), (§"run", .list [.str §"a >=1.2", .str §"b"])]) :=
  (C105_value_after_session_partial Toy.env vars0 vars (file0 []) file opened0 calls [§"requirements"] _ _ true none writable0 document0
    opened0_eq (by rw [old_format0]; intro h; cases h) session document.1 (by decide) at_requirements (by
      rw [same_vars, old_format0, ← old_format, if_pos rfl]
      exact says_requirements)).2

end FileDepsExample

end Crm
