import Verif.Spec.FileRefs
import Verif.Props.FileValues
import Verif.Props.References
import Verif.Props.BumpNew

/-! # Where a file uses a variable (C70) -/

namespace Crm
open Spec Spec.Doc

namespace Spec

/-- The keys of a document name no template and no `/`, and no two values have the same path. -/
structure PlainKeys (ds : List Doc) : Prop where
  plain : ∀ k ∈ keyNamesL ds, '{' ∉ k
  noSlash : NoSlashPath ds
  distinct : (filePaths ds fun _ => true).Nodup

/-- The recipe lists, for each variable, the paths of the value lines of the document that use it, in the order of the file.  `known`:
the names of the variables. -/
def TellsUses (known : Str → Prop) (ds : List Doc) (r : Recipe) : Prop :=
  ∀ var, (¬ known var → r.getVariableReferences var = []) ∧
    (known var → ∀ f : ValueLine → Bool, (∀ e, f e = true ↔ ∃ s, e.value = some (.str s) ∧ mentions r.schema var s) →
      r.getVariableReferences var = filePaths ds f)

end Spec

mutual
theorem inner_names : ∀ (d : Doc), ∀ n ∈ Spec.inner d.node, n.value = .sentinel ∨ ∃ k ∈ d.keyNames, n.value = .str k
  | comment t, n, h => by simp [node, Spec.inner, innerL] at h
  | empty k c, n, h => by simp [node, Spec.inner, innerL] at h
  | scalar k vt v c, n, h => by
    simp [node, Spec.inner, innerL] at h; subst h; exact .inr ⟨k, by simp [keyNames], rfl⟩
  | multi k m c body, n, h => by
    simp [node, Spec.inner, innerL] at h; subst h; exact .inr ⟨k, by simp [keyNames], rfl⟩
  | block k c cs, n, h => by
    rw [node, Spec.inner] at h
    rcases List.mem_append.1 h with h | h
    · split at h
      · cases h
      · rw [List.mem_singleton] at h; subst h; exact .inr ⟨k, by simp [keyNames], rfl⟩
    · rcases innerL_names cs n h with h | ⟨k', hk, h⟩
      · exact .inl h
      · exact .inr ⟨k', by simp [keyNames, hk], h⟩
  | item vt v c, n, h => by simp [node, Spec.inner, innerL] at h
  | elem first rest, n, h => by
    rw [node, Spec.inner] at h
    rcases List.mem_append.1 h with h | h
    · split at h
      · cases h
      · rw [List.mem_singleton] at h; subst h; exact .inl rfl
    · rw [innerL] at h
      rcases List.mem_append.1 h with h | h
      · rcases inner_names first n h with h | ⟨k', hk, h⟩
        · exact .inl h
        · exact .inr ⟨k', by simp [keyNames, hk], h⟩
      · rcases innerL_names rest n h with h | ⟨k', hk, h⟩
        · exact .inl h
        · exact .inr ⟨k', by simp [keyNames, hk], h⟩
theorem innerL_names : ∀ (ds : List Doc), ∀ n ∈ innerL (nodes ds), n.value = .sentinel ∨ ∃ k ∈ keyNamesL ds, n.value = .str k
  | [], n, h => by cases h
  | d :: ds, n, h => by
    rw [nodes, innerL] at h
    rcases List.mem_append.1 h with h | h
    · rcases inner_names d n h with h | ⟨k', hk, h⟩
      · exact .inl h
      · exact .inr ⟨k', by simp [keyNamesL, hk], h⟩
    · rcases innerL_names ds n h with h | ⟨k', hk, h⟩
      · exact .inl h
      · exact .inr ⟨k', by simp [keyNamesL, hk], h⟩
end

mutual
/-- The keys without a value are keys. -/
theorem values_names : ∀ (d : Doc) (p : List Str) (i : Nat), ∀ e ∈ d.values p i, e.value = none → e.text ∈ d.keyNames
  | comment _, p, i, e, h, _ => by cases h
  | empty k c, p, i, e, h, _ => by simp only [values, List.mem_singleton] at h; subst h; simp [keyNames]
  | scalar .., p, i, e, h, hn => by simp only [values, List.mem_singleton] at h; subst h; cases hn
  | multi .., p, i, e, h, hn => by simp only [values, List.mem_singleton] at h; subst h; cases hn
  | block k c cs, p, i, e, h, hn => by
    have := valuesL_names cs _ _ e h hn
    simp [keyNames, this]
  | item .., p, i, e, h, hn => by simp only [values, List.mem_singleton] at h; subst h; cases hn
  | elem first rest, p, i, e, h, hn => by
    rw [values] at h
    rcases List.mem_append.1 h with h | h
    · simp [keyNames, values_names first _ _ e h hn]
    · simp [keyNames, valuesL_names rest _ _ e h hn]
theorem valuesL_names : ∀ (ds : List Doc) (p : List Str) (i : Nat), ∀ e ∈ valuesL p i ds, e.value = none → e.text ∈ keyNamesL ds
  | [], _, _, e, h, _ => by cases h
  | d :: ds, p, i, e, h, hn => by
    rw [valuesL] at h
    rcases List.mem_append.1 h with h | h
    · simp [keyNamesL, values_names d _ _ e h hn]
    · simp [keyNamesL, valuesL_names ds _ _ e h hn]
end

theorem dedupe_of_nodup {α : Type} [DecidableEq α] {l : List α} (h : l.Nodup) : dedupe l = l := by
  refine (C57_dedupe_unique l l (fun _ => Iff.rfl) ?_).symm
  rw [List.pairwise_iff_getElem]
  intro i j hi hj hij
  have e : ∀ k (hk : k < l.length), l.idxOf l[k] = k := by
    intro k hk
    have := h.idxOf_getElem k hk
    simpa using this
  rw [e i hi, e j hj]
  exact hij

theorem not_mentions {sc : Schema} {var s : Str} (h : '{' ∉ s) : ¬ mentions sc var s := by
  rintro ⟨b, x, y, a, rfl, _⟩
  apply h
  cases sc <;> simp

/-- The test on a value that `get_variable_references` makes. -/
def usesVar (sc : Schema) (var : Str) : PyVal → Bool
  | .str s => (varRefRx sc var).test s
  | _ => false

/-- The lines of the document that use the variable. -/
theorem references_file {E : Env} {r : Recipe} {ds : List Doc} (hr : r.root = root ds) (ho : OkL E ds) (hne : ds ≠ [])
    (hp : PlainKeys ds) (var : Str)
    (hv : r.containsVariable var = true) (f : ValueLine → Bool)
    (hf : ∀ e, f e = true ↔ ∃ s, e.value = some (.str s) ∧ mentions r.schema var s) :
    r.getVariableReferences var = filePaths ds f := by
  obtain ⟨ht, hk, hd⟩ := hp
  have hsome : (lookupD var r.vars).isNone = false := by
    unfold Recipe.containsVariable at hv
    cases hx : lookupD var r.vars <;> simp_all
  have e1 : ((visitAll (root ds)).filter fun np => usesVar r.schema var np.1.value) =
      (visitAll (root ds)).filter fun np => np.1.isLeaf && usesVar r.schema var np.1.value := by
    apply List.filter_congr
    rintro ⟨n, p⟩ hm
    simp only
    cases hs : n.value with
    | str s =>
      cases hl : n.isLeaf with
      | true => simp
      | false =>
        simp only [Bool.false_and, usesVar]
        have hc : (!n.children.isEmpty) = true := by
          cases hcs : n.children.isEmpty with
          | false => rfl
          | true => simp [Node.isLeaf, Node.isComment, Node.isSentinel, hcs, hs] at hl
        have hi : n ∈ Spec.inner (root ds) := by
          rw [← visit_inner (root ds) none 0]
          exact List.mem_map.2 ⟨_, List.mem_filter.2 ⟨hm, hc⟩, rfl⟩
        have hb : '{' ∉ s := by
          unfold root at hi
          rw [Spec.inner] at hi
          rcases List.mem_append.1 hi with hi | hi
          · split at hi
            · cases hi
            · rw [List.mem_singleton] at hi; subst hi; cases hs; decide
          · rcases innerL_names ds n hi with h | ⟨k, hk, h⟩
            · rw [hs] at h; cases h
            · rw [hs] at h; cases h; exact ht _ hk
        have := not_mentions (sc := r.schema) (var := var) hb
        rw [← varRef_iff] at this
        simpa using this
    | _ => simp [usesVar]
  have e0 : r.getVariableReferences var =
      dedupe (((visitAll (root ds)).filter fun np => usesVar r.schema var np.1.value).map (stackToStr ·.2)) := by
    unfold Recipe.getVariableReferences
    rw [hsome, if_neg (by simp), hr]
    rfl
  rw [e0, e1]
  have e2 := query_values ho hne hk (fun _ w _ => usesVar r.schema var w) f fun e he => by
    cases hx : e.value with
    | none =>
      have hb := ht _ (valuesL_names ds _ _ e he hx)
      have := not_mentions (sc := r.schema) (var := var) hb
      rw [← varRef_iff] at this
      simp only [usesVar]
      rw [Bool.eq_false_iff.2 this, Bool.eq_false_iff]
      intro h
      obtain ⟨s, h1, _⟩ := (hf e).1 h
      rw [hx] at h1; cases h1
    | some v =>
      simp only
      rw [Bool.eq_iff_iff, hf, hx]
      cases v with
      | str s => simp [usesVar, varRef_iff]
      | _ => simp [usesVar]
  rw [e2]
  apply dedupe_of_nodup
  unfold filePaths at hd ⊢
  rw [List.filter_eq_self.2 fun _ _ => rfl] at hd
  exact List.Sublist.nodup (List.filter_sublist.map _) hd

theorem containsVariable_old {r : Recipe} {vars : List (Str × PyVal)} (h : r.vars = vars) (var : Str) :
    r.containsVariable var = true ↔ var ∈ vars.map (·.1) := by
  unfold Recipe.containsVariable
  rw [h]
  exact lookupD_isSome _ _

theorem tells_uses {E : Env} {r : Recipe} {ds : List Doc} (hr : r.root = root ds) (ho : OkL E ds) (hne : ds ≠ []) (hp : PlainKeys ds)
    {known : Str → Prop} (hk : ∀ var, r.containsVariable var = true ↔ known var) : TellsUses known ds r := by
  intro var
  refine ⟨fun h => (C70_distinct r var).2 ?_, fun h f hf => references_file hr ho hne hp var ((hk var).2 h) f hf⟩
  rw [← hk] at h
  simpa using h

/-- C70: for a file of the old format, `get_variable_references` lists the paths of the lines that use the variable.  Missing: names that
contain the name, keys with templates and texts of several lines, see the violations. -/
theorem C70_file_partial (E : Env) (vars : List (Str × PyVal)) (ds : List Doc) (r : Recipe) (hv : Writable E vars) (h : Document E ds)
    (hr : Recipe.ofString E (recipeText vars ds) = .ok r) (hs : r.schema = .v0) (hne : ds ≠ []) (hp : PlainKeys ds) :
    TellsUses (· ∈ vars.map (·.1)) ds r := by
  obtain ⟨_, hroot, hvars⟩ := C31_text_is_kept_partial E vars ds r hv h hr (by rw [hs]; intro h; cases h)
  exact tells_uses hroot h.1 hne hp (containsVariable_old (hvars hs))

/-- C70: the same for a file of the old format in any layout. -/
theorem C70_free_layout_partial (E : Env) (vars : List (Str × PyVal)) (ds : List Doc) (fs : List Str) (r : Recipe) (ho : OkL E ds)
    (hf : FreeFile E vars ds fs) (hr : Recipe.ofString E (fileText fs) = .ok r) (hs : r.schema = .v0) (hne : ds ≠ [])
    (hp : PlainKeys ds) : TellsUses (· ∈ vars.map (·.1)) ds r := by
  obtain ⟨hroot, hvars⟩ := free_file_opened ho hf hr
  exact tells_uses hroot ho hne hp (containsVariable_old (hvars hs))

/-- C70: in a file of the new format, whose variables are those that the recipe lists. -/
theorem C70_new_format_partial (E : Env) (ds : List Doc) (r : Recipe) (h : Document E ds)
    (hr : Recipe.ofString E (recipeText [] ds) = .ok r) (hne : ds ≠ []) (hp : PlainKeys ds) :
    TellsUses (· ∈ r.listVariables) ds r := by
  obtain ⟨_, hroot, _⟩ := C31_text_is_kept_partial E [] ds r (by constructor <;> simp) h hr (fun _ => rfl)
  exact tells_uses hroot h.1 hne hp (containsVariable_old rfl)

/-- C70: after any session of edits to a file of the old format the paths listed are those of the lines of the edited file. -/
theorem C70_after_session_partial (E : Env) (vars vars' : List (Str × PyVal)) (ds ds' : List Doc) (r : Recipe) (calls : List Call)
    (hv : Writable E vars) (h : Document E ds) (hr : Recipe.ofString E (recipeText vars ds) = .ok r) (hs : r.schema = .v0)
    (he : FileSession E r.schema calls vars ds vars' ds') (ho : OkL E ds') (hne : ds' ≠ []) (hp : PlainKeys ds') :
    (performAll E r calls).render = recipeText vars' ds' ∧ TellsUses (· ∈ vars'.map (·.1)) ds' (performAll E r calls) := by
  have hn : r.schema = .v1 → False := by rw [hs]; intro h; cases h
  obtain ⟨t1, t2, t3⟩ := C31_text_is_kept_partial E vars ds r hv h hr fun hc => (hn hc).elim
  obtain ⟨⟨a1, a2, a3, _, a5⟩, _⟩ := holds_session (r₀ := r) he (r := r) ⟨t2, rfl, t3, fun _ => rfl, C19_initially E _ r hr⟩
    fun hc => (hn hc).elim
  exact ⟨(C103_session_is_saved_partial E vars vars' ds ds' r calls hv h hr (fun hc => (hn hc).elim) he ho).1,
    tells_uses a1 ho hne hp (containsVariable_old (a3 (a2.trans hs)))⟩

/-! ## A file that meets the hypotheses -/

namespace FileRefsExample

theorem plain : PlainKeys FileDepsExample.file :=
  ⟨by decide +kernel, by unfold NoSlashPath; decide +kernel, by decide +kernel⟩

theorem tells : TellsUses (· ∈ FileDepsExample.vars.map (·.1)) FileDepsExample.file FileDepsExample.opened :=
  C70_file_partial Toy.env FileDepsExample.vars FileDepsExample.file FileDepsExample.opened FileDepsExample.writable
    FileDepsExample.document FileDepsExample.opened_eq FileDepsExample.old_format (by simp [FileDepsExample.file]) plain

/-- What the theorem gives for this file. -/
example : FileDepsExample.opened.getVariableReferences §"ver" = [§"/requirements/run/0"] := by
  rw [(tells §"ver").2 (by decide) (fun e => match e.value with | some (.str s) => (varRefRx .v0 §"ver").test s | _ => false) ?_]
  · decide +kernel
  · rintro ⟨p, v, t, c⟩
    rw [FileDepsExample.old_format]
    rcases v with _ | v
    · simp
    · cases v <;> simp [varRef_iff]
example : FileDepsExample.opened.getVariableReferences §"name" = [] := (tells §"name").1 (by decide)

/-- The session of `FileDepsExample`. -/
example : (performAll Toy.env FileDepsExample.opened0 FileDepsExample.calls).getVariableReferences §"name" = [] :=
  ((C70_after_session_partial Toy.env _ _ _ _ _ _ FileDepsExample.writable0 FileDepsExample.document0 FileDepsExample.opened0_eq
    FileDepsExample.old_format0 FileDepsExample.session FileDepsExample.document.1 (by simp [FileDepsExample.file]) plain).2 §"name").1
    (by decide)

/-- A file of the new format. -/
example : (BumpNewExample.recipe BumpNewExample.d0).getVariableReferences §"name" = [§"/package/name"] := by
  have h := BumpNewExample.opened0
  rw [(C70_new_format_partial Toy.env BumpNewExample.d0 _ h.1 h.2 (by decide) ⟨by decide +kernel, by unfold NoSlashPath; decide +kernel,
    by decide +kernel⟩ §"name").2 (by decide +kernel)
    (fun e => match e.value with | some (.str s) => (varRefRx .v1 §"name").test s | _ => false) ?_]
  · decide +kernel
  · rintro ⟨p, v, t, c⟩
    rw [h.3]
    rcases v with _ | v
    · simp
    · cases v <;> simp [varRef_iff]

end FileRefsExample

/-- C70 asks for every value that uses the variable; a text of several lines is not looked at. -/
theorem C70_block_text_violation :
    let r := Toy.recipe "{% set v = \"1\" %}\na:\n  script: |\n    make {{ v }}\n  b: {{ v }}\n"
    r.getValue Toy.env §"/a/script" none = .ok (.str §"make {{ v }}") ∧ r.getVariableReferences §"v" = [§"/a/b"] := by decide +kernel

end Crm
