import Verif.Props.PatchFrame

/-!
# `move` and `copy` patches (C13, C14)
-/

namespace Crm
open Spec

theorem mk_add {path : Str} {v : PyVal} (hne : path ≠ []) (hv : v ≠ .sentinel) :
    IsPatch (mkPatch §"add" path [(§"value", v)]) §"add" path := by
  refine ⟨(schemaValid_iff _).1 ?_, rfl, rfl⟩
  cases path with
  | nil => exact absurd rfl hne
  | cons c cs => cases v <;> first | exact absurd rfl hv | simp [schemaValid, mkPatch, lookupD, patchOps]

private theorem mk_remove {path : Str} (hne : path ≠ []) : IsPatch (mkPatch §"remove" path) §"remove" path := by
  refine ⟨(schemaValid_iff _).1 ?_, rfl, rfl⟩
  cases path with
  | nil => exact absurd rfl hne
  | cons c cs => simp [schemaValid, mkPatch, lookupD, patchOps]

private theorem run_add {E : Env} {r : Recipe} {path : Str} {st : List Str} {v : PyVal} (hst : strToStack path = .ok st)
    (hv : v ≠ .sentinel) :
    r.patch E (mkPatch §"add" path [(§"value", v)]) = match patchAdd E r.root st v with
      | .error e => (.error e, r)
      | .ok none => (.ok false, r)
      | .ok (some root') => (.ok true, edited r root') := by
  have hne : path ≠ [] := by rintro rfl; simp [strToStack] at hst
  obtain ⟨d, hd, h⟩ := patch_eq' (E := E) (mk_add hne hv) (by decide) r
  have : lookupD §"value" d = some v := by
    have : field (.dict d) §"value" = some v := by rw [← hd]; rfl
    exact this
  rw [h, call_add hst this, finish_outcome (by decide)]
  rcases patchAdd E r.root st v with e | _ | r' <;> rfl

private theorem run_remove {E : Env} {r : Recipe} {path : Str} {st : List Str} (hst : strToStack path = .ok st) :
    r.patch E (mkPatch §"remove" path) = match patchRemove r.root st with
      | none => (.ok false, r)
      | some root' => (.ok true, edited r root') := by
  have hne : path ≠ [] := by rintro rfl; simp [strToStack] at hst
  obtain ⟨d, _, h⟩ := patch_eq' (E := E) (mk_remove hne) (by decide) r
  rw [h, call_remove hst, finish_outcome (by decide)]
  cases patchRemove r.root st <;> rfl

private theorem run_move {E : Env} {r : Recipe} {p : PyVal} {path src : Str} {st : List Str}
    (hp : IsPatch p §"move" path) (hs : field p §"from" = some (.str src)) (hne : src ≠ path)
    (hst : strToStack path = .ok st) : r.patch E p = finishPatch r §"move" (patchMove E r.root st src) := by
  obtain ⟨d, rfl, h⟩ := patch_eq (E := E) hp r
  have hs' : lookupD §"from" d = some (.str src) := hs
  rw [h, if_neg, call_move hst hs']
  rintro ⟨_, h2⟩
  rw [hs] at h2
  injection h2 with h2; injection h2 with h2; exact hne h2

private theorem getValue_root {E : Env} {r : Recipe} {src : Str} : r.getValue E src = getValueIn E r.root src := rfl

/-! ## C13 -/

/-- C13: moving a place onto itself returns `True` and does nothing at all (whether or not the place exists). -/
theorem C13_onto_itself (E : Env) (r : Recipe) (p : PyVal) (path : Str) (hp : IsPatch p §"move" path)
    (hs : field p §"from" = some (.str path)) : r.patch E p = (.ok true, r) := by
  obtain ⟨d, rfl, h⟩ := patch_eq (E := E) hp r
  rw [h, if_pos ⟨rfl, hs⟩]

/-- C13: a source that does not exist gives `False`, and nothing happens. -/
theorem C13_missing_source (E : Env) (r : Recipe) (p : PyVal) (path src : Str) (hp : IsPatch p §"move" path)
    (hs : field p §"from" = some (.str src)) (hne : src ≠ path) (hc : r.containsValue src = .ok false) :
    r.patch E p = (.ok false, r) := by
  obtain ⟨st, hst⟩ := strToStack_ok (isPatch_path_ne hp)
  rw [run_move hp hs hne hst]
  have hk : getValueIn E r.root src = .error .keyError := by
    unfold Recipe.containsValue at hc
    cases h : strToStack src with
    | error e => rw [h] at hc; cases hc
    | ok st =>
      rw [h] at hc
      simp only [bind, Except.bind] at hc
      cases ht : traverse r.root st with
      | none => exact getValueIn_missing h ht none _
      | some p => rw [ht] at hc; simp at hc
  unfold patchMove
  rw [hk]
  rfl

/-- C13: a successful move is a successful `remove` of the source followed by a successful `add` of the value
`get_value` gave for the source. -/
theorem C13_remove_then_add (E : Env) (r r' : Recipe) (p : PyVal) (path src : Str) (hp : IsPatch p §"move" path)
    (hs : field p §"from" = some (.str src)) (hne : src ≠ path) (hj : r.getValue E src ≠ .ok .sentinel)
    (h : r.patch E p = (.ok true, r')) :
    ∃ v r1, r.getValue E src = .ok v ∧ r.patch E (mkPatch §"remove" src) = (.ok true, r1) ∧
      r1.patch E (mkPatch §"add" path [(§"value", v)]) = (.ok true, r') := by
  obtain ⟨st, hst⟩ := strToStack_ok (isPatch_path_ne hp)
  rw [run_move hp hs hne hst] at h
  have hfin : ∀ x, finishPatch r §"move" x = (.ok true, r') → x.1 = .ok true ∧ r' = edited r x.2 := by
    rintro ⟨res, root⟩ h
    rcases res with e | _ | _
    · injection h with h _; cases h
    · injection h with h _; cases h
    · injection h with _ h; exact ⟨rfl, h.symm⟩
  obtain ⟨h1, rfl⟩ := hfin _ h
  unfold patchMove at h1 ⊢
  rw [getValue_root] at hj ⊢
  cases hg : getValueIn E r.root src with
  | error e => rw [hg] at h1; cases e <;> cases h1
  | ok v =>
    have hvs : v ≠ .sentinel := by rintro rfl; exact hj hg
    rw [hg] at h1
    simp only at h1 ⊢
    cases hf : patchAddFindTarget r.root st with
    | error e => rw [hf] at h1; cases h1
    | ok t =>
      rw [hf] at h1
      simp only at h1 ⊢
      cases hval : isValidPatchNode (t.node.bind (nodeAt r.root)) t.virt with
      | false => rw [hval] at h1; cases h1
      | true =>
        rw [hval] at h1
        simp only [Bool.not_true, Bool.false_eq_true, if_false] at h1 ⊢
        cases hss : strToStack src with
        | error e => rw [hss] at h1; cases h1
        | ok ss =>
          rw [hss] at h1
          simp only at h1 ⊢
          cases hr : patchRemove r.root ss with
          | none => rw [hr] at h1; cases h1
          | some root1 =>
            rw [hr] at h1
            simp only at h1 ⊢
            refine ⟨v, edited r root1, rfl, by rw [run_remove hss, hr], ?_⟩
            rw [run_add hst hvs]
            show (match patchAdd E root1 st v with | .error e => _ | .ok none => _ | .ok (some root') => _) = _
            cases ha : patchAdd E root1 st v with
            | error e => rw [ha] at h1; cases h1
            | ok o =>
              cases o with
              | none => rw [ha] at h1; cases h1
              | some root2 => rfl

/-- C13, the converse: if the value of the source can be added at the target before and after the source is removed,
the move succeeds and leaves what remove followed by add leaves. -/
theorem C13_move_succeeds (E : Env) (r r1 r2 r3 : Recipe) (p v : PyVal) (path src : Str) (hp : IsPatch p §"move" path)
    (hs : field p §"from" = some (.str src)) (hne : src ≠ path) (hv : r.getValue E src = .ok v) (hvs : v ≠ .sentinel)
    (h1 : r.patch E (mkPatch §"add" path [(§"value", v)]) = (.ok true, r1))
    (h2 : r.patch E (mkPatch §"remove" src) = (.ok true, r2))
    (h3 : r2.patch E (mkPatch §"add" path [(§"value", v)]) = (.ok true, r3)) : r.patch E p = (.ok true, r3) := by
  obtain ⟨st, hst⟩ := strToStack_ok (isPatch_path_ne hp)
  rw [run_move hp hs hne hst]
  rw [run_add hst hvs] at h1 h3
  cases hss : strToStack src with
  | error e =>
    rw [getValue_root] at hv
    unfold getValueIn at hv
    rw [hss] at hv
    cases hv
  | ok ss =>
    rw [run_remove hss] at h2
    cases hr : patchRemove r.root ss with
    | none => rw [hr] at h2; injection h2 with h2; cases h2
    | some root1 =>
      rw [hr] at h2; injection h2 with _ h2; subst h2
      have h3' : patchAdd E (edited r root1).root st v = patchAdd E root1 st v := rfl
      rw [h3'] at h3
      rcases ha : patchAdd E root1 st v with e | _ | root2
      · rw [ha] at h3; injection h3 with h3; cases h3
      · rw [ha] at h3; injection h3 with h3; cases h3
      · rw [ha] at h3; injection h3 with _ h3; subst h3
        rw [getValue_root] at hv
        unfold patchMove
        rw [hv]
        simp only
        cases hf : patchAddFindTarget r.root st with
        | error e => unfold patchAdd at h1; rw [hf] at h1; injection h1 with h1; cases h1
        | ok t =>
          unfold patchAdd at h1
          rw [hf] at h1
          simp only [bind, Except.bind] at h1
          cases hn : t.node with
          | none => rw [hn] at h1; injection h1 with h1; cases h1
          | some pos =>
            rw [hn] at h1
            simp only at h1
            cases hval : isValidPatchNode (nodeAt r.root pos) t.virt with
            | false => rw [hval] at h1; injection h1 with h1; cases h1
            | true => simp only [hn, Option.bind_some, hval, hss, hr, ha]; rfl

/-- Moving the list element `/l/0` to a new key `/a/y`. -/
example : let out := exPatch.patch Toy.env (mkPatch §"move" §"/a/y" [(§"from", .str §"/l/0")])
    out.1 = .ok true ∧ out.2.render = §"a:\n  x: 1\n  y: p\n\nl:\n  - q\n" := by decide +kernel
example : IsPatch (mkPatch §"move" §"/a/y" [(§"from", .str §"/l/0")]) §"move" §"/a/y" :=
  ⟨(schemaValid_iff _).1 (by decide), by decide, by decide⟩

/-! ## C14 -/

/-- C14: copying is adding the value found at the source, and nothing else. -/
theorem C14_copy_is_add (E : Env) (r : Recipe) (p v : PyVal) (path src : Str) (hp : IsPatch p §"copy" path)
    (hs : field p §"from" = some (.str src)) (hv : r.getValue E src = .ok v) (hvs : v ≠ .sentinel) :
    r.patch E p = r.patch E (mkPatch §"add" path [(§"value", v)]) := by
  obtain ⟨st, hst⟩ := strToStack_ok (isPatch_path_ne hp)
  obtain ⟨d, rfl, h⟩ := patch_eq' (E := E) hp (by decide) r
  have hs' : lookupD §"from" d = some (.str src) := hs
  rw [h, call_copy hst hs', finish_outcome (by decide), run_add hst hvs]
  rw [getValue_root] at hv
  unfold patchCopy
  rw [hv]
  simp only
  rcases patchAdd E r.root st v with e | _ | r' <;> rfl

/-- C14: a source that does not exist gives `False`; any other problem with reading it is raised; both change nothing. -/
theorem C14_unreadable_source (E : Env) (r : Recipe) (p : PyVal) (path src : Str) (e : PyErr)
    (hp : IsPatch p §"copy" path) (hs : field p §"from" = some (.str src)) (hv : r.getValue E src = .error e) :
    r.patch E p = (if e = .keyError then .ok false else .error e, r) := by
  obtain ⟨st, hst⟩ := strToStack_ok (isPatch_path_ne hp)
  obtain ⟨d, rfl, h⟩ := patch_eq' (E := E) hp (by decide) r
  have hs' : lookupD §"from" d = some (.str src) := hs
  rw [h, call_copy hst hs', finish_outcome (by decide)]
  rw [getValue_root] at hv
  unfold patchCopy
  rw [hv]
  cases e <;> rfl

/-- C14: the source still reads as before, unless it passes through or contains the place that was edited. -/
theorem C14_source_kept (E : Env) (r r' : Recipe) (p : PyVal) (comps source : List Str) (hne : comps ≠ [])
    (hc : ∀ c ∈ comps, Component c) (hp : IsPatch p §"copy" (absPath comps)) (hsn : source ≠ [])
    (hsc : ∀ c ∈ source, Component c) (hs : field p §"from" = some (.str (absPath source)))
    (h : r.patch E p = (.ok true, r')) :
    r' = r ∨ ∃ pos a, a <+: comps ∧ locate r.root a = some pos ∧
      (notReduced r'.root pos → ¬ passes r.root source pos → ¬ leadsAbove r.root source pos →
        r'.getValue E (absPath source) = r.getValue E (absPath source)) := by
  have _ := hs
  rcases C17_elsewhere E r r' p §"copy" comps hne hc hp (by decide) h with h | ⟨pos, a, h1, h2, h3⟩
  · exact Or.inl h
  · exact Or.inr ⟨pos, a, h1, h2, fun hn hp1 hp2 => (h3 hn source hsn hsc hp1 hp2).2.2 none false⟩

/-- C14: copying to a new key or to the end of a list keeps every node that could be reached below the parent, the
source in particular. -/
theorem C14_sibling_kept (E : Env) (r r' : Recipe) (p v : PyVal) (init : List Str) (last src : Str) (pos : Pos)
    (m : Node) (hc : ∀ c ∈ init ++ [last], Component c) (hp : IsPatch p §"copy" (absPath (init ++ [last])))
    (hs : field p §"from" = some (.str src)) (hv : r.getValue E src = .ok v) (hvs : v ≠ .sentinel)
    (hcase : last = §"-" ∨ (isDigitS last = false ∧ locate r.root (init ++ [last]) = none))
    (hpar : locate r.root init = some pos) (hm : nodeAt r.root pos = some m)
    (hplace : endsInNumber init = false ∨ m.isCollectionElement = true) (hmc : m.isComment = false)
    (h : r.patch E p = (.ok true, r')) (part : Str) (rest : List Str) (n : Node)
    (hn : lookup r.root (init ++ part :: rest) = some n) : lookup r'.root (init ++ part :: rest) = some n := by
  rw [C14_copy_is_add E r p v _ src hp hs hv hvs] at h
  exact C17_after_append E r r' _ v init last pos m hc (mk_add (isPatch_path_ne hp) hvs) rfl hcase hpar hm hplace hmc h
    part rest n hn

example : let out := exPatch.patch Toy.env (mkPatch §"copy" §"/l/-" [(§"from", .str §"/l/0")])
    out.1 = .ok true ∧ out.2.render = §"a:\n  x: 1\n\nl:\n  - p\n  - q\n  - p\n" := by decide +kernel
example : IsPatch (mkPatch §"copy" §"/l/-" [(§"from", .str §"/l/0")]) §"copy" (absPath [§"l", §"-"]) :=
  ⟨(schemaValid_iff _).1 (by decide), by decide, by decide⟩

end Crm
