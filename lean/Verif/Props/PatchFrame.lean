import Verif.Props.PatchEdit
import Verif.Lemmas.PatchFrame
import Verif.Lemmas.OneLine

/-!
# Editing one place never changes another (C17), and what is read back after an edit (C10-C12)
-/

namespace Crm
open Spec

/-! ## C17 -/

/-- C17: every successful patch other than `move` changes the children of one place, reached along the patch's path,
and every path that neither passes through this place nor leads to a node above it answers as before.  (Exception: an
edit that leaves a list element with nothing but its comment, see `C03_emptied_element_becomes_comment`.) -/
theorem C17_elsewhere (E : Env) (r r' : Recipe) (p : PyVal) (op : Str) (comps : List Str) (hne : comps ≠ [])
    (hc : ∀ c ∈ comps, Component c) (hp : IsPatch p op (absPath comps)) (hop : op ≠ §"move")
    (h : r.patch E p = (.ok true, r')) :
    r' = r ∨ ∃ pos a, a <+: comps ∧ locate r.root a = some pos ∧
      (notReduced r'.root pos → ∀ q, q ≠ [] → (∀ c ∈ q, Component c) → ¬ passes r.root q pos →
        ¬ leadsAbove r.root q pos →
        lookup r'.root q = lookup r.root q ∧ r'.containsValue (absPath q) = r.containsValue (absPath q) ∧
        ∀ d sub, r'.getValue E (absPath q) d sub = r.getValue E (absPath q) d sub) := by
  have hst := strToStack_absPath comps hne hc
  have key : ∀ root', (∃ pos x a, x :: a <+: rootValue :: comps ∧ locate r.root a = some pos ∧
      ChildrenChanged AnyChange pos r.root root') → r' = edited r root' →
      ∃ pos a, a <+: comps ∧ locate r.root a = some pos ∧
      (notReduced r'.root pos → ∀ q, q ≠ [] → (∀ c ∈ q, Component c) → ¬ passes r.root q pos →
        ¬ leadsAbove r.root q pos →
        lookup r'.root q = lookup r.root q ∧ r'.containsValue (absPath q) = r.containsValue (absPath q) ∧
        ∀ d sub, r'.getValue E (absPath q) d sub = r.getValue E (absPath q) d sub) := by
    rintro root' ⟨pos, x, a, ha, hl, hch⟩ rfl
    refine ⟨pos, a, by simpa using (List.cons_prefix_cons.1 ha).2, hl, ?_⟩
    intro hn q hq hqc h1 h2
    have hlk : lookup (edited r root').root q = lookup r.root q := lookup_elsewhere hch hl hn h1 h2
    exact ⟨hlk, containsValue_lookup hq hqc hlk, fun d sub => getValueIn_lookup hq hqc hlk d _⟩
  obtain ⟨o, ho, hop'⟩ := hp.op
  have hoo : o = op := by
    have := hp.isOp; rw [hop'] at this; injection this with this; injection this
  subst hoo
  obtain ⟨d, rfl, he⟩ := patch_eq' (E := E) hp hop r
  rw [he] at h
  have hcases : o = §"add" ∨ o = §"remove" ∨ o = §"replace" ∨ o = §"copy" ∨ o = §"test" := by
    simp only [List.mem_cons, List.not_mem_nil, or_false] at ho
    rcases ho with h | h | h | h | h | h
    · exact Or.inl h
    · exact Or.inr (Or.inl h)
    · exact Or.inr (Or.inr (Or.inl h))
    · exact absurd h hop
    · exact Or.inr (Or.inr (Or.inr (Or.inl h)))
    · exact Or.inr (Or.inr (Or.inr (Or.inr h)))
  rcases hcases with rfl | rfl | rfl | rfl | rfl
  · obtain ⟨v, hv⟩ := Option.isSome_iff_exists.1 (hp.value §"add" (by simp) hop')
    rw [call_add hst hv, finish_outcome (by decide)] at h
    rcases hx : patchAdd E r.root (rootValue :: comps) v with e | _ | root'
    · rw [hx] at h; injection h with h; cases h
    · rw [hx] at h; injection h with h; cases h
    · rw [hx] at h; injection h with _ h
      exact Or.inr (key root' (patchAdd_changed hx) h.symm)
  · rw [call_remove hst, finish_outcome (by decide)] at h
    cases hx : patchRemove r.root (rootValue :: comps) with
    | none => rw [hx] at h; injection h with h; cases h
    | some root' =>
      rw [hx] at h; injection h with _ h
      exact Or.inr (key root' (patchRemove_changed hx) h.symm)
  · obtain ⟨v, hv⟩ := Option.isSome_iff_exists.1 (hp.value §"replace" (by simp) hop')
    rw [call_replace hst hv, finish_outcome (by decide)] at h
    rcases hx : patchReplace E r.root (rootValue :: comps) v with e | _ | root'
    · rw [hx] at h; injection h with h; cases h
    · rw [hx] at h; injection h with h; cases h
    · rw [hx] at h; injection h with _ h
      exact Or.inr (key root' (patchReplace_changed hx) h.symm)
  · obtain ⟨v, hv⟩ := Option.isSome_iff_exists.1 (hp.source §"copy" (by simp) hop')
    obtain ⟨s, rfl⟩ := hp.sourceText v hv
    rw [call_copy hst hv, finish_outcome (by decide)] at h
    rcases hx : patchCopy E r.root (rootValue :: comps) s with e | _ | root'
    · rw [hx] at h; injection h with h; cases h
    · rw [hx] at h; injection h with h; cases h
    · rw [hx] at h; injection h with _ h
      refine Or.inr (key root' ?_ h.symm)
      unfold patchCopy at hx
      split at hx
      · cases hx
      · cases hx
      · exact patchAdd_changed hx
  · left
    obtain ⟨v, hv⟩ := Option.isSome_iff_exists.1 (hp.value §"test" (by simp) hop')
    rw [call_test hst hv] at h
    generalize patchTest E r.root (absPath comps) v = x at h
    rcases x with e | _ | _ <;> injection h with h1 h <;>
      first | exact h.symm | cases h1

/-- A patch that hits `/a` leaves `/l/1` alone: the hypotheses are met. -/
example : let p := mkPatch §"replace" §"/a/x" [(§"value", .int 5)]
    (exPatch.patch Toy.env p).1 = .ok true ∧ locate exPatch.root [§"a", §"x"] = some [0, 0] ∧
    locate exPatch.root [§"l", §"1"] = some [1, 1] ∧ locate exPatch.root [§"l"] = some [1] := by decide +kernel
example : ¬ passes exPatch.root [§"l", §"1"] [0, 0] ∧ ¬ leadsAbove exPatch.root [§"l", §"1"] [0, 0] := by
  constructor
  · rintro ⟨b, ⟨c, hc⟩, hl⟩
    have hb := locate_length hl
    have hs : locate exPatch.root [§"l", §"1"] = some [1, 1] := by decide +kernel
    have : c = [] := by
      have := congrArg List.length hc
      simp only [List.length_append, List.length_cons, List.length_nil] at this hb
      exact List.length_eq_zero_iff.1 (by omega)
    subst this
    rw [List.append_nil] at hc
    subst hc
    rw [hs] at hl
    exact absurd hl (by decide)
  · rintro ⟨Q, hQ, hpre⟩
    have hs : locate exPatch.root [§"l", §"1"] = some [1, 1] := by decide +kernel
    rw [hs] at hQ; injection hQ with hQ; subst hQ
    exact absurd hpre (by decide)

/-! ### Neighbours of the edited place -/

/-- C17, siblings of a removed child: other names read as before; list elements in front of a removed element keep
their number, the elements behind it move up by one. -/
theorem C17_after_remove (E : Env) (r r' : Recipe) (p : PyVal) (init : List Str) (last : Str) (pos : Pos) (i : Nat)
    (c : Node) (hc : ∀ c ∈ init ++ [last], Component c) (hp : IsPatch p §"remove" (absPath (init ++ [last])))
    (hl : locate r.root (init ++ [last]) = some (pos ++ [i])) (hn : nodeAt r.root (pos ++ [i]) = some c)
    (h : r.patch E p = (.ok true, r')) (hred : notReduced r'.root pos) (part : Str) (rest : List Str) :
    (isDigitS part = false → c.value ≠ .str part →
      lookup r'.root (init ++ part :: rest) = lookup r.root (init ++ part :: rest)) ∧
    (isDigitS last = true → isDigitS part = true → natOfStr part < natOfStr last →
      lookup r'.root (init ++ part :: rest) = lookup r.root (init ++ part :: rest)) ∧
    (∀ part', isDigitS last = true → isDigitS part = true → isDigitS part' = true →
      natOfStr last ≤ natOfStr part → natOfStr part' = natOfStr part + 1 →
      lookup r'.root (init ++ part :: rest) = lookup r.root (init ++ part' :: rest)) := by
  obtain ⟨_, h09⟩ := C09_remove E r p init last hc hp
  have h09 := h09 pos i c hl hn
  obtain ⟨m, hi, hm, hx, hcm⟩ := locate_last hl hn
  by_cases hb : bareValue c = true
  · rw [if_pos hb, h] at h09; injection h09 with h09; cases h09
  · rw [if_neg hb, h] at h09
    obtain ⟨root', he, hch⟩ := h09
    injection he with _ he; subst he
    have hcom : ∀ m m', nodeAt r.root pos = some m → nodeAt (edited r root').root pos = some m' →
        m'.isComment = m.isComment := by
      intro m1 m2 h1 h2
      rw [hred m2 h2]
      rw [hm] at h1; injection h1 with h1; subst h1
      have : m.children ≠ [] := by intro he; rw [he] at hcm; simp at hcm
      simp [Node.isComment, this]
    obtain ⟨m2, b, hl1, hl2, hw⟩ := lookup_changed_below hch hcom hi
    have hmm : m2 = m := by rw [← locate_lookup, hi] at hl1; simp only [Option.bind_some, hm] at hl1; injection hl1 with h; exact h.symm
    subst hmm
    have hstep : ∀ q, lookup (edited r root').root (init ++ q) = lookup { m2 with children := b } q := by
      intro q; rw [lookup_append]; show (lookup root' init).bind _ = _; rw [hl2]; rfl
    have hstep' : ∀ q, lookup r.root (init ++ q) = lookup m2 q := by
      intro q; rw [lookup_append, hl1]; rfl
    have hreal : real c = true := by
      have := locate_real (by simp) hl hn
      simp [real, this]
    refine ⟨?_, ?_, ?_⟩
    · intro hd hv
      rw [hstep, hstep']
      simp only [lookup, child_without_name hw hcm hd hv]
    · intro hdl hd hlt
      rw [hstep, hstep']
      obtain ⟨hvp, _⟩ := (childIdx_digit hdl i).1 hx
      obtain ⟨_, hcnt⟩ := (virtToPhys_getElem? _ _ _).1 hvp
      have := child_without_number hw hcm hreal (natOfStr part)
      rw [hcnt, if_pos hlt] at this
      simp only [lookup, child, hd, if_true, this]
    · intro part' hdl hd hd' hle hnext
      rw [hstep, hstep']
      obtain ⟨hvp, _⟩ := (childIdx_digit hdl i).1 hx
      obtain ⟨_, hcnt⟩ := (virtToPhys_getElem? _ _ _).1 hvp
      have := child_without_number hw hcm hreal (natOfStr part)
      rw [hcnt, if_neg (by omega)] at this
      simp only [lookup, child, hd, hd', if_true, this, hnext]

/-- C17, siblings of an inserted element: names (other than the new element's) and elements in front read as before,
the element at the index and the ones behind it move down by one. -/
theorem C17_after_insert (E : Env) (r r' : Recipe) (p v : PyVal) (init : List Str) (last : Str) (pos : Pos) (i : Nat)
    (c y : Node) (new : List Node) (hc : ∀ c ∈ init ++ [last], Component c)
    (hp : IsPatch p §"add" (absPath (init ++ [last]))) (hv : field p §"value" = some v) (hnum : isDigitS last = true)
    (hl : locate r.root (init ++ [last]) = some (pos ++ [i])) (hn : nodeAt r.root (pos ++ [i]) = some c)
    (hcol : c.isCollectionElement = false) (hnew : newNodes E v = .ok new) (hy : asElement v new = [y])
    (hyr : real y = true) (h : r.patch E p = (.ok true, r')) (part : Str) (rest : List Str) :
    (isDigitS part = false → y.value ≠ .str part →
      lookup r'.root (init ++ part :: rest) = lookup r.root (init ++ part :: rest)) ∧
    (isDigitS part = true → natOfStr part < natOfStr last →
      lookup r'.root (init ++ part :: rest) = lookup r.root (init ++ part :: rest)) ∧
    (∀ part', isDigitS part = true → isDigitS part' = true → natOfStr last ≤ natOfStr part →
      natOfStr part' = natOfStr part + 1 →
      lookup r'.root (init ++ part' :: rest) = lookup r.root (init ++ part :: rest)) ∧
    (y.listMember = true → lookup r'.root (init ++ [last]) = some y) := by
  have h11 := C11_insert E r p v init last pos i c hc hp hv hnum hl hn hcol
  rw [hnew] at h11
  obtain ⟨root', he, hch⟩ := h11
  rw [h] at he; injection he with _ he; subst he
  rw [hy] at hch
  obtain ⟨m, hi, hm, hx, hcm⟩ := locate_last hl hn
  obtain ⟨hvp, _⟩ := (childIdx_digit hnum i).1 hx
  obtain ⟨_, hcnt⟩ := (virtToPhys_getElem? _ _ _).1 hvp
  have hcom : ∀ m m', nodeAt r.root pos = some m → nodeAt root' pos = some m' → m'.isComment = m.isComment := by
    intro m1 m2 h1 h2
    rw [hm] at h1; injection h1 with h1; subst h1
    obtain ⟨m3, b, h3, h4, h5⟩ := changed_node hch
    rw [hm] at h3; injection h3 with h3; subst h3
    rw [h4] at h2; injection h2 with h2; subst h2
    have h6 : m.children ≠ [] := by intro he; rw [he] at hcm; simp at hcm
    obtain ⟨pre, post, _, _, hb⟩ := h5
    have h7 : b ≠ [] := by rw [hb]; simp
    have h6' : m.children.isEmpty = false := by simpa using h6
    have h7' : b.isEmpty = false := by simpa using h7
    simp only [Node.isComment, h6', h7', Bool.and_false]
  obtain ⟨m2, b, hl1, hl2, hw⟩ := lookup_changed_below hch hcom hi
  have hmm : m2 = m := by rw [← locate_lookup, hi] at hl1; simp only [Option.bind_some, hm] at hl1; injection hl1 with h; exact h.symm
  subst hmm
  have hstep : ∀ q, lookup (edited r root').root (init ++ q) = lookup { m2 with children := b } q := by
    intro q; rw [lookup_append]; show (lookup root' init).bind _ = _; rw [hl2]; rfl
  have hstep' : ∀ q, lookup r.root (init ++ q) = lookup m2 q := by
    intro q; rw [lookup_append, hl1]; rfl
  refine ⟨?_, ?_, ?_, ?_⟩
  · intro hd hne
    rw [hstep, hstep']
    simp only [lookup, child_inserted_name hw hd (by simpa using hne)]
  · intro hd hlt
    rw [hstep, hstep']
    have := child_inserted_number hw hyr (natOfStr part)
    rw [hcnt, if_pos hlt] at this
    simp only [lookup, child, hd, if_true, this]
  · intro part' hd hd' hle hnext
    rw [hstep, hstep']
    have := child_inserted_number hw hyr (natOfStr part')
    rw [hcnt, if_neg (by omega), if_neg (by omega), hnext] at this
    simp only [lookup, child, hd, hd', if_true, hnext, this, Nat.add_sub_cancel]
  · intro hyl
    rw [hstep]
    have := child_inserted_number hw hyr (natOfStr last)
    rw [hcnt, if_neg (by omega), if_pos rfl] at this
    simp only [lookup, child, hnum, if_true, this, Option.filter_some, hyl, Option.bind_some]

/-- C17, siblings of an appended key or element: everything that could be read below the parent still reads the same. -/
theorem C17_after_append (E : Env) (r r' : Recipe) (p v : PyVal) (init : List Str) (last : Str) (pos : Pos) (m : Node)
    (hc : ∀ c ∈ init ++ [last], Component c) (hp : IsPatch p §"add" (absPath (init ++ [last])))
    (hv : field p §"value" = some v)
    (hcase : last = §"-" ∨ (isDigitS last = false ∧ locate r.root (init ++ [last]) = none))
    (hpar : locate r.root init = some pos) (hm : nodeAt r.root pos = some m)
    (hplace : endsInNumber init = false ∨ m.isCollectionElement = true) (hmc : m.isComment = false)
    (h : r.patch E p = (.ok true, r')) (part : Str) (rest : List Str) (n : Node)
    (hn : lookup r.root (init ++ part :: rest) = some n) : lookup r'.root (init ++ part :: rest) = some n := by
  have hch : ∃ root' new, r' = edited r root' ∧ ChildrenChanged (Appended new) pos r.root root' := by
    by_cases hd : last = §"-"
    · subst hd
      have h11 := C11_append E r p v init pos m (fun c hcm => hc c (by simp [hcm])) hp hv hpar hm hplace
      split at h11
      · rw [h] at h11; injection h11 with h11; cases h11
      · split at h11
        · rw [h] at h11; injection h11 with h11; cases h11
        · obtain ⟨root', he, hch⟩ := h11
          rw [h] at he; injection he with _ he
          exact ⟨root', _, he, hch⟩
    · obtain ⟨hdg, hmiss⟩ := hcase.resolve_left hd
      by_cases hb : bareValue m = true
      · exfalso
        obtain ⟨d, rfl, hh⟩ := patch_eq' (E := E) hp (by decide) r
        rw [hh, call_add (strToStack_absPath _ (by simp) hc) hv, finish_outcome (by decide)] at h
        unfold patchAdd at h
        simp only [target_new hmiss hpar hm hplace hdg hd, bind, Except.bind, hm, valid_none, hb, Bool.not_true,
          Bool.not_false, if_true] at h
        injection h with h; cases h
      · have h10 := C10_new_key E r p v init last pos m hc hp hv hdg hd hmiss hpar hm hplace (by simpa using hb)
        split at h10
        · rw [h] at h10; injection h10 with h10; cases h10
        · obtain ⟨root', he, hch⟩ := h10
          rw [h] at he; injection he with _ he
          exact ⟨root', _, he, hch⟩
  obtain ⟨root', new, rfl, hch⟩ := hch
  have hcom : ∀ m m', nodeAt r.root pos = some m → nodeAt root' pos = some m' → m'.isComment = m.isComment := by
    intro m1 m2 h1 h2
    rw [hm] at h1; injection h1 with h1; subst h1
    obtain ⟨m3, b, h3, h4, h5⟩ := changed_node hch
    rw [hm] at h3; injection h3 with h3; subst h3
    rw [h4] at h2; injection h2 with h2; subst h2
    rw [hmc]
    simp only [Appended] at h5
    subst h5
    simp only [Node.isComment, Node.isSentinel] at hmc ⊢
    cases hch' : m.children with
    | nil => rw [hch'] at hmc; simp only [List.isEmpty_nil, Bool.and_true] at hmc; simp only [hmc, Bool.false_and]
    | cons x xs => simp
  obtain ⟨m2, b, hl1, hl2, hw⟩ := lookup_changed_below hch hcom hpar
  have hmm : m2 = m := by rw [← locate_lookup, hpar] at hl1; simp only [Option.bind_some, hm] at hl1; injection hl1 with h; exact h.symm
  subst hmm
  rw [lookup_append]
  show (lookup root' init).bind _ = _
  rw [hl2]
  rw [lookup_append, hl1] at hn
  simp only [Option.bind_some, lookup] at hn ⊢
  cases hcp : child m2 part with
  | none => rw [hcp] at hn; cases hn
  | some x =>
    rw [hcp] at hn
    rw [child_appended hw hcp]
    exact hn

/-- The hypotheses of the three theorems are met by concrete patches, with the effect they state. -/
example : locate exPatch.root ([§"l"] ++ [§"0"]) = some ([1] ++ [0]) ∧
    let r' := (exPatch.patch Toy.env (mkPatch §"remove" §"/l/0")).2
    lookup r'.root [§"l", §"0"] = lookup exPatch.root [§"l", §"1"] := by decide +kernel
example : let r' := (exPatch.patch Toy.env (mkPatch §"add" §"/l/1" [(§"value", .str §"n")])).2
    lookup r'.root [§"l", §"0"] = lookup exPatch.root [§"l", §"0"] ∧
    lookup r'.root [§"l", §"2"] = lookup exPatch.root [§"l", §"1"] ∧
    (lookup r'.root [§"l", §"1"]).isSome = true := by decide +kernel
example : let r' := (exPatch.patch Toy.env (mkPatch §"add" §"/l/-" [(§"value", .str §"n")])).2
    lookup r'.root [§"l", §"0"] = lookup exPatch.root [§"l", §"0"] ∧
    lookup r'.root [§"l", §"1"] = lookup exPatch.root [§"l", §"1"] := by decide +kernel

/-! ## Reading back -/

/-- C10: after adding a new key with a one-line scalar value (`last: text` is its YAML form, which reads back as `w`),
the path exists, and reading it gives `w`; a text is parsed once more on the way out. -/
theorem C10_readback (E : Env) (r r' : Recipe) (p v w : PyVal) (init : List Str) (last text : Str) (pos : Pos) (m : Node)
    (hc : ∀ c ∈ init ++ [last], Component c) (hp : IsPatch p §"add" (absPath (init ++ [last])))
    (hv : field p §"value" = some v) (hname : isDigitS last = false) (hdash : last ≠ §"-")
    (hschema : last ≠ §"schema_version")
    (hnew : locate r.root (init ++ [last]) = none) (hpar : locate r.root init = some pos)
    (hm : nodeAt r.root pos = some m) (hplace : endsInNumber init = false ∨ m.isCollectionElement = true)
    (hbare : bareValue m = false) (hmc : m.isComment = false) (hdump : E.dump (.dict [(last, v)]) = text ++ §"\n")
    (hline : OneLine E text (.dict [(last, w)])) (hw : isScalar w = true) (hwn : w ≠ .none) (hws : w ≠ .sentinel)
    (h : r.patch E p = (.ok true, r')) :
    lookup r'.root (init ++ [last]) = some { value := .str last, key := true, children := [{ value := w }] } ∧
    r'.getValue E (absPath (init ++ [last])) = (match w with | .str s => parseYaml E s | w => .ok w) := by
  have h10 := C10_new_key E r p v init last pos m hc hp hv hname hdash hnew hpar hm hplace hbare
  rw [newNodes_entry hdump hline hschema] at h10
  obtain ⟨root', he, hch⟩ := h10
  rw [h] at he; injection he with _ he; subst he
  have hcom : ∀ m m', nodeAt r.root pos = some m → nodeAt root' pos = some m' → m'.isComment = m.isComment := by
    intro m1 m2 h1 h2
    rw [hm] at h1; injection h1 with h1; subst h1
    obtain ⟨m3, b, h3, h4, h5⟩ := changed_node hch
    rw [hm] at h3; injection h3 with h3; subst h3
    rw [h4] at h2; injection h2 with h2; subst h2
    rw [hmc]
    simp only [Appended] at h5
    subst h5
    simp [Node.isComment]
  obtain ⟨m2, b, hl1, hl2, hw2⟩ := lookup_changed_below hch hcom hpar
  have hmm : m2 = m := by rw [← locate_lookup, hpar] at hl1; simp only [Option.bind_some, hm] at hl1; injection hl1 with h; exact h.symm
  subst hmm
  have hchild : child m2 last = none := by
    have : lookup r.root (init ++ [last]) = none := by rw [← locate_lookup, hnew]; rfl
    rw [lookup_append, hl1] at this
    simp only [Option.bind_some, lookup] at this
    cases hcl : child m2 last with
    | none => rfl
    | some x => rw [hcl] at this; cases this
  rw [if_neg hwn] at hw2
  have hlk : lookup (edited r root').root (init ++ [last]) =
      some { value := .str last, key := true, children := [{ value := w }] } := by
    rw [lookup_append]
    show (lookup root' init).bind _ = _
    rw [hl2]
    simp only [Option.bind_some, lookup, child_appended_new hw2 hname rfl hchild]
  refine ⟨hlk, ?_⟩
  have hne : last ≠ §"/" := by rintro rfl; exact (hc §"/" (by simp)).2 (by decide)
  unfold Recipe.getValue getValueIn
  simp only [strToStack_absPath _ (by simp : init ++ [last] ≠ []) hc, bind, Except.bind, traverse_locate]
  have hlk' : (locate (edited r root').root (init ++ [last])).bind (nodeAt (edited r root').root) =
      some { value := .str last, key := true, children := [{ value := w }] } := by rw [locate_lookup]; exact hlk
  have hleaf : ({ value := w } : Node).isLeaf = true := by simp [Node.isLeaf, Node.isComment]
  have hsk : ({ value := .str last, key := true, children := [{ value := w }] } : Node).isSingleKey = true := by
    simp [Node.isSingleKey, hleaf]
  have hrt : ({ value := .str last, key := true, children := [{ value := w }] } : Node).isRoot = false := by
    simpa [Node.isRoot] using hne
  simp only [hlk', hsk, hrt, Bool.not_false, Bool.and_self, if_true, ne_eq, not_true_eq_false, if_false, Bool.false_eq_true]
  cases w <;> first | rfl | skip
  rename_i s
  simp only
  cases parseYaml E s none with
  | error e => rfl
  | ok x => simp

example : OneLine Toy.env §"y: 2" (.dict [(§"y", .int 2)]) :=
  ⟨by decide, by decide, by decide, by decide, by decide, by decide, by decide +kernel⟩
example : Toy.env.dump (.dict [(§"y", .int 2)]) = §"y: 2" ++ §"\n" := by decide +kernel
example : let p := mkPatch §"add" §"/a/y" [(§"value", .int 2)]
    (exPatch.patch Toy.env p).2.getValue Toy.env §"/a/y" = .ok (.int 2) := by decide +kernel

/-- C11: after inserting a one-line scalar (its YAML form `yamlText v` reads back as `w`) at a number,
this number reads as the new list element. -/
theorem C11_readback (E : Env) (r r' : Recipe) (p v w : PyVal) (init : List Str) (last : Str) (pos : Pos) (i : Nat)
    (c : Node) (hc : ∀ c ∈ init ++ [last], Component c) (hp : IsPatch p §"add" (absPath (init ++ [last])))
    (hv : field p §"value" = some v) (hnum : isDigitS last = true)
    (hl : locate r.root (init ++ [last]) = some (pos ++ [i])) (hcn : nodeAt r.root (pos ++ [i]) = some c)
    (hcol : c.isCollectionElement = false) (hprim : v.isPrimitive = true) (hnl : ∀ s, v = .str s → '\n' ∉ s)
    (hline : OneLine E (yamlText v) w) (hw : isScalar w = true) (hws : w ≠ .str §"schema_version")
    (h : r.patch E p = (.ok true, r')) :
    lookup r'.root (init ++ [last]) = some { value := w, listMember := true } := by
  have hg := newNodes_scalar hprim hline hw hws hnl
  have hy : asElement v [{ value := w }] = [{ value := w, listMember := true }] := by
    cases v <;> simp_all [asElement, PyVal.isPrimitive]
  exact (C17_after_insert E r r' p v init last pos i c { value := w, listMember := true } _ hc hp hv hnum hl hcn hcol hg
    hy (by simp [real, Node.isComment]) h last []).2.2.2 rfl

/-- C12: after replacing a list element by a one-line scalar, its number reads as the new value, and every other
number reads as before (so the number of elements is the same). -/
theorem C12_readback (E : Env) (r r' : Recipe) (p v w : PyVal) (init : List Str) (last : Str) (pos : Pos) (i : Nat)
    (c : Node) (hc : ∀ c ∈ init ++ [last], Component c) (hp : IsPatch p §"replace" (absPath (init ++ [last])))
    (hv : field p §"value" = some v) (hnum : isDigitS last = true)
    (hl : locate r.root (init ++ [last]) = some (pos ++ [i])) (hcn : nodeAt r.root (pos ++ [i]) = some c)
    (hcol : c.isCollectionElement = false) (hprim : v.isPrimitive = true) (hnl : ∀ s, v = .str s → '\n' ∉ s)
    (hline : OneLine E (yamlText v) w) (hw : isScalar w = true) (hws : w ≠ .str §"schema_version")
    (h : r.patch E p = (.ok true, r')) :
    lookup r'.root (init ++ [last]) = some { value := w, listMember := true } ∧
    ∀ part rest, isDigitS part = true → natOfStr part ≠ natOfStr last →
      lookup r'.root (init ++ part :: rest) = lookup r.root (init ++ part :: rest) := by
  have hg := newNodes_scalar hprim hline hw hws hnl
  have hy : asElement v [{ value := w }] = [{ value := w, listMember := true }] := by
    cases v <;> simp_all [asElement, PyVal.isPrimitive]
  have h12 := C12_replace_element E r p v init last pos i c hc hp hv hnum hl hcn hcol
  rw [hg] at h12
  obtain ⟨root', he, hch⟩ := h12
  rw [h] at he; injection he with _ he; subst he
  rw [hy] at hch
  obtain ⟨m, hi, hm, hx, hcm⟩ := locate_last hl hcn
  obtain ⟨hvp, _⟩ := (childIdx_digit hnum i).1 hx
  obtain ⟨_, hcnt⟩ := (virtToPhys_getElem? _ _ _).1 hvp
  have hcom : ∀ m m', nodeAt r.root pos = some m → nodeAt root' pos = some m' → m'.isComment = m.isComment := by
    intro m1 m2 h1 h2
    rw [hm] at h1; injection h1 with h1; subst h1
    obtain ⟨m3, b, h3, h4, h5⟩ := changed_node hch
    rw [hm] at h3; injection h3 with h3; subst h3
    rw [h4] at h2; injection h2 with h2; subst h2
    have h6 : m.children ≠ [] := by intro he; rw [he] at hcm; simp at hcm
    obtain ⟨pre, _, post, _, _, hb⟩ := h5
    have h7 : b ≠ [] := by rw [hb]; simp
    have h6' : m.children.isEmpty = false := by simpa using h6
    have h7' : b.isEmpty = false := by simpa using h7
    simp only [Node.isComment, h6', h7', Bool.and_false]
  obtain ⟨m2, b, hl1, hl2, hw2⟩ := lookup_changed_below hch hcom hi
  have hmm : m2 = m := by rw [← locate_lookup, hi] at hl1; simp only [Option.bind_some, hm] at hl1; injection hl1 with h; exact h.symm
  subst hmm
  have hstep : ∀ q, lookup (edited r root').root (init ++ q) = lookup { m2 with children := b } q := by
    intro q; rw [lookup_append]; show (lookup root' init).bind _ = _; rw [hl2]; rfl
  have hstep' : ∀ q, lookup r.root (init ++ q) = lookup m2 q := by
    intro q; rw [lookup_append, hl1]; rfl
  have hreal : real c = true := by
    have := locate_real (by simp) hl hcn
    simp [real, this]
  have hyr : real ({ value := w, listMember := true } : Node) = true := by simp [real, Node.isComment]
  constructor
  · rw [hstep]
    have := child_swapped_number hw2 hcm hreal hyr (natOfStr last)
    rw [hcnt, if_pos rfl] at this
    simp [lookup, child, hnum, this]
  · intro part rest hd hne
    rw [hstep, hstep']
    have := child_swapped_number hw2 hcm hreal hyr (natOfStr part)
    rw [hcnt, if_neg hne] at this
    simp only [lookup, child, hd, if_true, this]

example : OneLine Toy.env (yamlText (.str §"n")) (.str §"n") :=
  ⟨by decide, by decide, by decide, by decide, by decide, by decide, by decide +kernel⟩

/-- Values are re-read as YAML on the way in: adding the text `3.10` adds the number 3.1. -/
theorem C10_text_becomes_number :
    let out := exPatch.patch Toy.env (mkPatch §"add" §"/l/-" [(§"value", .str §"3.10")])
    out.1 = .ok true ∧ out.2.getValue Toy.env §"/l/2" = .ok (.flt §"3.1") := by decide +kernel

end Crm
