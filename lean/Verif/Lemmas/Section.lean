import Verif.Props.PatchFrame
import Verif.Props.DepsEdit

/-! # Edits below one top-level key leave the other top-level keys alone -/

namespace Crm
open Spec

theorem twi_inner {root : Node} {s : Str} {rest : List Str} (hs : isDigitS s = false) {pos : Pos} {v i : Option Nat}
    (h : traverseWithIndex root (rootValue :: s :: rest) = .ok (some pos, v, i)) :
    ∃ a, a <+: s :: rest ∧ a ≠ [] ∧ locate root a = some pos := by
  rcases List.eq_nil_or_concat rest with rfl | ⟨init, last, rfl⟩
  · rw [twi_name root [s] (by intro l hl; simp at hl; subst hl; exact hs)] at h
    injection h with h; injection h with h _
    exact ⟨[s], List.prefix_refl _, by simp, h⟩
  · rw [List.concat_eq_append] at *
    cases hd : isDigitS last with
    | false =>
      rw [twi_name root _ (by intro l hl; rw [← List.cons_append, List.getLast?_concat] at hl; injection hl with hl; subst hl; exact hd)] at h
      injection h with h; injection h with h _
      exact ⟨_, List.prefix_refl _, by simp, h⟩
    | true =>
      rw [← List.cons_append] at *
      cases hi : locate root (s :: init) with
      | none => rw [twi_digit _ _ _ hd, hi] at h; injection h with h; injection h with h _; cases h
      | some q =>
        obtain ⟨m, hm⟩ := locate_valid hi
        by_cases hr : m.children.countP real ≤ natOfStr last
        · rw [twi_digit_range hd hi hm hr] at h; cases h
        · obtain ⟨j, hvp⟩ : ∃ j, (virtToPhys m.children)[natOfStr last]? = some j := by
            have : natOfStr last < (virtToPhys m.children).length := by rw [virtToPhys_length]; omega
            exact ⟨_, List.getElem?_eq_getElem this⟩
          obtain ⟨⟨c, hcm, _⟩, _⟩ := (virtToPhys_getElem? _ _ _).1 hvp
          rw [twi_digit_found hd hi hm hvp hcm] at h
          split at h
          · rename_i hcol
            injection h with h; injection h with h _; injection h with h; subst h
            refine ⟨_, List.prefix_refl _, by simp, ?_⟩
            rw [locate_concat, hi]
            simp [hm, (childIdx_digit hd j).2 ⟨hvp, c, hcm, collection_listMember hcol⟩]
          · injection h with h; injection h with h _; injection h with h; subst h
            exact ⟨s :: init, List.prefix_append _ _, by simp, hi⟩

theorem target_inner {root : Node} {s k : Str} {rest : List Str} (hs : isDigitS s = false) {t : AddTarget}
    (h : patchAddFindTarget root (rootValue :: s :: k :: rest) = .ok t) {pos : Pos} (hp : t.node = some pos) :
    ∃ a, a <+: s :: k :: rest ∧ a ≠ [] ∧ locate root a = some pos := by
  unfold patchAddFindTarget at h
  split at h
  · injection h with h; subst h; cases hp
  · rename_i last hl
    simp only [bind, Except.bind] at h
    have hpre : ∀ st' : List Str, (∃ u, st' = rootValue :: s :: u ∧ u <+: k :: rest) → ∀ node v i,
        traverseWithIndex root st' = .ok (node, v, i) → node = some pos →
        ∃ a, a <+: s :: k :: rest ∧ a ≠ [] ∧ locate root a = some pos := by
      rintro st' ⟨u, rfl, hu⟩ node v i hr hn
      subst hn
      obtain ⟨a, ha, hne, hl⟩ := twi_inner hs hr
      exact ⟨a, ha.trans (by simpa using hu), hne, hl⟩
    have hdrop : ∃ u, (rootValue :: s :: k :: rest).dropLast = rootValue :: s :: u ∧ u <+: k :: rest := by
      refine ⟨(k :: rest).dropLast, ?_, List.dropLast_prefix _⟩
      simp
    by_cases hla : last = §"-"
    · simp only [hla, decide_true, if_true, Bool.not_true, Bool.and_false, Bool.false_eq_true, if_false] at h
      split at h
      · cases h
      · rename_i out ho
        injection h with h; subst h
        exact hpre _ hdrop _ _ _ ho hp
    · simp only [hla, decide_false, Bool.false_eq_true, if_false, Bool.not_false, Bool.and_true] at h
      split at h
      · cases h
      · rename_i out ho
        obtain ⟨node, v, i⟩ := out
        simp only at h
        split at h
        · split at h
          · cases h
          · rename_i out2 ho2
            obtain ⟨node2, v2, i2⟩ := out2
            injection h with h; subst h
            exact hpre _ hdrop _ _ _ ho2 hp
        · injection h with h; subst h
          exact hpre _ ⟨k :: rest, rfl, List.prefix_refl _⟩ _ _ _ ho hp

theorem patchAdd_inner {E : Env} {root root' : Node} {s k : Str} {rest : List Str} {v : PyVal} (hs : isDigitS s = false)
    (h : patchAdd E root (rootValue :: s :: k :: rest) v = .ok (some root')) :
    ∃ pos a, a <+: s :: k :: rest ∧ a ≠ [] ∧ locate root a = some pos ∧ ChildrenChanged AnyChange pos root root' := by
  unfold patchAdd at h
  simp only [bind, Except.bind] at h
  split at h
  · cases h
  · rename_i t ht
    split at h
    · cases h
    · rename_i pos hpos
      obtain ⟨a, ha, hne, hl⟩ := target_inner hs ht hpos
      have hv := locate_valid hl
      refine ⟨pos, a, ha, hne, hl, ?_⟩
      split at h
      · cases h
      · split at h
        · cases h
        · split at h
          · injection h with h; injection h with h; subst h
            exact updateAt_any (fun cs => insertAll cs _ _) hv
          · split at h
            · injection h with h; injection h with h; subst h
              exact updateAt_any (fun cs => cs ++ _) hv
            · injection h with h; injection h with h; subst h
              exact updateAt_any (fun _ => _) hv

theorem patchReplace_inner {E : Env} {root root' : Node} {s : Str} {rest : List Str} {v : PyVal} (hs : isDigitS s = false)
    (h : patchReplace E root (rootValue :: s :: rest) v = .ok (some root')) :
    ∃ pos a, a <+: s :: rest ∧ a ≠ [] ∧ locate root a = some pos ∧ ChildrenChanged AnyChange pos root root' := by
  unfold patchReplace at h
  simp only [bind, Except.bind] at h
  split at h
  · cases h
  · rename_i out ho
    obtain ⟨node, virt, phys⟩ := out
    simp only at h
    split at h
    · cases h
    · obtain ⟨a, ha, hne, hl⟩ := twi_inner hs ho
      have hv := locate_valid hl
      refine ⟨_, a, ha, hne, hl, ?_⟩
      split at h
      · cases h
      · split at h
        · cases h
        · split at h
          · injection h with h; injection h with h; subst h
            exact updateAt_any (fun cs => (insertAll cs _ _).eraseIdx _) hv
          · injection h with h; injection h with h; subst h
            exact updateAt_any (fun _ => _) hv

/-- A child reached by another name is not touched by a change below a named child. -/
theorem child_section {f : List Node → List Node → Prop} {i : Nat} {p : Pos} {t t' : Node}
    (h : ChildrenChanged f (i :: p) t t') {s b : Str} (hs : isDigitS s = false) (hb : isDigitS b = false) (hne : b ≠ s)
    (hi : childIdx t s = some i) : child t' b = child t b := by
  cases h with
  | there n pre c c' post p hn hc =>
    have hv : c'.value = c.value := by cases hc <;> rfl
    have hcs : c.value = .str s := by
      rw [childIdx_name hs] at hi
      obtain ⟨hlt, hpi, _⟩ := List.findIdx?_eq_some_iff_getElem.1 hi
      have := pyEq_str.1 hpi
      simpa [hn] using this
    have hnb : pyEq c.value (.str b) = false := by
      rw [Bool.eq_false_iff]
      intro h
      have h := pyEq_str.1 h
      rw [hcs] at h; injection h with h; exact hne h.symm
    simp only [child, hb, Bool.false_eq_true, if_false, hn, List.find?_append, List.find?_cons, hv, hnb]

/-- C17 for top-level keys: a successful `add` or `replace` below the key `s` changes something below it, and nothing
below any other key. -/
theorem patch_section (E : Env) (r r' : Recipe) (op : Str) (v : PyVal) (s k : Str) (rest : List Str)
    (hc : ∀ c ∈ s :: k :: rest, Component c) (hop : op = §"add" ∨ op = §"replace") (hvs : v ≠ .sentinel)
    (hs : isDigitS s = false)
    (h : r.patch E (.dict [(§"op", .str op), (§"path", .str (absPath (s :: k :: rest))), (§"value", v)]) = (.ok true, r')) :
    (∃ root', r' = edited r root') ∧
    ∀ b bs, isDigitS b = false → b ≠ s → lookup r'.root (b :: bs) = lookup r.root (b :: bs) := by
  have hp := isPatch_mk op (absPath (s :: k :: rest)) v hop (by simp [absPath]) hvs
  have hst := strToStack_absPath (s :: k :: rest) (by simp) hc
  have hvl : lookupD §"value" [(§"op", PyVal.str op), (§"path", .str (absPath (s :: k :: rest))), (§"value", v)] = some v := by
    simp [lookupD]
  have key : ∀ root', (∃ pos a, a <+: s :: k :: rest ∧ a ≠ [] ∧ locate r.root a = some pos ∧
      ChildrenChanged AnyChange pos r.root root') → r' = edited r root' →
      (∃ root', r' = edited r root') ∧
      ∀ b bs, isDigitS b = false → b ≠ s → lookup r'.root (b :: bs) = lookup r.root (b :: bs) := by
    rintro root' ⟨pos, a, ha, hne, hl, hch⟩ rfl
    refine ⟨⟨root', rfl⟩, ?_⟩
    intro b bs hb hbs
    obtain ⟨x, xs, rfl⟩ := List.exists_cons_of_ne_nil hne
    obtain ⟨rfl, _⟩ := List.cons_prefix_cons.1 ha
    cases hi : childIdx r.root x with
    | none => simp [locate, hi] at hl
    | some i =>
      obtain ⟨p, rfl⟩ : ∃ p, pos = i :: p := by
        simp only [locate, hi] at hl
        split at hl
        · cases hl
        · rw [Option.map_eq_some_iff] at hl
          obtain ⟨p, _, hp⟩ := hl
          exact ⟨p, hp.symm⟩
      show lookup root' (b :: bs) = _
      simp only [lookup, child_section hch hs hb hbs hi]
  rcases hop with rfl | rfl
  · obtain ⟨d, hd, he⟩ := patch_eq' (E := E) hp (by decide) r
    injection hd with hd; subst hd
    rw [he, call_add hst hvl, finish_outcome (by decide)] at h
    rcases hx : patchAdd E r.root (rootValue :: s :: k :: rest) v with e | _ | root'
    · rw [hx] at h; injection h with h; cases h
    · rw [hx] at h; injection h with h; cases h
    · rw [hx] at h; injection h with _ h
      exact key root' (patchAdd_inner hs hx) h.symm
  · obtain ⟨d, hd, he⟩ := patch_eq' (E := E) hp (by decide) r
    injection hd with hd; subst hd
    rw [he, call_replace hst hvl, finish_outcome (by decide)] at h
    rcases hx : patchReplace E r.root (rootValue :: s :: k :: rest) v with e | _ | root'
    · rw [hx] at h; injection h with h; cases h
    · rw [hx] at h; injection h with h; cases h
    · rw [hx] at h; injection h with _ h
      exact key root' (patchReplace_inner hs hx) h.symm

/-- A node reached by a name has this name. -/
theorem locate_name_value {t m : Node} {init : List Str} {last : Str} {pos : Pos} (hd : isDigitS last = false)
    (hl : locate t (init ++ [last]) = some pos) (hm : nodeAt t pos = some m) : m.value = .str last := by
  have h : lookup t (init ++ [last]) = some m := by rw [← locate_lookup, hl]; exact hm
  rw [lookup_append] at h
  cases hx : lookup t init with
  | none => rw [hx] at h; cases h
  | some n =>
    rw [hx] at h
    simp only [Option.bind_some, lookup, child, hd, Bool.false_eq_true, if_false] at h
    cases hf : n.children.find? (fun c => pyEq c.value (.str last)) with
    | none => rw [hf] at h; cases h
    | some c =>
      rw [hf] at h; injection h with h; subst h
      have := List.find?_some hf
      exact pyEq_str.1 this

/-- Setting an existing key to a one-line scalar with `add` or `replace`. -/
theorem patch_key_readback (E : Env) (r r' : Recipe) (op : Str) (v w : PyVal) (comps : List Str) (pos : Pos) (m : Node)
    (hne : comps ≠ []) (hc : ∀ c ∈ comps, Component c) (hop : op = §"add" ∨ op = §"replace")
    (hdash : comps.getLast? ≠ some §"-") (hnum : endsInNumber comps = false)
    (hl : locate r.root comps = some pos) (hm : nodeAt r.root pos = some m) (hkey : m.key = true)
    (hprim : v.isPrimitive = true) (hvs : v ≠ .sentinel) (hnl : ∀ s, v = .str s → '\n' ∉ s)
    (hline : OneLine E (yamlText v) w) (hw : isScalar w = true) (hws : w ≠ .str §"schema_version")
    (h : r.patch E (.dict [(§"op", .str op), (§"path", .str (absPath comps)), (§"value", v)]) = (.ok true, r')) :
    lookup r'.root comps = some { m with children := [{ value := w }] } ∧
    r'.getValue E (absPath comps) = (match w with | .str s => parseYaml E s | w => .ok w) := by
  have hp := isPatch_mk op (absPath comps) v hop (by cases comps <;> simp_all [absPath]) hvs
  have hvl : field (.dict [(§"op", PyVal.str op), (§"path", .str (absPath comps)), (§"value", v)]) §"value" = some v := by
    simp [field, lookupD]
  have hg := newNodes_scalar hprim hline hw hws hnl
  have hbare : bareValue m = false := by simp [bareValue, hkey]
  have hch : ∃ root', r' = edited r root' ∧ ChildrenChanged (Becomes [{ value := w }]) pos r.root root' := by
    rcases hop with rfl | rfl
    · have := C10_existing E r _ v comps pos m hne hc hp hvl hdash hl hm (Or.inl hnum)
      rw [hbare, hg] at this
      obtain ⟨root', he, hch⟩ := this
      rw [h] at he; injection he with _ he
      exact ⟨root', he, hch⟩
    · have := C12_replace E r _ v comps pos m hne hc hp hvl hl hm (Or.inl hnum)
      rw [hbare, hg] at this
      obtain ⟨root', he, hch⟩ := this
      rw [h] at he; injection he with _ he
      exact ⟨root', he, hch⟩
  obtain ⟨root', rfl, hch⟩ := hch
  have hmc : m.isComment = false := locate_real hne hl hm
  have hcom : ∀ m m', nodeAt r.root pos = some m → nodeAt root' pos = some m' → m'.isComment = m.isComment := by
    intro m1 m2 h1 h2
    rw [hm] at h1; injection h1 with h1; subst h1
    obtain ⟨m3, b, h3, h4, h5⟩ := changed_node hch
    rw [hm] at h3; injection h3 with h3; subst h3
    rw [h4] at h2; injection h2 with h2; subst h2
    simp only [Becomes] at h5
    subst h5
    rw [hmc]
    simp [Node.isComment]
  obtain ⟨m2, b, hl1, hl2, hw2⟩ := lookup_changed_below hch hcom hl
  have hmm : m2 = m := by
    rw [← locate_lookup, hl] at hl1; simp only [Option.bind_some, hm] at hl1; injection hl1 with h; exact h.symm
  subst hmm
  simp only [Becomes] at hw2
  subst hw2
  refine ⟨hl2, ?_⟩
  unfold Recipe.getValue getValueIn
  simp only [strToStack_absPath _ hne hc, bind, Except.bind, traverse_locate]
  have hlk' : (locate (edited r root').root comps).bind (nodeAt (edited r root').root) =
      some { m2 with children := [{ value := w }] } := by rw [locate_lookup]; exact hl2
  have hleaf : ({ value := w } : Node).isLeaf = true := by simp [Node.isLeaf, Node.isComment]
  have hsk : ({ m2 with children := [{ value := w }] } : Node).isSingleKey = true := by
    simp [Node.isSingleKey, hleaf, hkey]
  have hrt : ({ m2 with children := [{ value := w }] } : Node).isRoot = false := by
    rcases List.eq_nil_or_concat comps with rfl | ⟨init, last, rfl⟩
    · exact absurd rfl hne
    · rw [List.concat_eq_append] at *
      rw [endsInNumber_concat] at hnum
      have := locate_name_value hnum hl hm
      have hne' : last ≠ §"/" := by rintro rfl; exact (hc §"/" (by simp)).2 (by decide)
      simp only [Node.isRoot, this]
      simpa using hne'
  simp only [hlk', hsk, hrt, Bool.not_false, Bool.and_self, if_true, ne_eq, not_true_eq_false, if_false, Bool.false_eq_true]
  cases w <;> first | rfl | skip
  rename_i s
  simp only
  cases parseYaml E s none with
  | error e => rfl
  | ok x => simp

end Crm
