import Verif.Spec.Covered
import Verif.Props.Repeat

/-!
# C117: The last edit counts

What is put in a place covers every edit that was made inside the place before.
-/

namespace Crm
open Spec

/-! ## Lemmas -/

/-- What an edit inside a node leaves of it. -/
structure SameKey (m m' : Node) : Prop where
  value : m'.value = m.value
  key : m'.key = m.key

/-- An edit inside a key changes nothing, or that key. -/
theorem treeEdit_inside (E : Env) {root m : Node} {b : List Str} {p : Pos} (hp : locate root b = some p)
    (hm : nodeAt root p = some m) (h : endsInNumber b = false) {rest : List Str} {e : Edit} (he : e.Within rest) :
    (treeEdit E root (b ++ rest) e).2 = none ∨
      ∃ m', SameKey m m' ∧ ((e.OnLine → rest ≠ []) → m' = { m with children := m'.children }) ∧
        (treeEdit E root (b ++ rest) e).2 = some (putAt root p m') := by
  have hch : ∀ {f : List Node → List Node → Prop} {pos : Pos} {m' : Node}, ChildrenChanged f pos m m' →
      SameKey m m' ∧ ∀ (_ : e.OnLine → rest ≠ []), m' = { m with children := m'.children } := by
    intro f pos m' hc
    have := changed_fields hc
    exact ⟨⟨by rw [this], by rw [this]⟩, fun _ => this⟩
  have hline : ∀ (c : Str) (q : Pos), locate m rest = some q → e.OnLine → SameKey m (updateAt (setLineComment c) q m) ∧
      ∀ (_ : e.OnLine → rest ≠ []), updateAt (setLineComment c) q m = { m with children := (updateAt (setLineComment c) q m).children } := by
    intro c q hq hl
    cases q with
    | nil =>
      refine ⟨⟨rfl, rfl⟩, fun hr => ?_⟩
      have := locate_length hq
      cases rest with
      | nil => exact absurd rfl (hr hl)
      | cons x xs => simp at this
    | cons i q => exact ⟨⟨rfl, rfl⟩, fun _ => rfl⟩
  cases e with
  | add v =>
    simp only [treeEdit]
    split
    · exact Or.inl rfl
    · rw [patchAdd_below hp hm (Or.inl h) he]
      rcases hx : patchAdd E m (rootValue :: rest) v with e | (_ | m')
      · exact Or.inl rfl
      · exact Or.inl rfl
      · obtain ⟨pos, _, _, _, _, hc⟩ := patchAdd_changed hx
        exact Or.inr ⟨m', (hch hc).1, (hch hc).2, rfl⟩
  | remove =>
    simp only [treeEdit]
    rw [patchRemove_below hp hm he]
    cases hx : patchRemove m (rootValue :: rest) with
    | none => exact Or.inl rfl
    | some m' =>
      obtain ⟨pos, _, _, _, _, hc⟩ := patchRemove_changed hx
      exact Or.inr ⟨m', (hch hc).1, (hch hc).2, rfl⟩
  | replace v =>
    simp only [treeEdit]
    split
    · exact Or.inl rfl
    · rw [patchReplace_below hp hm (Or.inl h)]
      rcases hx : patchReplace E m (rootValue :: rest) v with e | (_ | m')
      · exact Or.inl rfl
      · exact Or.inl rfl
      · obtain ⟨pos, _, _, _, _, hc⟩ := patchReplace_changed hx
        exact Or.inr ⟨m', (hch hc).1, (hch hc).2, rfl⟩
  | test v =>
    simp only [treeEdit]
    split <;> exact Or.inl rfl
  | addSelector s mode =>
    simp only [treeEdit, locate_below hp hm]
    cases hq : locate m rest with
    | none => exact Or.inl rfl
    | some q =>
      simp only [Option.map_some, node_below hm, update_below hm]
      split
      · exact Or.inl rfl
      · exact Or.inr ⟨_, (hline _ q hq trivial).1, (hline _ q hq trivial).2, rfl⟩
  | removeSelector =>
    simp only [treeEdit, locate_below hp hm]
    cases hq : locate m rest with
    | none => exact Or.inl rfl
    | some q =>
      simp only [Option.map_some, node_below hm, update_below hm]
      cases Regex.selector.search (((nodeAt m q).map (·.comment)).getD []) with
      | none => exact Or.inl rfl
      | some _ => exact Or.inr ⟨_, (hline _ q hq trivial).1, (hline _ q hq trivial).2, rfl⟩
  | addComment text =>
    simp only [treeEdit, locate_below hp hm]
    split
    · exact Or.inl rfl
    · split
      · exact Or.inl rfl
      · cases hq : locate m rest with
        | none => exact Or.inl rfl
        | some q =>
          simp only [Option.map_some, node_below hm, update_below hm]
          exact Or.inr ⟨_, (hline _ q hq trivial).1, (hline _ q hq trivial).2, rfl⟩

/-- A key that is changed inside is where it was. -/
theorem key_stays {root m m' : Node} {b : List Str} {p : Pos} (hb : b ≠ []) (hp : locate root b = some p)
    (hm : nodeAt root p = some m) (h : endsInNumber b = false) (hk : SameKey m m') :
    locate (putAt root p m') b = some p ∧ nodeAt (putAt root p m') p = some m' ∧
    (∀ a s, b = a ++ [s] → ∃ q n i, p = q ++ [i] ∧ locate root a = some q ∧ nodeAt root q = some n ∧ childIdx n s = some i ∧
      n.children[i]? = some m ∧ putAt root p m' = withKids root q (n.children.set i m') ∧
      locate (putAt root p m') a = some q ∧ nodeAt (putAt root p m') q = some { n with children := n.children.set i m' } ∧
      childIdx { n with children := n.children.set i m' } s = some i) := by
  have hlast : ∀ a s, b = a ++ [s] → ∃ q n i, p = q ++ [i] ∧ locate root a = some q ∧ nodeAt root q = some n ∧ childIdx n s = some i ∧
      n.children[i]? = some m ∧ putAt root p m' = withKids root q (n.children.set i m') ∧
      locate (putAt root p m') a = some q ∧ nodeAt (putAt root p m') q = some { n with children := n.children.set i m' } ∧
      childIdx { n with children := n.children.set i m' } s = some i := by
    rintro a s rfl
    rw [endsInNumber_concat] at h
    rw [locate_concat] at hp
    cases hq : locate root a with
    | none => simp [hq] at hp
    | some q =>
      obtain ⟨n, hn⟩ := locate_valid hq
      simp only [hq, Option.bind_some, hn] at hp
      cases hi : childIdx n s with
      | none => simp [hi] at hp
      | some i =>
        simp only [hi, Option.map_some, Option.some.injEq] at hp
        subst hp
        have hmi : n.children[i]? = some m := by
          rw [nodeAt_append, hn] at hm
          simp only [Option.bind_some, nodeAt] at hm
          cases hx : n.children[i]? with
          | none => simp [hx] at hm
          | some c => simpa [hx] using hm
        have hroot : putAt root (q ++ [i]) m' = withKids root q (n.children.set i m') := by
          unfold withKids putAt
          rw [update_below hn, updateAt_const (fun x => { x with children := n.children.set i m' }) hn]
          congr 1
          funext _
          simp only [updateAt]
          congr 1
          apply List.ext_getElem?
          intro j
          rw [List.getElem?_modify, List.getElem?_set]
          by_cases hj : i = j
          · subst hj; simp [childIdx_lt hi]
          · simp [hj]
        have hc0 : n.children ≠ [] := by intro h0; rw [h0] at hmi; simp at hmi
        obtain ⟨k1, k2⟩ := kids_stay (ks := n.children.set i m') hq hn (Or.inr ⟨hc0, by simp [hc0]⟩)
        rw [← hroot] at k1 k2
        refine ⟨q, n, i, rfl, rfl, hn, hi, hmi, hroot, k1, k2, ?_⟩
        rw [childIdx_name h] at hi ⊢
        have hvals : ∀ j : Nat, ((n.children.set i m')[j]?).map (fun c : Node => pyEq c.value (.str s)) =
            (n.children[j]?).map (fun c : Node => pyEq c.value (.str s)) := by
          intro j
          rw [List.getElem?_set]
          by_cases hj : i = j
          · subst hj
            rw [if_pos rfl, hmi]
            have := (List.getElem?_eq_some_iff.1 hmi).1
            simp [this, hk.value]
          · simp [hj]
        have hmap : (n.children.set i m').map (fun c : Node => pyEq c.value (.str s)) = n.children.map (fun c : Node => pyEq c.value (.str s)) := by
          apply List.ext_getElem?
          intro j
          rw [List.getElem?_map, List.getElem?_map]; exact hvals j
        have hf : ∀ l : List Node, l.findIdx? (fun c : Node => pyEq c.value (.str s)) = (l.map fun c : Node => pyEq c.value (.str s)).findIdx? id := by
          intro l; rw [List.findIdx?_map]; rfl
        show (n.children.set i m').findIdx? _ = _
        rw [hf, hmap, ← hf]
        exact hi
  refine ⟨?_, nodeAt_updateAt_self _ _ _ hm, hlast⟩
  rcases List.eq_nil_or_concat b with rfl | ⟨a, s, rfl⟩
  · exact absurd rfl hb
  · rw [List.concat_eq_append] at *
    obtain ⟨q, n, i, rfl, _, _, _, _, _, h1, h2, h3⟩ := hlast a s rfl
    rw [locate_concat, h1]
    simp [h2, h3]

theorem place_after (E : Env) {root : Node} {b rest : List Str} {e : Edit} (hb : b ≠ []) (hc : ∀ c ∈ b ++ rest, Component c)
    (hk : KeyPlace root b) (he : e.Within rest) : KeyPlace (treeAfter root (treeEdit E root (b ++ rest) e)) b := by
  cases hp : locate root b with
  | none => rw [after_none (treeEdit_gone E hp hp hk.1 hb hc he).2.1]; exact hk
  | some p =>
    obtain ⟨m, hm⟩ := locate_valid hp
    rcases treeEdit_inside E hp hm hk.1 he with h | ⟨m', h1, _, h2⟩
    · rw [after_none h]; exact hk
    · rw [after_some h2]
      obtain ⟨k1, k2, _⟩ := key_stays hb hp hm hk.1 h1
      refine ⟨hk.1, fun n hn => ?_⟩
      rw [← locate_lookup, k1, Option.bind_some, k2] at hn
      injection hn with hn
      subst hn
      rw [h1.key]
      exact hk.2 m (by rw [← locate_lookup, hp, Option.bind_some, hm])

/-! ## Removing -/

theorem remove_covers (E : Env) {root : Node} {b rest : List Str} {e : Edit} (hb : b ≠ []) (hc : ∀ c ∈ b ++ rest, Component c)
    (hk : KeyPlace root b) (he : e.Within rest) :
    let root' := treeAfter root (treeEdit E root (b ++ rest) e)
    (treeEdit E root' b .remove).1 = (treeEdit E root b .remove).1 ∧
      treeAfter root' (treeEdit E root' b .remove) = treeAfter root (treeEdit E root b .remove) := by
  intro root'
  cases hp : locate root b with
  | none =>
    have : root' = root := after_none (treeEdit_gone E hp hp hk.1 hb hc he).2.1
    rw [this]; exact ⟨rfl, rfl⟩
  | some p =>
    obtain ⟨m, hm⟩ := locate_valid hp
    have hmk : m.key = true := hk.2 m (by rw [← locate_lookup, hp, Option.bind_some, hm])
    rcases treeEdit_inside E hp hm hk.1 he with h | ⟨m', h1, _, h2⟩
    · have : root' = root := after_none h
      rw [this]; exact ⟨rfl, rfl⟩
    · have e0 : root' = putAt root p m' := after_some h2
      rcases List.eq_nil_or_concat b with rfl | ⟨a, s, rfl⟩
      · exact absurd rfl hb
      · rw [List.concat_eq_append] at *
        obtain ⟨q, n, i, rfl, g1, g2, g3, g4, g5, g6, g7, g8⟩ := (key_stays hb hp hm hk.1 h1).2.2 a s rfl
        have hlt := childIdx_lt g3
        have hb1 : bareValue m = false := by simp [bareValue, hmk]
        have hb2 : bareValue m' = false := by simp [bareValue, h1.key, hmk]
        have e1 := patchRemove_some g1 g2 g3 g4
        have e2 := patchRemove_some g6 g7 g8 (c := m') (by simp [hlt])
        rw [hb1] at e1
        rw [hb2] at e2
        simp only [Bool.false_eq_true, if_false] at e1 e2
        have e3 : updateAt (fun x => { x with children := x.children.eraseIdx i }) q (putAt root (q ++ [i]) m') =
            updateAt (fun x => { x with children := x.children.eraseIdx i }) q root := by
          rw [g5]
          unfold withKids
          rw [updateAt_comp, updateAt_const _ g2, updateAt_const (fun x => { x with children := x.children.eraseIdx i }) g2]
          simp [List.eraseIdx_set_eq]
        rw [e0]
        simp only [treeEdit, e1, e2, treeAfter, Option.getD_some, Option.isSome_some, e3]
        exact ⟨trivial, trivial⟩

/-! ## Putting a value in a place -/

theorem put_place (E : Env) {root m : Node} {b : List Str} {p : Pos} {e : Edit} (hb : b ≠ []) (hp : locate root b = some p)
    (hm : nodeAt root p = some m) (h : endsInNumber b = false) (hmk : m.key = true) (_ : Puts b e) :
    ∀ v, e = .replace v ∨ e = .add v ∧ b.getLast? ≠ some §"-" → (v = .sentinel ∧ ∀ root, treeEdit E root b e = (.error .jsonPatchValidation, none)) ∨
      treeEdit E root b e = (match newNodes E v with
        | .error x => (.error x, none)
        | .ok new => (.ok (.success true), some (withKids root p new))) := by
  have hbare : bareValue m = false := by simp [bareValue, hmk]
  rintro v (rfl | ⟨rfl, hd⟩)
  · by_cases hs : v = .sentinel
    · exact Or.inl ⟨hs, fun root => by simp [treeEdit, hs]⟩
    · right
      simp only [treeEdit, if_neg hs, replace_place E v hp hm (Or.inl h), hbare, Bool.false_eq_true, if_false]
      cases newNodes E v <;> rfl
  · by_cases hs : v = .sentinel
    · exact Or.inl ⟨hs, fun root => by simp [treeEdit, hs]⟩
    · right
      simp only [treeEdit, if_neg hs, add_existing E v hb hd hp hm (Or.inl h), hbare, Bool.false_eq_true, if_false]
      cases newNodes E v <;> rfl

theorem put_covers (E : Env) {root : Node} {b rest : List Str} {e e' : Edit} (hb : b ≠ []) (hc : ∀ c ∈ b ++ rest, Component c)
    (hk : KeyPlace root b) (he : e.Within rest) (hl : e.OnLine → rest ≠ []) (hp' : Puts b e')
    (hdone : (treeEdit E root b e').1.toOption = some (.success true)) :
    let root' := treeAfter root (treeEdit E root (b ++ rest) e)
    (treeEdit E root' b e').1 = (treeEdit E root b e').1 ∧
      treeAfter root' (treeEdit E root' b e') = treeAfter root (treeEdit E root b e') := by
  intro root'
  cases hp : locate root b with
  | none =>
    have : root' = root := after_none (treeEdit_gone E hp hp hk.1 hb hc he).2.1
    rw [this]; exact ⟨rfl, rfl⟩
  | some p =>
    obtain ⟨m, hm⟩ := locate_valid hp
    have hmk : m.key = true := hk.2 m (by rw [← locate_lookup, hp, Option.bind_some, hm])
    rcases treeEdit_inside E hp hm hk.1 he with h | ⟨m', h1, h2, h3⟩
    · have : root' = root := after_none h
      rw [this]; exact ⟨rfl, rfl⟩
    · have e0 : root' = putAt root p m' := after_some h3
      obtain ⟨k1, k2, _⟩ := key_stays hb hp hm hk.1 h1
      have hroot : putAt root p m' = withKids root p m'.children := by
        unfold withKids
        rw [updateAt_const (fun x => { x with children := m'.children }) hm, ← h2 hl]
      rw [e0]
      have p1 := put_place E hb hp hm hk.1 hmk hp'
      have p2 := put_place E hb k1 k2 hk.1 (h1.key.trans hmk) hp'
      obtain ⟨v, hv⟩ := hp'
      rcases p1 v hv with ⟨_, g⟩ | g
      · rw [g] at hdone; cases hdone
      · rcases p2 v hv with ⟨_, g'⟩ | g'
        · rw [g'] at hdone; cases hdone
        · rw [g, g']
          cases hn : newNodes E v with
          | error x => rw [g, hn] at hdone; cases hdone
          | ok new =>
            refine ⟨rfl, ?_⟩
            show withKids (putAt root p m') p new = withKids root p new
            rw [hroot, withKids_twice]

/-! ## Many edits -/

theorem editAll_root (E : Env) (x : PlacedEdit) (l : List PlacedEdit) (r : Recipe) :
    (editAll E r (x :: l)).2 = (editAll E (x.2.call E (absPath x.1) r).2 l).2 := rfl

/-- An edit that covers each edit of a kind covers any number of them. -/
theorem covered_all (E : Env) {b : List Str} (hb : b ≠ []) (hcb : ∀ c ∈ b, Component c) {e : Edit} {P : Node → Prop} {Q : PlacedEdit → Prop}
    (hQ : ∀ x, Q x → x.1 ≠ [] ∧ ∀ c ∈ x.1, Component c)
    (hone : ∀ root x, P root → Q x → let root' := treeAfter root (treeEdit E root x.1 x.2)
      P root' ∧ (treeEdit E root' b e).1 = (treeEdit E root b e).1 ∧
        treeAfter root' (treeEdit E root' b e) = treeAfter root (treeEdit E root b e)) :
    ∀ (l : List PlacedEdit) (r : Recipe), P r.root → (∀ x ∈ l, Q x) → Covered E r l (absPath b) e
  | [], r, _, _ => ⟨rfl, restored_refl _⟩
  | x :: l, r, hP, hl => by
    obtain ⟨g1, g2⟩ := hQ x (hl x (by simp))
    have d := call_does E r g1 g2 x.2
    obtain ⟨k1, k2, k3⟩ := hone r.root x hP (hl x (by simp))
    have hroot : (x.2.call E (absPath x.1) r).2.root = treeAfter r.root (treeEdit E r.root x.1 x.2) := d.root
    rw [← hroot] at k1 k2 k3
    obtain ⟨i1, i2⟩ := covered_all E hb hcb hQ hone l _ k1 (fun y hy => hl y (by simp [hy]))
    have d1 := call_does E r hb hcb e
    have d2 := call_does E (x.2.call E (absPath x.1) r).2 hb hcb e
    have first : (e.call E (absPath b) (x.2.call E (absPath x.1) r).2).1 = (e.call E (absPath b) r).1 ∧
        Restored (e.call E (absPath b) r).2 (e.call E (absPath b) (x.2.call E (absPath x.1) r).2).2 := by
      refine ⟨by rw [d2.answer, d1.answer, k2], restored_of ?_ ?_ ?_⟩
      · rw [d2.root, d1.root]; exact k3
      · rw [d2.vars, d1.vars, d.vars]
      · rw [d2.schema, d1.schema, d.schema]
    exact ⟨i1.trans first.1, restored_trans first.2 i2⟩

theorem inPlace_ok {b : List Str} (hb : b ≠ []) {x : PlacedEdit} (h : InPlace b x) : x.1 ≠ [] ∧ ∀ c ∈ x.1, Component c := by
  obtain ⟨rest, h1, h2, _⟩ := h
  exact ⟨by rw [h1]; simp [hb], h2⟩

/-! ## The theorems -/

/-- C117: removing a key covers every edit that was made at the key or below it. -/
theorem C117_remove (E : Env) (r : Recipe) (place : List Str) (others : List PlacedEdit) (hne : place ≠ [])
    (hc : ∀ c ∈ place, Component c) (hk : KeyPlace r.root place) (hin : ∀ x ∈ others, InPlace place x) :
    Covered E r others (absPath place) .remove := by
  refine covered_all E hne hc (P := fun root => KeyPlace root place) (fun x => inPlace_ok hne) ?_ others r hk hin
  rintro root ⟨path, e⟩ hk ⟨rest, h1, h2, h3⟩
  simp only at h1 h2 h3
  subst h1
  exact ⟨place_after E hne h2 hk h3, remove_covers E hne h2 hk h3⟩

/-- C117: a value that is put behind a key, by `replace` or `add`, covers every edit of the value that was there. -/
theorem C117_put (E : Env) (r : Recipe) (place : List Str) (others : List PlacedEdit) (e : Edit) (hne : place ≠ [])
    (hc : ∀ c ∈ place, Component c) (hk : KeyPlace r.root place) (hin : ∀ x ∈ others, InValue place x) (he : Puts place e)
    (hdone : (e.call E (absPath place) r).1.toOption = some (.success true)) : Covered E r others (absPath place) e := by
  rw [(call_does E r hne hc e).answer] at hdone
  refine covered_all E hne hc (P := fun root => KeyPlace root place ∧ (treeEdit E root place e).1.toOption = some (.success true))
    (fun x h => inPlace_ok hne h.1) ?_ others r ⟨hk, hdone⟩ hin
  rintro root ⟨path, e₁⟩ ⟨hk, hd⟩ ⟨⟨rest, h1, h2, h3⟩, h4⟩
  simp only at h1 h2 h3 h4
  subst h1
  have hcov := put_covers E hne h2 hk h3 (fun h h0 => h4 h (by simp [h0])) he hd
  exact ⟨⟨place_after E hne h2 hk h3, by rw [hcov.1]; exact hd⟩, hcov⟩

/-- C117: putting the old value back undoes every edit of the value. -/
theorem C117_put_back (E : Env) (r : Recipe) (place : List Str) (others : List PlacedEdit) (n : Node) (v : PyVal) (hne : place ≠ [])
    (hc : ∀ c ∈ place, Component c) (hk : KeyPlace r.root place) (hin : ∀ x ∈ others, InValue place x)
    (hn : lookup r.root place = some n) (hv : v ≠ .sentinel) (hold : newNodes E v = .ok n.children) :
    let out := (Edit.replace v).call E (absPath place) (editAll E r others).2
    out.1.toOption = some (.success true) ∧ Restored r out.2 := by
  intro out
  rw [← locate_lookup] at hn
  cases hp : locate r.root place with
  | none => rw [hp] at hn; cases hn
  | some p =>
    rw [hp, Option.bind_some] at hn
    have hnk : n.key = true := hk.2 n (by rw [← locate_lookup, hp, Option.bind_some, hn])
    have ht : treeEdit E r.root place (.replace v) = (.ok (.success true), some r.root) := by
      have hb : bareValue n = false := by simp [bareValue, hnk]
      simp only [treeEdit, if_neg hv, replace_place E v hp hn (Or.inl hk.1), hb, Bool.false_eq_true, if_false, hold, Except.map,
        withKids_self hn]
      rfl
    have d := call_does E r hne hc (.replace v)
    rw [ht] at d
    have hdone : ((Edit.replace v).call E (absPath place) r).1.toOption = some (.success true) := by rw [d.answer]; rfl
    obtain ⟨c1, c2⟩ := C117_put E r place others (.replace v) hne hc hk hin ⟨v, Or.inl rfl⟩ hdone
    refine ⟨by rw [show out.1 = _ from c1]; exact hdone, restored_trans (restored_of d.root d.vars d.schema) c2⟩

/-! ## List items -/

/-- Where an item of one value is. -/
structure ItemAt (root : Node) (init : List Str) (last : Str) (pos : Pos) (m : Node) (i : Nat) (c : Node) : Prop where
  number : isDigitS last = true
  list : locate root init = some pos
  node : nodeAt root pos = some m
  idx : childIdx m last = some i
  phys : (virtToPhys m.children)[natOfStr last]? = some i
  child : m.children[i]? = some c
  member : c.listMember = true
  value : c.value ≠ .sentinel
  leaf : c.children = []

theorem item_at {root : Node} {path : List Str} (h : ValueItem root path) :
    ∃ init last pos m i c, path = init ++ [last] ∧ ItemAt root init last pos m i c := by
  obtain ⟨h1, n, h2, h3, h4, h5⟩ := h
  rcases List.eq_nil_or_concat path with rfl | ⟨init, last, rfl⟩
  · cases h1
  · rw [List.concat_eq_append] at *
    rw [endsInNumber_concat] at h1
    rw [← locate_lookup, locate_concat] at h2
    cases hq : locate root init with
    | none => simp [hq] at h2
    | some pos =>
      obtain ⟨m, hm⟩ := locate_valid hq
      cases hi : childIdx m last with
      | none => simp [hq, hm, hi] at h2
      | some i =>
        simp only [hq, Option.bind_some, hm, hi, Option.map_some, nodeAt_append] at h2
        obtain ⟨g1, c, g2, g3⟩ := (childIdx_digit h1 i).1 hi
        simp only [nodeAt, g2, Option.some.injEq] at h2
        subst h2
        exact ⟨init, last, pos, m, i, c, rfl, h1, hq, hm, hi, g1, g2, h3, h4, h5⟩

theorem item_stays {root m c x : Node} {init : List Str} {last : Str} {pos : Pos} {i : Nat} (h : ItemAt root init last pos m i c)
    (h1 : x.listMember = true) (h2 : x.value ≠ .sentinel) (h3 : x.children = []) :
    ItemAt (withKids root pos (m.children.set i x)) init last pos { m with children := m.children.set i x } i x := by
  have hlt := childIdx_lt h.idx
  have hne : m.children ≠ [] := by intro h0; rw [h0] at hlt; simp at hlt
  obtain ⟨k1, k2⟩ := kids_stay (ks := m.children.set i x) h.list h.node (Or.inr ⟨hne, by simp [hne]⟩)
  have hx : (m.children.set i x)[i]? = some x := by simp [hlt]
  have hv : (virtToPhys (m.children.set i x))[natOfStr last]? = some i := by
    rw [virtToPhys_getElem?]
    refine ⟨⟨x, hx, ?_⟩, ?_⟩
    · simp [real, Node.isComment, Node.isSentinel, h2]
    · have := ((virtToPhys_getElem? _ _ _).1 h.phys).2
      rw [← this]
      congr 1
      rw [List.take_set_of_le (by omega)]
  exact ⟨h.number, k1, k2, (childIdx_digit h.number i).2 ⟨hv, x, hx, h1⟩, hv, hx, h1, h2, h3⟩

theorem item_value {root m c : Node} {init : List Str} {last : Str} {pos : Pos} {i : Nat} (h : ItemAt root init last pos m i c) :
    ValueItem root (init ++ [last]) := by
  refine ⟨by rw [endsInNumber_concat]; exact h.number, c, ?_, h.member, h.value, h.leaf⟩
  rw [← locate_lookup, locate_concat, h.list]
  simp [h.node, h.idx, nodeAt_append, nodeAt, h.child]

theorem item_single {c : Node} (h : c.children = []) : c.isSingleKey = false := by simp [Node.isSingleKey, h]
theorem item_collection {c : Node} (h : c.children = []) : c.isCollectionElement = false := by simp [Node.isCollectionElement, h]

theorem set_update {root m c : Node} {pos : Pos} {i : Nat} (hm : nodeAt root pos = some m) (hc : m.children[i]? = some c) (f : Node → Node) :
    updateAt f (pos ++ [i]) root = withKids root pos (m.children.set i (f c)) := by
  unfold withKids
  rw [update_below hm, updateAt_const (fun x => { x with children := m.children.set i (f c) }) hm]
  congr 1
  funext _
  simp only [updateAt]
  congr 1
  apply List.ext_getElem?
  intro j
  rw [List.getElem?_modify, List.getElem?_set]
  by_cases hj : i = j
  · subst hj
    rw [hc]
    simp [(List.getElem?_eq_some_iff.1 hc).1]
  · simp [hj]

/-- An edit of an item changes nothing, or puts another value in its place. -/
theorem item_edit (E : Env) {root m c : Node} {init : List Str} {last : Str} {pos : Pos} {i : Nat} (h : ItemAt root init last pos m i c)
    {e : Edit} (he : e.KeepsItem E) :
    (treeEdit E root (init ++ [last]) e).2 = none ∨
      ∃ x, x.listMember = true ∧ x.value ≠ .sentinel ∧ x.children = [] ∧
        (treeEdit E root (init ++ [last]) e).2 = some (withKids root pos (m.children.set i x)) := by
  have hloc : locate root (init ++ [last]) = some (pos ++ [i]) := by rw [locate_concat, h.list]; simp [h.node, h.idx]
  have hline : ∀ d, ∃ x : Node, x.listMember = true ∧ x.value ≠ .sentinel ∧ x.children = [] ∧
      updateAt (setLineComment d) (pos ++ [i]) root = withKids root pos (m.children.set i x) := by
    intro d
    refine ⟨setLineComment d c, h.member, h.value, ?_, set_update h.node h.child _⟩
    simp [setLineComment, item_single h.leaf, h.leaf]
  cases e with
  | add v => exact absurd he id
  | remove => exact absurd he id
  | replace v =>
    obtain ⟨hp, hv⟩ := he
    simp only [treeEdit]
    split
    · exact Or.inl rfl
    · rw [replace_item E v h.number h.list h.node h.phys h.child (item_collection h.leaf), h.member]
      simp only [if_true]
      cases hn : newNodes E v with
      | error x => exact Or.inl rfl
      | ok new =>
        obtain ⟨_, g⟩ := hv new hn
        obtain ⟨d, rfl, g1, g2⟩ := g hp
        refine Or.inr ⟨{ d with listMember := true }, rfl, g2, g1, ?_⟩
        simp only [Except.map, asListMembers, hp, Bool.not_true, Bool.false_eq_true, if_false, List.map_cons, List.map_nil,
          List.length_singleton]
        rw [swap_one h.child, List.set_eq_take_append_cons_drop, if_pos (List.getElem?_eq_some_iff.1 h.child).1]
  | test v =>
    simp only [treeEdit]
    split <;> exact Or.inl rfl
  | addSelector s mode =>
    simp only [treeEdit, hloc]
    split
    · exact Or.inl rfl
    · obtain ⟨x, g1, g2, g3, g4⟩ := hline (addSelectorComment (((nodeAt root (pos ++ [i])).map (·.comment)).getD []) s mode)
      exact Or.inr ⟨x, g1, g2, g3, by rw [← g4]⟩
  | removeSelector =>
    simp only [treeEdit, hloc]
    split
    · exact Or.inl rfl
    · rename_i t _
      obtain ⟨x, g1, g2, g3, g4⟩ := hline (Recipe.removeSelectorComment (((nodeAt root (pos ++ [i])).map (·.comment)).getD []) t.text)
      exact Or.inr ⟨x, g1, g2, g3, by rw [← g4]⟩
  | addComment text =>
    simp only [treeEdit, hloc]
    split
    · exact Or.inl rfl
    · split
      · exact Or.inl rfl
      · obtain ⟨x, g1, g2, g3, g4⟩ := hline (Recipe.addCommentText (((nodeAt root (pos ++ [i])).map (·.comment)).getD []) (strip text))
        exact Or.inr ⟨x, g1, g2, g3, by rw [← g4]⟩

theorem swap_set {l : List Node} {i : Nat} (hi : i < l.length) (x : Node) (new : List Node) :
    (insertAll (l.set i x) i new).eraseIdx (i + new.length) = (insertAll l i new).eraseIdx (i + new.length) := by
  have key : ∀ a : List Node, i < a.length → (insertAll a i new).eraseIdx (i + new.length) = a.take i ++ new ++ a.drop (i + 1) := by
    intro a ha
    obtain ⟨pre, y, post, h1, h2, h3⟩ := swapped_insertAll (new := new) (List.getElem?_eq_getElem ha)
    rw [h3, h1, ← h2]
    simp
  rw [key _ (by simpa using hi), key _ hi, List.take_set_of_le (by omega), List.drop_set_of_lt (by omega)]

theorem item_covers (E : Env) {root m c : Node} {init : List Str} {last : Str} {pos : Pos} {i : Nat} (h : ItemAt root init last pos m i c)
    {e e' : Edit} (he : e.KeepsItem E) (he' : e' = .remove ∨ ∃ v, e' = .replace v)
    (hdone : (treeEdit E root (init ++ [last]) e').1.toOption = some (.success true)) :
    let root' := treeAfter root (treeEdit E root (init ++ [last]) e)
    ValueItem root' (init ++ [last]) ∧ (treeEdit E root' (init ++ [last]) e').1 = (treeEdit E root (init ++ [last]) e').1 ∧
      treeAfter root' (treeEdit E root' (init ++ [last]) e') = treeAfter root (treeEdit E root (init ++ [last]) e') := by
  intro root'
  rcases item_edit E h he with hx | ⟨x, x1, x2, x3, hx⟩
  · have : root' = root := after_none hx
    rw [this]; exact ⟨item_value h, rfl, rfl⟩
  · have e0 : root' = withKids root pos (m.children.set i x) := after_some hx
    have h' := item_stays h x1 x2 x3
    rw [e0]
    refine ⟨item_value h', ?_⟩
    have hlt := childIdx_lt h.idx
    rcases he' with rfl | ⟨v, rfl⟩
    · have e1 := patchRemove_some h.list h.node h.idx h.child
      have e2 := patchRemove_some h'.list h'.node h'.idx h'.child
      have b1 : bareValue c = false := by simp [bareValue, h.member]
      have b2 : bareValue x = false := by simp [bareValue, x1]
      rw [b1] at e1
      rw [b2] at e2
      simp only [Bool.false_eq_true, if_false] at e1 e2
      have e3 : updateAt (fun x => { x with children := x.children.eraseIdx i }) pos (withKids root pos (m.children.set i x)) =
          updateAt (fun x => { x with children := x.children.eraseIdx i }) pos root := by
        unfold withKids
        rw [updateAt_comp, updateAt_const _ h.node, updateAt_const (fun x => { x with children := x.children.eraseIdx i }) h.node]
        simp [List.eraseIdx_set_eq]
      simp only [treeEdit, e1, e2, treeAfter, Option.getD_some, Option.isSome_some, e3]
      exact ⟨trivial, trivial⟩
    · have e1 := replace_item E v h.number h.list h.node h.phys h.child (item_collection h.leaf)
      have e2 := replace_item E v h'.number h'.list h'.node h'.phys h'.child (item_collection h'.leaf)
      rw [h.member] at e1
      rw [h'.member] at e2
      simp only [if_true] at e1 e2
      by_cases hs : v = .sentinel
      · simp only [treeEdit, if_pos hs] at hdone; cases hdone
      · simp only [treeEdit, if_neg hs, e1, e2] at hdone ⊢
        cases hn : newNodes E v with
        | error x => rw [hn] at hdone; cases hdone
        | ok new =>
          simp only [Except.map, treeAfter, Option.getD_some, Option.isSome_some]
          refine ⟨trivial, ?_⟩
          rw [withKids_twice, swap_set hlt]

/-- C117: replacing or removing an item of a list covers every edit of the item that left it one value. -/
theorem C117_item_partial (E : Env) (r : Recipe) (place : List Str) (others : List PlacedEdit) (e : Edit)
    (hc : ∀ c ∈ place, Component c) (hk : ValueItem r.root place) (hin : ∀ x ∈ others, x.1 = place ∧ x.2.KeepsItem E)
    (he : e = .remove ∨ ∃ v, e = .replace v)
    (hdone : (e.call E (absPath place) r).1.toOption = some (.success true)) : Covered E r others (absPath place) e := by
  have hne : place ≠ [] := by rintro rfl; cases hk.1
  rw [(call_does E r hne hc e).answer] at hdone
  refine covered_all E hne hc (P := fun root => ValueItem root place ∧ (treeEdit E root place e).1.toOption = some (.success true))
    (fun x h => ⟨by rw [h.1]; exact hne, by rw [h.1]; exact hc⟩) ?_ others r ⟨hk, hdone⟩ hin
  rintro root ⟨path, e₁⟩ ⟨hk, hd⟩ ⟨h1, h2⟩
  simp only at h1 h2
  subst h1
  obtain ⟨init, last, pos, m, i, c, rfl, h⟩ := item_at hk
  obtain ⟨g1, g2, g3⟩ := item_covers E h h2 he hd
  exact ⟨⟨g1, by rw [g2]; exact hd⟩, g2, g3⟩

/-! ## Selectors and variables -/

theorem setLineComment_covers {n : Node} (h : n.isSingleKey = true → ∀ x ∈ n.children, x.isSentinel = false) (c d : Str) :
    setLineComment d (setLineComment c n) = setLineComment d n := by
  unfold setLineComment
  by_cases hs : n.isSingleKey = true
  · have h' := h hs
    obtain ⟨y, hy, hyc⟩ : ∃ y, n.children = [y] ∧ y.children = [] := by
      unfold Node.isSingleKey at hs
      rcases hch : n.children with _ | ⟨y, _ | ⟨z, ys⟩⟩ <;> simp_all [Node.isLeaf]
    have hyv : y.isSentinel = false := h' y (by simp [hy])
    have hk : n.key = true := by simp only [Node.isSingleKey, Bool.and_eq_true] at hs; exact hs.1
    have hleaf : ({ y with comment := c } : Node).isLeaf = true := by
      simp only [Node.isSentinel] at hyv
      simp [Node.isLeaf, Node.isComment, Node.isSentinel, hyc, hyv]
    have h2 : ({ n with comment := c, children := [{ y with comment := c }] } : Node).isSingleKey = true := by
      simp [Node.isSingleKey, hk, hleaf]
    simp only [hs, if_true, hy, List.map_cons, List.map_nil, h2]
  · have h2 : ({ n with comment := c, children := n.children } : Node).isSingleKey = n.isSingleKey := rfl
    simp only [if_neg hs, h2]

theorem line_root (E : Env) {r : Recipe} {path : Str} {st : List Str} {pos : Pos} {e : Edit} (he : e.OnLine)
    (h1 : strToStack path = .ok st) (h2 : traverse r.root st = some pos) :
    ((e.call E path r).2.root = r.root ∨ ∃ c, (e.call E path r).2.root = updateAt (setLineComment c) pos r.root) ∧
      (e.call E path r).2.vars = r.vars ∧ (e.call E path r).2.schema = r.schema := by
  cases e with
  | addSelector s mode =>
    simp only [Edit.call, Recipe.addSelector, h1, h2]
    split
    · exact ⟨Or.inl rfl, rfl, rfl⟩
    · exact ⟨Or.inr ⟨_, rfl⟩, rfl, rfl⟩
  | removeSelector =>
    simp only [Edit.call, Recipe.removeSelector, h1, h2]
    split
    · exact ⟨Or.inl rfl, rfl, rfl⟩
    · exact ⟨Or.inr ⟨_, rfl⟩, rfl, rfl⟩
  | addComment text =>
    simp only [Edit.call, Recipe.addComment, h1, h2]
    split
    · exact ⟨Or.inl rfl, rfl, rfl⟩
    · split
      · exact ⟨Or.inl rfl, rfl, rfl⟩
      · exact ⟨Or.inr ⟨_, rfl⟩, rfl, rfl⟩
  | add v => exact absurd he id
  | remove => exact absurd he id
  | replace v => exact absurd he id
  | test v => exact absurd he id

/-- C117: a selector that is set in REPLACE mode covers what was done to the comment of the line before. -/
theorem C117_selector (E : Env) (r : Recipe) (path selector : Str) (e : Edit) (h : OrdinaryPath r path) (he : e.OnLine)
    (hs : (r.addSelector path selector .replace).1 = .ok ()) :
    let alone := r.addSelector path selector .replace
    let after := (e.call E path r).2.addSelector path selector .replace
    after.1 = .ok () ∧ Restored alone.2 after.2 := by
  intro alone after
  obtain ⟨st, pos, n, h1, h2, h3, h4, h5⟩ := ordinary_path h
  obtain ⟨g1, g2, g3⟩ := line_root E he h1 h2
  have hcom : ∀ old, addSelectorComment old selector .replace = §"# " ++ selector := by intro old; simp [addSelectorComment]
  cases hm : (Regex.selector.matchStart selector).isNone with
  | true => simp only [Recipe.addSelector, h1, h2, hm, if_true] at hs; cases hs
  | false =>
    have out : ∀ r' : Recipe, traverse r'.root st = some pos → r'.addSelector path selector .replace =
        (.ok (), { r' with root := updateAt (setLineComment (§"# " ++ selector)) pos r'.root,
                           selTbl := rebuildSelectors (updateAt (setLineComment (§"# " ++ selector)) pos r'.root), modified := true }) := by
      intro r' htr
      simp only [Recipe.addSelector, h1, htr, hm, hcom, Bool.false_eq_true, if_false]
    have e1 := out r h2
    have htr : traverse (e.call E path r).2.root st = some pos := by
      rcases g1 with g1 | ⟨c, g1⟩
      · rw [g1, h2]
      · rw [(h5 c _ g1).2.1, h2]
    have e2 := out _ htr
    refine ⟨by rw [show after = _ from e2], ?_⟩
    rw [show after = _ from e2, show alone = _ from e1]
    refine restored_of ?_ g2 g3
    show updateAt _ pos (e.call E path r).2.root = updateAt _ pos r.root
    rcases g1 with g1 | ⟨c, g1⟩
    · rw [g1]
    · obtain ⟨n', k1, _, k2⟩ := h
      have hn' : n' = n := by
        simp only [Recipe.nodeAtPath, h1, bind, Except.bind, h2, Option.bind_some, h3, Except.ok.injEq, Option.some.injEq] at k1
        exact k1.symm
      subst hn'
      rw [g1, updateAt_comp, updateAt_const _ h3, updateAt_const (setLineComment (§"# " ++ selector)) h3]
      simp only [Function.comp_def, setLineComment_covers k2]

/-- C117: the last value of a variable counts. -/
theorem C117_variable (r : Recipe) (k : Str) (v w : PyVal) : (r.setVariable k v).setVariable k w = r.setVariable k w := by
  have : ∀ d : List (Str × PyVal), insertD k w (insertD k v d) = insertD k w d := by
    intro d
    induction d with
    | nil => simp [insertD]
    | cons x d ih =>
      obtain ⟨l, u⟩ := x
      by_cases h : l = k
      · subst h; simp [insertD]
      · simp [insertD, h, ih]
  simp only [Recipe.setVariable, this]

/-! ## Cases that meet the hypotheses -/

namespace CoveredExample

theorem keyPlace {root : Node} {path : List Str} (h : endsInNumber path = false)
    (hk : (match lookup root path with | some n => n.key | none => true) = true) : KeyPlace root path := by
  refine ⟨h, fun n hn => ?_⟩
  rw [hn] at hk
  exact hk

/-- A value is replaced, a key is added, a line gets a selector; something is tried that is not there. -/
def edits : List PlacedEdit := [([§"a", §"x"], .replace (.str §"foo")), ([§"a", §"title"], .add (.str §"foo")),
  ([§"a", §"x"], .addSelector §"[win]" .replace), ([§"a", §"z"], .remove)]

theorem inValue : ∀ x ∈ edits, InValue [§"a"] x := by
  intro x hx
  simp only [edits, List.mem_cons, List.not_mem_nil, or_false] at hx
  rcases hx with rfl | rfl | rfl | rfl <;>
    exact ⟨⟨[_], rfl, by intro c h; exact RepeatExample.comp c (by simp at h; rcases h with rfl | rfl <;> simp), by simp [Edit.Within]⟩, by simp⟩

example : (editAll Toy.env exPatch edits).2.render = §"a:\n  x: foo  # [win]\n  title: foo\n\nl:\n  - p\n  - q\n" := by decide +kernel

example : Covered Toy.env exPatch edits (absPath [§"a"]) .remove :=
  C117_remove _ _ _ _ (by simp) (by intro c h; exact RepeatExample.comp c (by simp at h; simp [h])) (keyPlace (by decide) (by decide +kernel))
    fun x hx => (inValue x hx).1

example : Covered Toy.env exPatch edits (absPath [§"a"]) (.replace (.dict [(§"title", .str §"foo")])) :=
  C117_put _ _ _ _ _ (by simp) (by intro c h; exact RepeatExample.comp c (by simp at h; simp [h])) (keyPlace (by decide) (by decide +kernel))
    inValue ⟨_, Or.inl rfl⟩ (by decide +kernel)

example : ((Edit.replace (.dict [(§"title", .str §"foo")])).call Toy.env §"/a" (editAll Toy.env exPatch edits).2).2.render =
    §"a:\n  title: foo\n\nl:\n  - p\n  - q\n" := by decide +kernel

/-- An item gets a selector and another value before it is removed. -/
def itemEdits : List PlacedEdit := [([§"l", §"0"], .addSelector §"[win]" .replace), ([§"l", §"0"], .replace (.str §"foo"))]

theorem valueItem {root : Node} {path : List Str} (h : endsInNumber path = true) (hk : (match lookup root path with
    | some n => n.listMember && !n.isSentinel && n.children.isEmpty | none => false) = true) : ValueItem root path := by
  refine ⟨h, ?_⟩
  cases hl : lookup root path with
  | none => rw [hl] at hk; cases hk
  | some n =>
    rw [hl] at hk
    simp only [Bool.and_eq_true, Bool.not_eq_true', List.isEmpty_iff, Node.isSentinel] at hk
    exact ⟨n, rfl, hk.1.1, by intro h0; rw [h0] at hk; simp at hk, hk.2⟩

example : Covered Toy.env exPatch itemEdits (absPath [§"l", §"0"]) .remove :=
  C117_item_partial _ _ _ _ _ (by intro c h; exact RepeatExample.comp c (by simp at h; rcases h with rfl | rfl <;> simp))
    (valueItem (by decide) (by decide +kernel))
    (by
      intro x hx
      simp only [itemEdits, List.mem_cons, List.not_mem_nil, or_false] at hx
      rcases hx with rfl | rfl
      · exact ⟨rfl, trivial⟩
      · exact ⟨rfl, rfl, RepeatExample.oneEntry⟩)
    (Or.inl rfl) (by decide +kernel)

/-- The old value of `/a/x` is put back. -/
example : newNodes Toy.env (.int 1) = .ok [{ value := .int 1 }] ∧
    (lookup exPatch.root [§"a", §"x"]).map (·.children) = some [{ value := .int 1 }] := ⟨by decide +kernel, by decide +kernel⟩
example : let r := ((Edit.replace (.str §"foo")).call Toy.env §"/a/x" exPatch).2
    ((Edit.replace (.int 1)).call Toy.env §"/a/x" r).2.render = exPatch.render := by decide +kernel

example : OrdinaryPath exSel §"/a/y" ∧ (Edit.addComment §"other").OnLine ∧ (exSel.addSelector §"/a/y" §"[osx]" .replace).1.toOption = some () :=
  ⟨.of_check (by decide +kernel), trivial, by decide +kernel⟩

end CoveredExample

/-! ## Where it fails -/

/-- A list item that was a mapping for a while does not become the text that is put there in the end: the text is written
one level deeper than the next item. -/
theorem C117_item_violation :
    let text := (Edit.replace (.str §"foo")).call Toy.env §"/l/0"
    let mapping := (Edit.replace (.dict [(§"title", .str §"foo")])).call Toy.env §"/l/0"
    (text exPatch).2.render = §"a:\n  x: 1\n\nl:\n  - foo\n  - q\n" ∧
    (mapping exPatch).2.render = §"a:\n  x: 1\n\nl:\n  - title: foo\n  - q\n" ∧
    (text (mapping exPatch).2).2.render = §"a:\n  x: 1\n\nl:\n    - foo\n  - q\n" := ⟨by decide +kernel, by decide +kernel, by decide +kernel⟩

/-- C12: a mapping in a list that is replaced by a text is read as a list with the text, and the text is written one level
deeper than the next item. -/
theorem C12_mapping_in_list_violation :
    let r := Toy.recipe "l:\n  - title: foo\n    u: x\n  - q\n"
    let out := (Edit.replace (.str §"foo")).call Toy.env §"/l/0" r
    out.1.toOption = some (.success true) ∧ (out.2.getValue Toy.env §"/l/0" none false).toOption = some (.list [.str §"foo"]) ∧
    out.2.render = §"l:\n    - foo\n  - q\n" := ⟨by decide +kernel, by decide +kernel, by decide +kernel⟩

end Crm
