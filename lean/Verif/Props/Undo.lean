import Verif.Spec.Undo
import Verif.Lemmas.DocEdit
import Verif.Lemmas.PatchFrame
import Verif.Lemmas.LayoutLine
import Verif.Props.Session
import Verif.Props.SelectorEdit
import Verif.Props.Sort
import Verif.Props.Transfer

/-!
# C114: An addition can be taken back

Adding something new and removing it again leaves the recipe as it was.
-/

namespace Crm
open Spec Doc

/-! ## Lemmas -/

theorem restored_edited (r : Recipe) : Restored r (edited r r.root) := ⟨rfl, rfl, rfl, rfl⟩

/-- Of two changes of the children of a node the second undoes the first. -/
theorem changed_back {f g : List Node → List Node → Prop} : ∀ {pos : Pos} {a b c : Node}, ChildrenChanged f pos a b →
    ChildrenChanged g pos b c → (∀ x y z, f x y → g y z → z = x) → c = a := by
  intro pos
  induction pos with
  | nil =>
    intro a b c h1 h2 h
    have e1 := changed_fields h1
    have e2 := changed_fields h2
    have e3 := h _ _ _ (changed_here h1) (changed_here h2)
    cases a; cases b; cases c
    simp_all
  | cons i pos ih =>
    intro a b c h1 h2 h
    have e1 := changed_fields h1
    have e2 := changed_fields h2
    obtain ⟨pre, x, x', post, p1, p2, p3, p4⟩ := changed_there h1
    obtain ⟨pre', y, y', post', q1, q2, q3, q4⟩ := changed_there h2
    rw [p4] at q1
    obtain ⟨rfl, rfl, rfl⟩ := split_eq q1 (p2.trans q2.symm)
    have e3 := ih p3 q3 h
    subst e3
    rw [← p1] at q4
    cases a; cases b; cases c
    simp_all

theorem inserted_back {i : Nat} {n : Node} (a b c : List Node) (h1 : Inserted i [n] a b) (h2 : Without i b c) : c = a := by
  obtain ⟨pre, post, rfl, h3, rfl⟩ := h1
  obtain ⟨pre', x, post', h4, h5, rfl⟩ := h2
  simp only [List.append_assoc, List.singleton_append] at h4
  obtain ⟨rfl, rfl, rfl⟩ := split_eq h4 (h3.trans h5.symm)
  rfl

/-- A new node can be removed again if the path leads to it. -/
theorem undone {E : Env} {r : Recipe} {q : PyVal} {init : List Str} {last : Str} {pos : Pos} {i : Nat} {x root' : Node}
    (hc : ∀ c ∈ init ++ [last], Component c) (hq : IsPatch q §"remove" (absPath (init ++ [last]))) (hl : locate r.root init = some pos)
    (h : ChildrenChanged (Inserted i [x]) pos r.root root') (hb : bareValue x = false)
    (hi : ∀ m pre post, nodeAt r.root pos = some m → m.children = pre ++ post → pre.length = i →
      childIdx { m with children := pre ++ x :: post } last = some i) :
    (edited r root').patch E q = (.ok true, edited r r.root) := by
  obtain ⟨m, b, g1, g2, pre, post, g3, g4, g5⟩ := changed_node h
  simp only [List.append_assoc, List.singleton_append] at g5
  subst g5
  have hl' : locate root' init = some pos := by
    by_cases hne : init = []
    · subst hne; exact hl
    · refine locate_changed_self h ?_ hl
      intro m1 m2 k1 k2
      rw [g1] at k1
      rw [g2] at k2
      obtain rfl := Option.some.inj k1
      obtain rfl := Option.some.inj k2
      rw [locate_real hne hl g1]
      simp [Node.isComment]
  have hloc : locate (edited r root').root (init ++ [last]) = some (pos ++ [i]) := by
    show locate root' _ = _
    rw [locate_concat, hl', Option.bind_some, g2, Option.bind_some, hi m pre post g1 g3 g4]; rfl
  have hat : nodeAt (edited r root').root (pos ++ [i]) = some x := by
    show nodeAt root' _ = _
    rw [nodeAt_append, g2, Option.bind_some]
    simp [nodeAt, ← g4]
  have := (C09_remove E (edited r root') q init last hc hq).2 pos i x hloc hat
  rw [if_neg (by rw [hb]; simp)] at this
  obtain ⟨root'', k1, k2⟩ := this
  rw [k1, changed_back h k2 fun a b c => inserted_back a b c]
  rfl

/-- What a value becomes in a list. -/
theorem listEntry_nodes {E : Env} {v : PyVal} (h : ListEntry E v) :
    ∃ new x, newNodes E v = .ok new ∧ asElement v new = [x] ∧ real x = true ∧ x.listMember = true := by
  rcases h with ⟨w, h⟩ | ⟨new, h⟩
  · refine ⟨_, _, newNodes_scalar h.primitive h.reads h.scalar h.notSchema h.oneLine, asElement_primitive h.primitive _, ?_, rfl⟩
    simp [real, Node.isComment]
  · refine ⟨_, _, newNodes_document E v h.notPrimitive _ h.wellFormed h.nonEmpty h.noText h.written h.notSchema,
      asElement_collection h _, ?_, rfl⟩
    simp [real, Node.isComment]

theorem bareValue_member {x : Node} (h : x.listMember = true) : bareValue x = false := by simp [bareValue, h]

theorem appended_inserted {pos : Pos} {t t' m : Node} {x : Node} (hm : nodeAt t pos = some m) (h : ChildrenChanged (Appended [x]) pos t t') :
    ChildrenChanged (Inserted m.children.length [x]) pos t t' := by
  have : ∀ {pos : Pos} {t t' : Node}, ChildrenChanged (Appended [x]) pos t t' → nodeAt t pos = some m →
      ChildrenChanged (Inserted m.children.length [x]) pos t t' := by
    intro pos t t' h
    induction h with
    | here n cs hf =>
      intro hm
      obtain rfl := Option.some.inj hm
      exact .here n cs ⟨n.children, [], by simp, rfl, by rw [hf]; simp⟩
    | there n pre c c' post p hn hch ih =>
      intro hm
      refine .there n pre c c' post p hn (ih ?_)
      simpa [nodeAt, hn] using hm
  exact this h hm

/-! ## Patches -/

/-- C114: a new key goes away again, whatever its value is. -/
theorem C114_new_key_partial (E : Env) (r : Recipe) (p q v : PyVal) (init : List Str) (last : Str) (pos : Pos) (m : Node)
    (hc : ∀ c ∈ init ++ [last], Component c) (hp : IsPatch p §"add" (absPath (init ++ [last])))
    (hv : field p §"value" = some v) (hq : IsPatch q §"remove" (absPath (init ++ [last])))
    (hname : isDigitS last = false) (hdash : last ≠ §"-") (hnew : locate r.root (init ++ [last]) = none)
    (hpar : locate r.root init = some pos) (hm : nodeAt r.root pos = some m)
    (hplace : endsInNumber init = false ∨ m.isCollectionElement = true) (hbare : bareValue m = false) (hd : KeyEntry E last v) :
    (r.patch E p).1 = .ok true ∧ ((r.patch E p).2.patch E q).1 = .ok true ∧ Restored r ((r.patch E p).2.patch E q).2 := by
  obtain ⟨d, hcol, hk⟩ := hd
  have := C10_new_key E r p v init last pos m hc hp hv hname hdash hnew hpar hm hplace hbare
  rw [newNodes_document E _ hcol.notPrimitive [d] hcol.wellFormed hcol.nonEmpty hcol.noText hcol.written hcol.notSchema] at this
  obtain ⟨root', g1, g2⟩ := this
  obtain ⟨k1, k2⟩ := keyOf_node hk
  have hno : childIdx m last = none := by
    rw [locate_concat, hpar, Option.bind_some, hm, Option.bind_some] at hnew
    simpa using hnew
  have hu : (edited r root').patch E q = (.ok true, edited r r.root) := by
    refine undone hc hq hpar (appended_inserted hm g2) (by simp [bareValue, k2]) ?_
    intro m' pre post h1 h2 h3
    rw [hm] at h1
    obtain rfl := Option.some.inj h1
    have : post = [] := by
      rw [h2, List.length_append] at h3
      exact List.length_eq_zero_iff.1 (by omega)
    subst this
    rw [← h3]
    refine childIdx_key hname rfl ?_ k1
    intro c hcm
    simp only [childIdx, hname, Bool.false_eq_true, if_false] at hno
    rw [List.findIdx?_eq_none_iff] at hno
    simpa using hno c (by rw [h2]; simp [hcm])
  rw [g1]
  show _ ∧ ((edited r root').patch E q).1 = _ ∧ _
  rw [hu]
  exact ⟨rfl, rfl, restored_edited r⟩

/-- C114: an entry put in front of a list item goes away again. -/
theorem C114_inserted_partial (E : Env) (r : Recipe) (p q v : PyVal) (init : List Str) (last : Str) (pos : Pos) (i : Nat) (c : Node)
    (hc : ∀ c ∈ init ++ [last], Component c) (hp : IsPatch p §"add" (absPath (init ++ [last])))
    (hv : field p §"value" = some v) (hq : IsPatch q §"remove" (absPath (init ++ [last]))) (hnum : isDigitS last = true)
    (hl : locate r.root (init ++ [last]) = some (pos ++ [i])) (hcn : nodeAt r.root (pos ++ [i]) = some c)
    (hcol : c.isCollectionElement = false) (hd : ListEntry E v) :
    (r.patch E p).1 = .ok true ∧ ((r.patch E p).2.patch E q).1 = .ok true ∧ Restored r ((r.patch E p).2.patch E q).2 := by
  obtain ⟨new, x, e1, e2, e3, e4⟩ := listEntry_nodes hd
  have := C11_insert E r p v init last pos i c hc hp hv hnum hl hcn hcol
  rw [e1] at this
  obtain ⟨root', g1, g2⟩ := this
  rw [e2] at g2
  obtain ⟨m, hi, hm, hx, hcm⟩ := locate_last hl hcn
  have hu : (edited r root').patch E q = (.ok true, edited r r.root) := by
    refine undone hc hq hi g2 (bareValue_member e4) ?_
    intro m' pre post h1 h2 h3
    rw [hm] at h1
    obtain rfl := Option.some.inj h1
    rw [← h3]
    refine childIdx_number hnum rfl ?_ e3 e4
    simp only [childIdx, hnum, if_true] at hx
    have := List.find?_some hx
    rw [hcm] at this
    simp only [Bool.and_eq_true, decide_eq_true_eq, h2, ← h3, List.take_left] at this
    exact this.2
  rw [g1]
  show _ ∧ ((edited r root').patch E q).1 = _ ∧ _
  rw [hu]
  exact ⟨rfl, rfl, restored_edited r⟩

/-- C114: an entry put at the end of a list goes away again. -/
theorem C114_appended_partial (E : Env) (r : Recipe) (p q v : PyVal) (init : List Str) (last : Str) (pos : Pos) (m : Node)
    (hc : ∀ c ∈ init ++ [last], Component c) (hp : IsPatch p §"add" (absPath (init ++ [§"-"])))
    (hv : field p §"value" = some v) (hq : IsPatch q §"remove" (absPath (init ++ [last]))) (hl : locate r.root init = some pos)
    (hm : nodeAt r.root pos = some m) (hplace : endsInNumber init = false ∨ m.isCollectionElement = true)
    (hbare : bareValue m = false) (hnum : isDigitS last = true) (hlast : natOfStr last = m.children.countP real) (hd : ListEntry E v) :
    (r.patch E p).1 = .ok true ∧ ((r.patch E p).2.patch E q).1 = .ok true ∧ Restored r ((r.patch E p).2.patch E q).2 := by
  obtain ⟨new, x, e1, e2, e3, e4⟩ := listEntry_nodes hd
  have := C11_append E r p v init pos m (fun c h => hc c (by simp [h])) hp hv hl hm hplace
  rw [if_neg (by rw [hbare]; simp), e1] at this
  obtain ⟨root', g1, g2⟩ := this
  rw [e2] at g2
  have hu : (edited r root').patch E q = (.ok true, edited r r.root) := by
    refine undone hc hq hl (appended_inserted hm g2) (bareValue_member e4) ?_
    intro m' pre post h1 h2 h3
    rw [hm] at h1
    obtain rfl := Option.some.inj h1
    have : post = [] := by
      rw [h2, List.length_append] at h3
      exact List.length_eq_zero_iff.1 (by omega)
    subst this
    rw [← h3]
    exact childIdx_number hnum rfl (by rw [hlast, h2, List.append_nil]) e3 e4
  rw [g1]
  show _ ∧ ((edited r root').patch E q).1 = _ ∧ _
  rw [hu]
  exact ⟨rfl, rfl, restored_edited r⟩

/-- C114: what was copied to a new key goes away again, and with it nothing else. -/
theorem C114_copied_key_partial (E : Env) (r : Recipe) (p q v : PyVal) (init : List Str) (last src : Str) (pos : Pos) (m : Node)
    (hc : ∀ c ∈ init ++ [last], Component c) (hp : IsPatch p §"copy" (absPath (init ++ [last])))
    (hs : field p §"from" = some (.str src)) (hv : r.getValue E src = .ok v) (hvs : v ≠ .sentinel)
    (hq : IsPatch q §"remove" (absPath (init ++ [last])))
    (hname : isDigitS last = false) (hdash : last ≠ §"-") (hnew : locate r.root (init ++ [last]) = none)
    (hpar : locate r.root init = some pos) (hm : nodeAt r.root pos = some m)
    (hplace : endsInNumber init = false ∨ m.isCollectionElement = true) (hbare : bareValue m = false) (hd : KeyEntry E last v) :
    (r.patch E p).1 = .ok true ∧ ((r.patch E p).2.patch E q).1 = .ok true ∧ Restored r ((r.patch E p).2.patch E q).2 := by
  rw [C14_copy_is_add E r p v _ src hp hs hv hvs]
  exact C114_new_key_partial E r _ q v init last pos m hc (mk_add (isPatch_path_ne hp) hvs) rfl hq hname hdash hnew hpar hm hplace hbare hd

/-- C114: what was copied in front of a list item goes away again. -/
theorem C114_copied_item_partial (E : Env) (r : Recipe) (p q v : PyVal) (init : List Str) (last src : Str) (pos : Pos) (i : Nat) (c : Node)
    (hc : ∀ c ∈ init ++ [last], Component c) (hp : IsPatch p §"copy" (absPath (init ++ [last])))
    (hs : field p §"from" = some (.str src)) (hv : r.getValue E src = .ok v) (hvs : v ≠ .sentinel)
    (hq : IsPatch q §"remove" (absPath (init ++ [last]))) (hnum : isDigitS last = true)
    (hl : locate r.root (init ++ [last]) = some (pos ++ [i])) (hcn : nodeAt r.root (pos ++ [i]) = some c)
    (hcol : c.isCollectionElement = false) (hd : ListEntry E v) :
    (r.patch E p).1 = .ok true ∧ ((r.patch E p).2.patch E q).1 = .ok true ∧ Restored r ((r.patch E p).2.patch E q).2 := by
  rw [C14_copy_is_add E r p v _ src hp hs hv hvs]
  exact C114_inserted_partial E r _ q v init last pos i c hc (mk_add (isPatch_path_ne hp) hvs) rfl hq hnum hl hcn hcol hd

/-- C114: what was copied to the end of a list goes away again. -/
theorem C114_copied_end_partial (E : Env) (r : Recipe) (p q v : PyVal) (init : List Str) (last src : Str) (pos : Pos) (m : Node)
    (hc : ∀ c ∈ init ++ [last], Component c) (hp : IsPatch p §"copy" (absPath (init ++ [§"-"])))
    (hs : field p §"from" = some (.str src)) (hv : r.getValue E src = .ok v) (hvs : v ≠ .sentinel)
    (hq : IsPatch q §"remove" (absPath (init ++ [last]))) (hl : locate r.root init = some pos)
    (hm : nodeAt r.root pos = some m) (hplace : endsInNumber init = false ∨ m.isCollectionElement = true)
    (hbare : bareValue m = false) (hnum : isDigitS last = true) (hlast : natOfStr last = m.children.countP real) (hd : ListEntry E v) :
    (r.patch E p).1 = .ok true ∧ ((r.patch E p).2.patch E q).1 = .ok true ∧ Restored r ((r.patch E p).2.patch E q).2 := by
  rw [C14_copy_is_add E r p v _ src hp hs hv hvs]
  exact C114_appended_partial E r _ q v init last pos m hc (mk_add (isPatch_path_ne hp) hvs) rfl hq hl hm hplace hbare hnum hlast hd

/-! ## Variables -/

theorem C114_variable (r : Recipe) (k : Str) (v : PyVal) (h : ∀ e ∈ r.vars, e.1 ≠ k) :
    Restored r ((r.setVariable k v).delVariable k) := by
  have e1 := varSet_insert (VarSet.new (k := k) (v := v) r.vars h)
  have hv : ((r.setVariable k v).delVariable k).vars = r.vars := by
    have e2 := varGone_erase (VarGone.gone (k := k) r.vars v [] h)
    simp only [List.append_nil] at e2
    simp only [Recipe.setVariable, e1, Recipe.delVariable]
    split
    · rename_i hn; rw [if_pos hn] at e2; exact e2
    · rename_i hn; rw [if_neg hn] at e2; exact e2
  have hr : ((r.setVariable k v).delVariable k).root = r.root := by
    unfold Recipe.delVariable; split <;> rfl
  have hs : ((r.setVariable k v).delVariable k).schema = r.schema := by
    unfold Recipe.delVariable; split <;> rfl
  exact ⟨hr, hv, hs, by simp only [Recipe.render, hr, hv, hs]⟩

/-! ## Selectors -/

theorem strip_space_cons (s : Str) : strip (' ' :: s) = strip s := by
  simp [strip, lstrip, isSpace]

/-- What is left of `# [body] text`. -/
theorem removed_text {body text : Str} (h0 : text ≠ []) (hs : strip text = text) (h1 : ']' ∉ text) (h2 : '#' ∉ text) :
    Recipe.removeSelectorComment (§"# " ++ ('[' :: (body ++ [']'])) ++ ' ' :: text) ('[' :: (body ++ [']'])) = §"# " ++ text := by
  rw [removeSelectorComment_eq _ _ _ (by decide) (by simp [h1])]
  have ha : replaceAll §"#  " §"# " (§"# " ++ ' ' :: text) = §"# " ++ text := by
    have := replaceAll_once '#' §"  " §"# " [] text (by simp) (by
      rintro ⟨a, b, hab⟩; exact h2 (by rw [← hab]; simp))
    simpa using this
  have hb' : replaceAll §"# # " §"# " (§"# " ++ text) = §"# " ++ text := by
    apply replaceAll_absent
    rintro ⟨a, b, hab⟩
    have hcount := congrArg (List.count '#') hab
    have h0 : List.count '#' text = 0 := List.count_eq_zero.2 h2
    simp [List.count_append, h0] at hcount
    omega
  simp only [ha, hb']
  rw [if_neg]
  intro hst
  obtain ⟨c, hc1, hc2⟩ : ∃ c ∈ text, isSpace c = false := by
    cases hn : text.all isSpace with
    | true =>
      rw [strip_blank (List.all_eq_true.1 hn)] at hs
      exact absurd hs.symm h0
    | false =>
      obtain ⟨c, hc1, hc2⟩ := List.all_eq_false.1 hn
      exact ⟨c, hc1, by simpa using hc2⟩
  obtain ⟨a, b, he, h5, h6⟩ := strip_decomp (§"# " ++ text)
  rw [hst] at he
  have : c ∈ a ++ §"#" ++ b := by rw [← he]; simp [hc1]
  simp only [List.mem_append, List.mem_singleton] at this
  rcases this with (this | this) | this
  · rw [h5 c this] at hc2; cases hc2
  · exact h2 (this ▸ hc1)
  · rw [h6 c this] at hc2; cases hc2

theorem C114_selector_partial (r : Recipe) (path body c : Str) (mode : SelMode) (h : OrdinaryPath r path) (hb : '\n' ∉ body)
    (hc : commentAt r path = some c) (hs : Separable mode c) (ho : OneComment r path) :
    let out := r.addSelector path ('[' :: (body ++ [']'])) mode
    out.1 = .ok () ∧ (out.2.removeSelector path).1 = .ok (some ('[' :: (body ++ [']']))) ∧ Restored r (out.2.removeSelector path).2 := by
  obtain ⟨n0, hn0, ho1, ho2⟩ := id h
  obtain ⟨st, pos, n, h1, h2, h3, h4, h5⟩ := ordinary_path h
  have hn : n0 = n := by
    simp only [Recipe.nodeAtPath, h1, bind, Except.bind, h2, Option.bind_some, h3, Except.ok.injEq, Option.some.injEq] at hn0
    exact hn0.symm
  subst hn
  rw [h4] at hc
  injection hc with hc
  have hone := ho n0 hn0
  have hadd : ∃ post, addSelectorComment c ('[' :: (body ++ [']'])) mode = §"# " ++ ('[' :: (body ++ [']'])) ++ post ∧ ']' ∉ post ∧
      '\n' ∉ post ∧ Recipe.removeSelectorComment (§"# " ++ ('[' :: (body ++ [']'])) ++ post) ('[' :: (body ++ [']'])) = c := by
    rcases hs with rfl | ⟨hm, text, rfl, t1, t2, t3, t4, t5, t6⟩
    · refine ⟨[], by simp [addSelectorComment], by simp, by simp, ?_⟩
      rw [removeSelectorComment_eq _ _ _ (by decide) (by simp)]; decide
    · refine ⟨' ' :: text, ?_, by simp [t4], by simp [t6], removed_text t1 t2 t4 t5⟩
      have hno : Regex.selector.search (§"# " ++ text) = none := selector_searchFrom_none (by simp [t3])
      have hst : strip (' ' :: text) = text := by rw [strip_space_cons, t2]
      have hr : replaceOne §"#" [] (§"# " ++ text) = ' ' :: text := replaceOne_head _ _ _
      unfold addSelectorComment
      rw [if_neg (by simp [hm]), hno, hr]
      simp [hst]
  obtain ⟨post, a1, a2, a3, a4⟩ := hadd
  have hw : ∀ c', setLineComment n0.comment (setLineComment c' n0) = n0 := by
    intro c'
    by_cases hk : n0.isSingleKey = true
    · obtain ⟨x, hx⟩ := isSingleKey_children hk
      have q1 := hone hk x (by rw [hx]; simp)
      have q2 := ho2 hk x (by rw [hx]; simp)
      have hk' : (setLineComment c' n0).isSingleKey = true := by
        simp only [Node.isSingleKey, hx, Bool.and_eq_true] at hk
        have : (setLineComment c' n0).children = [{ x with comment := c' }] := by simp [setLineComment, Node.isSingleKey, hx, hk]
        simp only [Node.isSingleKey, this, Bool.and_eq_true]
        have hs' : ({ x with comment := c' } : Node).isSentinel = false := q2
        refine ⟨hk.1, ?_⟩
        simp only [Node.isLeaf, Node.isComment, hs', Bool.false_and, Bool.not_false, Bool.and_true]
        have := hk.2
        simp only [Node.isLeaf, Bool.and_eq_true] at this
        exact this.1
      have e : setLineComment c' n0 = { n0 with comment := c', children := [{ x with comment := c' }] } := by simp [setLineComment, hk, hx]
      rw [e] at hk' ⊢
      obtain ⟨v, cm, cs, lm, ml, ky⟩ := n0
      obtain ⟨xv, xc, xs, xl, xm, xk⟩ := x
      simp only at hx q1
      subst hx q1
      simp [setLineComment, hk']
    · have : (setLineComment c' n0).isSingleKey = false := by
        simp only [setLineComment, hk, Bool.false_eq_true, if_false]
        simpa [Node.isSingleKey] using hk
      have e : setLineComment c' n0 = { n0 with comment := c' } := by simp [setLineComment, hk]
      rw [e] at this ⊢
      cases n0
      simp [setLineComment, this]
  have hout : r.addSelector path ('[' :: (body ++ [']'])) mode =
      (.ok (), edited r (updateAt (setLineComment (§"# " ++ ('[' :: (body ++ [']'])) ++ post)) pos r.root)) := by
    simp only [Recipe.addSelector, h1, h2, matchStart_brackets hb, Bool.false_eq_true, if_false, h3, Option.map_some, Option.getD_some, hc, a1]
    rfl
  have hsel : selOf (§"# " ++ ('[' :: (body ++ [']'])) ++ post) = some ('[' :: (body ++ [']'])) := by
    rw [selOf_selectorIn (by simp [hb, a3])]
    have he : §"# " ++ ('[' :: (body ++ [']'])) ++ post = §"# " ++ '[' :: (body ++ ']' :: post) := by simp
    rw [he, selectorIn_some (by decide) a2]
  unfold selOf at hsel
  obtain ⟨mt, hmt, ht⟩ := Option.map_eq_some_iff.1 hsel
  have hrem : (edited r (updateAt (setLineComment (§"# " ++ ('[' :: (body ++ [']'])) ++ post)) pos r.root)).removeSelector path =
      (.ok (some ('[' :: (body ++ [']']))), edited r r.root) := by
    have htr := (h5 _ (edited r (updateAt (setLineComment (§"# " ++ ('[' :: (body ++ [']'])) ++ post)) pos r.root)) rfl).2.1 st
    have hat := nodeAt_updateAt_below (f := setLineComment (§"# " ++ ('[' :: (body ++ [']'])) ++ post)) pos [] r.root n0 h3
    rw [List.append_nil] at hat
    have hat' : nodeAt (edited r (updateAt (setLineComment (§"# " ++ ('[' :: (body ++ [']'])) ++ post)) pos r.root)).root pos =
        some (setLineComment (§"# " ++ ('[' :: (body ++ [']'])) ++ post) n0) := hat
    have hcm : (setLineComment (§"# " ++ ('[' :: (body ++ [']'])) ++ post) n0).comment = §"# " ++ ('[' :: (body ++ [']'])) ++ post := rfl
    have hup : updateAt (setLineComment c) pos (updateAt (setLineComment (§"# " ++ ('[' :: (body ++ [']'])) ++ post)) pos r.root) = r.root := by
      rw [updateAt_comp]
      exact updateAt_same pos r.root n0 h3 (by rw [← hc]; exact hw _)
    simp only [Recipe.removeSelector, h1, htr, h2, hat', Option.map_some, Option.getD_some, hcm, hmt, ht, a4]
    simp only [edited, hup]
  rw [hout]
  exact ⟨rfl, by rw [hrem], by rw [hrem]; exact restored_edited r⟩

/-! ## Dependencies -/

theorem within_back {R S : List Doc → List Doc → Prop} (hRS : ∀ a b, R a b → S b a) {comps : List Str} {ds ds' : List Doc}
    (h : Within R comps ds ds') : Within S comps ds' ds := by
  induction h with
  | here h => exact .here (hRS _ _ h)
  | key h1 h2 _ ih => exact .key h1 h2 ih
  | element h1 h2 _ ih => exact .element h1 h2 ih

/-- C114: a dependency that was put at the end of a section goes away again. -/
theorem C114_dependency_partial (E : Env) (M : Str → Option Str) (r : Recipe) (ds ds' : List Doc) (dep dep' : Dep) (mode : DepMode) (selMode : SelMode)
    (comps : List Str) (n : Nat) (vt c : Str) (w : PyVal) (hr : r.root = Doc.root ds) (hs : SectionPath comps)
    (hadd : DepEdit E r.schema M r.vars dep mode selMode ds ds') (hend : Within (EndsAt n (item vt w c)) comps ds ds') (hw : w ≠ .sentinel)
    (hpath : dep'.path = absPath (comps ++ [natStr n])) :
    (r.addDependency E M dep mode selMode).2.root = Doc.root ds' ∧
    ((r.addDependency E M dep mode selMode).2.removeDependency E dep').1 = .ok true ∧
    Restored r ((r.addDependency E M dep mode selMode).2.removeDependency E dep').2 := by
  have hback : Within (ItemLine n (withComment (§"- " ++ vt) c) []) comps ds' ds := by
    refine within_back ?_ hend
    rintro a b ⟨h1, rfl⟩
    exact ⟨a, vt, w, c, [], rfl, by simp, hw, h1, rfl⟩
  rcases depEdit_tree hadd r hr rfl (fun _ => rfl) with h | ⟨rfl, h⟩
  · rw [h]
    have := depRemove_tree E ds' ds (edited r (Doc.root ds')) dep' comps n _ rfl hs hpath hback
    rw [this, ← hr]
    exact ⟨rfl, rfl, restored_edited r⟩
  · rw [h]
    have := depRemove_tree E ds' ds' r dep' comps n _ hr hs hpath hback
    rw [this]
    refine ⟨hr, rfl, ?_⟩
    rw [← hr]
    exact restored_edited r

/-! ## Cases that meet the hypotheses -/

namespace UndoExample

/-- A new key, a new item in front of another one and a new element at the end, in the recipe of C09. -/
def keyPatch : PyVal := mkPatch §"add" §"/a/title" [(§"value", .str §"foo")]
def keyBack : PyVal := mkPatch §"remove" §"/a/title"
def itemPatch : PyVal := mkPatch §"add" §"/l/1" [(§"value", .str §"c 3")]
def itemBack : PyVal := mkPatch §"remove" §"/l/1"
def endPatch : PyVal := mkPatch §"add" §"/l/-" [(§"value", .dict [(§"title", .str §"foo")])]
def endBack : PyVal := mkPatch §"remove" §"/l/2"

theorem keyEntry : KeyEntry Toy.env §"title" (.str §"foo") := ⟨_, TransferExample.collection_title, rfl⟩

example : IsPatch keyPatch §"add" (absPath ([§"a"] ++ [§"title"])) ∧ IsPatch keyBack §"remove" (absPath ([§"a"] ++ [§"title"])) :=
  ⟨⟨(schemaValid_iff _).1 (by decide), by decide, by decide⟩, ⟨(schemaValid_iff _).1 (by decide), by decide, by decide⟩⟩
example : locate exPatch.root [§"a", §"title"] = none ∧ locate exPatch.root [§"a"] = some [0] ∧
    (nodeAt exPatch.root [0]).map bareValue = some false := ⟨by decide +kernel, by decide +kernel, by decide +kernel⟩
example : let r := (exPatch.patch Toy.env keyPatch).2
    r.render = §"a:\n  x: 1\n  title: foo\n\nl:\n  - p\n  - q\n" ∧ (r.patch Toy.env keyBack).2.render = exPatch.render :=
  ⟨by decide +kernel, by decide +kernel⟩

example : ListEntry Toy.env (.str §"c 3") := Or.inl ⟨_, DocDepsExample.scalar_text §"c 3" (by simp)⟩
example : IsPatch itemPatch §"add" (absPath ([§"l"] ++ [§"1"])) ∧ IsPatch itemBack §"remove" (absPath ([§"l"] ++ [§"1"])) :=
  ⟨⟨(schemaValid_iff _).1 (by decide), by decide, by decide⟩, ⟨(schemaValid_iff _).1 (by decide), by decide, by decide⟩⟩
example : locate exPatch.root [§"l", §"1"] = some ([1] ++ [1]) ∧ (nodeAt exPatch.root [1, 1]).map (·.isCollectionElement) = some false :=
  ⟨by decide +kernel, by decide +kernel⟩
example : let r := (exPatch.patch Toy.env itemPatch).2
    r.render = §"a:\n  x: 1\n\nl:\n  - p\n  - c 3\n  - q\n" ∧ (r.patch Toy.env itemBack).2.render = exPatch.render :=
  ⟨by decide +kernel, by decide +kernel⟩

example : ListEntry Toy.env (.dict [(§"title", .str §"foo")]) := Or.inr ⟨_, TransferExample.collection_title⟩
example : IsPatch endPatch §"add" (absPath ([§"l"] ++ [§"-"])) ∧ IsPatch endBack §"remove" (absPath ([§"l"] ++ [§"2"])) :=
  ⟨⟨(schemaValid_iff _).1 (by decide), by decide, by decide⟩, ⟨(schemaValid_iff _).1 (by decide), by decide, by decide⟩⟩
example : locate exPatch.root [§"l"] = some [1] ∧
    (nodeAt exPatch.root [1]).map (fun m => (bareValue m, m.children.countP real)) = some (false, 2) := ⟨by decide +kernel, by decide +kernel⟩
example : let r := (exPatch.patch Toy.env endPatch).2
    r.render = §"a:\n  x: 1\n\nl:\n  - p\n  - q\n  - title: foo\n" ∧ (r.patch Toy.env endBack).2.render = exPatch.render :=
  ⟨by decide +kernel, by decide +kernel⟩

/-- The item `/l/0` is copied to a new key, in front of an item and to the end of the list. -/
example : exPatch.getValue Toy.env §"/l/0" = .ok (.str §"p") ∧ IsPatch (mkPatch §"copy" §"/a/title" [(§"from", .str §"/l/0")]) §"copy" §"/a/title" :=
  ⟨by decide +kernel, ⟨(schemaValid_iff _).1 (by decide), by decide, by decide⟩⟩
example : KeyEntry Toy.env §"title" (.str §"p") ∧ ListEntry Toy.env (.str §"p") :=
  ⟨⟨Doc.scalar §"title" §"p" (.str §"p") [], ⟨Or.inr ⟨_, rfl⟩, okLB_sound _ _ (by decide +kernel), by simp, by decide, by decide +kernel,
      by simp [Doc.Fresh, Doc.node]⟩, rfl⟩,
    Or.inl ⟨.str §"p", rfl, by rintro s ⟨⟩; decide, ⟨by decide +kernel, by decide +kernel, by decide +kernel, by decide +kernel, by decide +kernel,
      by decide +kernel, by decide +kernel⟩, rfl, by decide⟩⟩
example : let r := (exPatch.patch Toy.env (mkPatch §"copy" §"/a/title" [(§"from", .str §"/l/0")])).2
    r.render = §"a:\n  x: 1\n  title: p\n\nl:\n  - p\n  - q\n" ∧ (r.patch Toy.env keyBack).2.render = exPatch.render :=
  ⟨by decide +kernel, by decide +kernel⟩
example : let r := (exPatch.patch Toy.env (mkPatch §"copy" §"/l/1" [(§"from", .str §"/l/0")])).2
    r.render = §"a:\n  x: 1\n\nl:\n  - p\n  - p\n  - q\n" ∧ (r.patch Toy.env itemBack).2.render = exPatch.render :=
  ⟨by decide +kernel, by decide +kernel⟩
example : let r := (exPatch.patch Toy.env (mkPatch §"copy" §"/l/-" [(§"from", .str §"/a/x")])).2
    r.render = §"a:\n  x: 1\n\nl:\n  - p\n  - q\n  - 1\n" ∧ (r.patch Toy.env endBack).2.render = exPatch.render :=
  ⟨by decide +kernel, by decide +kernel⟩

example : ∀ e ∈ exSel.vars, e.1 ≠ §"v" := by decide +kernel

/-- A line without comment and one with a comment. -/
def lines : Recipe := Toy.recipe "a: 1\nb: 2  # text\n"

theorem oneComment {r : Recipe} {path : Str} (h : (match r.nodeAtPath path with
    | .ok (some n) => !n.isSingleKey || n.children.all fun x => x.comment = n.comment
    | _ => true) = true) : OneComment r path := by
  intro n hn hk x hx
  rw [hn] at h
  simp only [hk, Bool.not_true, Bool.false_or, List.all_eq_true, decide_eq_true_eq] at h
  exact h x hx

example : OrdinaryPath lines §"/a" ∧ commentAt lines §"/a" = some [] ∧ Separable .replace [] ∧ OneComment lines §"/a" :=
  ⟨.of_check (by decide +kernel), by decide +kernel, Or.inl rfl, oneComment (by decide +kernel)⟩
example : OrdinaryPath lines §"/b" ∧ commentAt lines §"/b" = some §"# text" ∧ Separable .or §"# text" ∧ OneComment lines §"/b" :=
  ⟨.of_check (by decide +kernel), by decide +kernel,
    Or.inr ⟨by decide, §"text", rfl, by decide, by decide, by decide, by decide, by decide, by decide⟩, oneComment (by decide +kernel)⟩
example : let r := (lines.addSelector §"/b" §"[win]" .or).2
    r.render = §"a: 1\n\nb: 2  # [win] text\n" ∧ (r.removeSelector §"/b").2.render = lines.render := ⟨by decide +kernel, by decide +kernel⟩

open DocDepsExample in
theorem depEdit {v : Schema} : DepEdit Toy.env v exMatch [] (exDep §"/requirements/run/0" §"c 3") .replace .replace (file [a, comment §"# c", b])
    (file [a, comment §"# c", b, item §"c 3" (.str §"c 3") []]) := by
  refine .append _ _ [§"requirements", §"run"] §"0" 2 (.str §"c 3") [] _ section_run
      (by decide) rfl SessionExample.reads_run (by decide) (Or.inr ⟨?_, ?_⟩) (scalar_text §"c 3" (by simp)) (by simp) rfl (fun h => absurd rfl h)
      (at_run ⟨by decide +kernel, rfl⟩ (by simp) (by simp))
  · intro x hx
    simp only [List.mem_cons, List.not_mem_nil, or_false] at hx
    rcases hx with rfl | rfl <;> exact Or.inr ⟨_, rfl⟩
  · intro x hx
    simp only [List.mem_cons, List.not_mem_nil, or_false] at hx
    rcases hx with rfl | rfl <;> (rintro ⟨t, ht, _, h⟩; injection ht with ht; subst ht; revert h; decide)

open DocDepsExample in
example (r : Recipe) (hr : r.root = Doc.root (file [a, comment §"# c", b])) (hv : r.vars = []) :
    Restored r ((r.addDependency Toy.env exMatch (exDep §"/requirements/run/0" §"c 3") .replace .replace).2.removeDependency Toy.env
      (exDep §"/requirements/run/2" §"c 3")).2 :=
  (C114_dependency_partial Toy.env exMatch r _ _ _ _ .replace .replace [§"requirements", §"run"] 2 §"c 3" [] (.str §"c 3") hr section_run
    (by rw [hv]; exact depEdit) (at_run ⟨by decide +kernel, rfl⟩ (by simp) (by simp)) (by simp) (by decide)).2.2

end UndoExample

/-! ## Where it fails -/

/-- A dependency for a section that did not exist: the empty section stays behind. -/
theorem C114_empty_section_violation :
    let r := Toy.recipe "requirements:\n  host:\n    - a 1\n"
    let dep := exDep §"/requirements/run/0" §"c 3"
    let out := r.addDependency Toy.env exMatch dep .replace .replace
    out.1 = .ok true ∧ out.2.render = §"requirements:\n  host:\n    - a 1\n  run:\n    - c 3\n" ∧
      (out.2.removeDependency Toy.env dep).1 = .ok true ∧
      (out.2.removeDependency Toy.env dep).2.render = §"requirements:\n  host:\n    - a 1\n  run:\n" :=
  ⟨by decide +kernel, by decide +kernel, by decide +kernel, by decide +kernel⟩

/-- Adding at the number of a list element with keys overwrites it, so that nothing of it is left afterwards. -/
theorem C114_overwritten_violation :
    let r := Toy.recipe "l:\n  - x: 1\n  - y: 2\n"
    let out := r.patch Toy.env (mkPatch §"add" §"/l/1" [(§"value", .dict [(§"z", .int 3)])])
    out.1 = .ok true ∧ (out.2.patch Toy.env (mkPatch §"remove" §"/l/1")).1 = .ok true ∧
      (out.2.patch Toy.env (mkPatch §"remove" §"/l/1")).2.render = §"l:\n  - x: 1\n" :=
  ⟨by decide +kernel, by decide +kernel, by decide +kernel⟩

/-- In the default mode a comment is gone with the selector that was put in its place. -/
theorem C114_comment_lost_violation :
    let r := Toy.recipe "a: 1  # text\n"
    let out := r.addSelector §"/a" §"[win]" .replace
    out.1 = .ok () ∧ (out.2.removeSelector §"/a").2.render = §"a: 1\n" := ⟨by decide +kernel, by decide +kernel⟩

end Crm
