import Verif.Spec.SelTable
import Verif.Lemmas.Selector
import Verif.Lemmas.Dict
import Verif.Props.Utils

/-! Lemmas about the selector index. -/

namespace Crm
open Spec

theorem dropWhile_ne_eq {c : Char} (pre post : Str) (h : c ∉ pre) :
    (pre ++ c :: post).dropWhile (· ≠ c) = c :: post := by
  induction pre with
  | nil => simp
  | cons x xs ih =>
    simp only [List.mem_cons, not_or] at h
    have : x ≠ c := fun e => h.1 e.symm
    simp only [List.cons_append, List.dropWhile_cons, ne_eq, this, not_false_eq_true, decide_true, if_true]
    exact ih h.2

theorem dropWhile_ne_nil {c : Char} (s : Str) (h : c ∉ s) : s.dropWhile (· ≠ c) = [] := by
  induction s with
  | nil => rfl
  | cons x xs ih =>
    simp only [List.mem_cons, not_or] at h
    have : x ≠ c := fun e => h.1 e.symm
    simp only [List.dropWhile_cons, ne_eq, this, not_false_eq_true, decide_true, if_true]
    exact ih h.2

theorem selectorIn_some {pre body post : Str} (h1 : '[' ∉ pre) (h2 : ']' ∉ post) :
    selectorIn (pre ++ '[' :: (body ++ ']' :: post)) = some ('[' :: (body ++ [']'])) := by
  simp only [selectorIn]
  rw [dropWhile_ne_eq _ _ h1]
  have : ('[' :: (body ++ ']' :: post)).reverse = post.reverse ++ ']' :: ('[' :: body).reverse := by simp
  rw [this, dropWhile_ne_eq _ _ (by simpa using h2)]
  simp

theorem selectorIn_search (s : Str) (hn : '\n' ∉ s) : (Regex.selector.search s).map (·.text) = selectorIn s := by
  rcases selector_cases s with h | ⟨a, b, rfl, ha, hb⟩ | ⟨pre, body, post, rfl, h1, h2⟩
  · have : Regex.selector.search s = none := selector_searchFrom_none h
    rw [this]
    simp only [selectorIn, dropWhile_ne_nil s h]
    rfl
  · have hs : Regex.selector.search (a ++ '[' :: b) = none := by
      rw [selector_search_none_iff hn]
      intro a' b' he hb'
      rcases List.append_eq_append_iff.1 he with ⟨c, h1, h2⟩ | ⟨c, h1, h2⟩
      · cases c with
        | nil => simp only [List.nil_append] at h2; injection h2 with _ h2; exact hb (h2 ▸ hb')
        | cons x xs => injection h2 with _ h2; exact hb (by rw [h2]; simp [hb'])
      · cases c with
        | nil => simp only [List.nil_append] at h2; injection h2 with _ h2; exact hb (h2 ▸ hb')
        | cons x xs => injection h2 with h2 _; exact ha (by rw [h1, ← h2]; simp)
    rw [hs]
    simp only [selectorIn, dropWhile_ne_eq _ _ ha]
    rw [dropWhile_ne_nil]
    · rfl
    · simp only [List.mem_reverse, List.mem_cons, not_or]; exact ⟨by decide, hb⟩
  · have hn' : '\n' ∉ body ++ ']' :: post := by
      intro h; exact hn (by simp at h ⊢; exact Or.inr h)
    have : Regex.selector.search (pre ++ '[' :: (body ++ ']' :: post)) = _ :=
      selector_searchFrom_some (bef := []) hn' h2 h1
    rw [this, selectorIn_some h1 h2]
    rfl

/-- The step of `_rebuild_selectors`. -/
def selStep (tbl : List (Str × List SelInfo)) (np : Node × List Str) : List (Str × List SelInfo) :=
  match (Regex.selector.search np.1.comment).map (·.text) with
  | none => tbl
  | some s => insertD s ((lookupD s tbl).getD [] ++ [⟨np.1, np.2⟩]) tbl

theorem rebuildSelectors_fold (root : Node) : rebuildSelectors root = (visitAll root).foldl selStep [] := by
  unfold rebuildSelectors
  congr 1
  funext tbl np
  obtain ⟨n, p⟩ := np
  simp only [selStep]
  by_cases h : n.comment = []
  · rw [if_pos h, h]
    have : Regex.selector.search [] = none := by decide
    rw [this]; rfl
  · rw [if_neg h]
    cases Regex.selector.search n.comment <;> rfl

theorem selFold_lookup (l : List (Node × List Str)) (tbl : List (Str × List SelInfo)) (s : Str) :
    (lookupD s (l.foldl selStep tbl)).getD [] = (lookupD s tbl).getD [] ++
      (l.filter fun np => (Regex.selector.search np.1.comment).map (·.text) = some s).map fun np => ⟨np.1, np.2⟩ := by
  induction l generalizing tbl with
  | nil => simp
  | cons np l ih =>
    rw [List.foldl_cons, ih]
    cases h : (Regex.selector.search np.1.comment).map (·.text) with
    | none =>
      rw [List.filter_cons_of_neg (by simp [h])]
      simp only [selStep, h]
    | some t =>
      simp only [selStep, h, lookupD_insertD]
      by_cases ht : s = t
      · subst ht
        rw [List.filter_cons_of_pos (by simp [h])]
        simp
      · rw [List.filter_cons_of_neg (by simp [h]; exact fun e => ht e.symm)]
        simp [ht]

theorem selFold_keys (l : List (Node × List Str)) (tbl : List (Str × List SelInfo)) :
    (l.foldl selStep tbl).map (·.1) =
      (l.filterMap fun np => (Regex.selector.search np.1.comment).map (·.text)).foldl
        (fun acc x => if x ∈ acc then acc else acc ++ [x]) (tbl.map (·.1)) := by
  induction l generalizing tbl with
  | nil => rfl
  | cons np l ih =>
    rw [List.foldl_cons, ih]
    cases h : (Regex.selector.search np.1.comment).map (·.text) with
    | none => simp only [List.filterMap_cons, selStep, h]
    | some t => simp only [List.filterMap_cons, selStep, h, List.foldl_cons, keys_insertD]

/-! ## The index only depends on selectors and paths -/

/-- The selector the code finds in a comment. -/
def selOf (c : Str) : Option Str := (Regex.selector.search c).map (·.text)

theorem lookupD_map {α β : Type} (f : α → β) (s : Str) (d : List (Str × α)) :
    lookupD s (d.map fun e => (e.1, f e.2)) = (lookupD s d).map f := by
  induction d with
  | nil => rfl
  | cons e es ih =>
    simp only [List.map_cons, lookupD]
    split
    · rfl
    · exact ih

theorem insertD_map {α β : Type} (f : α → β) (s : Str) (v : α) (d : List (Str × α)) :
    insertD s (f v) (d.map fun e => (e.1, f e.2)) = (insertD s v d).map fun e => (e.1, f e.2) := by
  induction d with
  | nil => rfl
  | cons e es ih =>
    simp only [List.map_cons, insertD]
    split
    · rfl
    · rw [ih]; rfl

/-- What `indexAgrees` compares. -/
def tblPaths (tbl : List (Str × List SelInfo)) : List (Str × List (List Str)) := tbl.map fun e => (e.1, e.2.map (·.path))

theorem selFold_proj (l l' : List (Node × List Str)) (tbl tbl' : List (Str × List SelInfo))
    (hl : l.map (fun np => (selOf np.1.comment, np.2)) = l'.map (fun np => (selOf np.1.comment, np.2)))
    (ht : tblPaths tbl = tblPaths tbl') : tblPaths (l.foldl selStep tbl) = tblPaths (l'.foldl selStep tbl') := by
  induction l generalizing l' tbl tbl' with
  | nil =>
    cases l' with
    | nil => exact ht
    | cons => cases hl
  | cons np l ih =>
    cases l' with
    | nil => cases hl
    | cons np' l' =>
      simp only [List.map_cons, List.cons.injEq, Prod.mk.injEq] at hl
      obtain ⟨⟨h1, h2⟩, h3⟩ := hl
      rw [List.foldl_cons, List.foldl_cons]
      refine ih l' _ _ h3 ?_
      unfold selOf at h1
      simp only [selStep]
      rw [h1]
      cases (Regex.selector.search np'.1.comment).map (·.text) with
      | none => exact ht
      | some s =>
        have hf : (fun e : Str × List SelInfo => (e.1, e.2.map (·.path))) =
          (fun e => (e.1, (fun x : List SelInfo => x.map (·.path)) e.2)) := rfl
        have hlk : ((lookupD s tbl).getD []).map (·.path) = ((lookupD s tbl').getD []).map (·.path) := by
          have h1 := lookupD_map (fun x : List SelInfo => x.map (·.path)) s tbl
          have h2 := lookupD_map (fun x : List SelInfo => x.map (·.path)) s tbl'
          unfold tblPaths at ht
          rw [ht] at h1
          rw [h1] at h2
          cases ha : lookupD s tbl <;> cases hb : lookupD s tbl' <;> rw [ha, hb] at h2 <;> simp_all
        unfold tblPaths
        rw [hf, ← insertD_map, ← insertD_map]
        unfold tblPaths at ht
        rw [← hf, ht]
        congr 1
        simp only [List.map_append, hlk, List.map_cons, List.map_nil, h2]

/-! ## Changing comments only -/

mutual
/-- Same shape; `R old new` for the comments. -/
def similar (R : Str → Str → Prop) : Node → Node → Prop
  | ⟨v, c, cs, l, m, k⟩, n =>
    n.value = v ∧ n.listMember = l ∧ n.key = k ∧ n.multiline = m ∧
      n.isComment = (Node.mk v c cs l m k).isComment ∧ R c n.comment ∧ similarL R cs n.children
def similarL (R : Str → Str → Prop) : List Node → List Node → Prop
  | [], ns => ns = []
  | c :: cs, ns => match ns with | [] => False | n :: ns => similar R c n ∧ similarL R cs ns
end

variable {R : Str → Str → Prop}

mutual
theorem similar_refl (hR : ∀ c, R c c) : ∀ n : Node, similar R n n
  | ⟨_, _, cs, _, _, _⟩ => ⟨rfl, rfl, rfl, rfl, rfl, hR _, similarL_refl hR cs⟩
theorem similarL_refl (hR : ∀ c, R c c) : ∀ ns : List Node, similarL R ns ns
  | [] => rfl
  | n :: ns => ⟨similar_refl hR n, similarL_refl hR ns⟩
end

theorem similar_isComment {n n' : Node} (h : similar R n n') : n'.isComment = n.isComment := by
  cases n; exact h.2.2.2.2.1

theorem similar_value {n n' : Node} (h : similar R n n') : n'.value = n.value := by
  cases n; exact h.1

theorem similar_listMember {n n' : Node} (h : similar R n n') : n'.listMember = n.listMember := by
  cases n; exact h.2.1

theorem similar_children {n n' : Node} (h : similar R n n') : similarL R n.children n'.children := by
  cases n; exact h.2.2.2.2.2.2

theorem similarL_length : ∀ {cs cs' : List Node}, similarL R cs cs' → cs'.length = cs.length
  | [], _, h => by rw [similarL] at h; rw [h]
  | _ :: cs, cs', h => by
    cases cs' with
    | nil => exact h.elim
    | cons n ns => simp [similarL_length h.2]

theorem similarL_comments : ∀ {cs cs' : List Node}, similarL R cs cs' → cs'.map (·.isComment) = cs.map (·.isComment)
  | [], _, h => by rw [similarL] at h; rw [h]
  | _ :: cs, cs', h => by
    cases cs' with
    | nil => exact h.elim
    | cons n ns => simp [similarL_comments h.2, similar_isComment h.1]

theorem similarL_values : ∀ {cs cs' : List Node}, similarL R cs cs' → cs'.map (·.value) = cs.map (·.value)
  | [], _, h => by rw [similarL] at h; rw [h]
  | _ :: cs, cs', h => by
    cases cs' with
    | nil => exact h.elim
    | cons n ns => simp [similarL_values h.2, similar_value h.1]

theorem similarL_get : ∀ {cs cs' : List Node}, similarL R cs cs' → ∀ (i : Nat),
    (cs[i]? = none ∧ cs'[i]? = none) ∨ ∃ c c', cs[i]? = some c ∧ cs'[i]? = some c' ∧ similar R c c'
  | [], _, h, i => by rw [similarL] at h; rw [h]; simp
  | c :: cs, cs', h, i => by
    cases cs' with
    | nil => exact h.elim
    | cons n ns =>
      cases i with
      | zero => exact Or.inr ⟨c, n, rfl, rfl, h.1⟩
      | succ i => exact similarL_get h.2 i

theorem virtToPhysGo_comments : ∀ (cs cs' : List Node) (i : Nat), cs'.map (·.isComment) = cs.map (·.isComment) →
    virtToPhysGo i cs' = virtToPhysGo i cs
  | [], cs', i, h => by cases cs' with | nil => rfl | cons => cases h
  | c :: cs, cs', i, h => by
    cases cs' with
    | nil => cases h
    | cons n ns =>
      simp only [List.map_cons, List.cons.injEq] at h
      simp only [virtToPhysGo, h.1, virtToPhysGo_comments cs ns (i + 1) h.2]

theorem physToVirt_similar {cs cs' : List Node} (h : similarL R cs cs') : physToVirt cs' = physToVirt cs := by
  unfold physToVirt virtToPhys
  rw [virtToPhysGo_comments cs cs' 0 (similarL_comments h), similarL_length h]

mutual
theorem visit_similar {α : Type} (f : Str → α) (hf : ∀ c c', R c c' → f c' = f c) :
    ∀ (n n' : Node) (p : Option (List Str)) (i : Nat), similar R n n' →
    (visit p i n').map (fun np => (f np.1.comment, np.2)) = (visit p i n).map (fun np => (f np.1.comment, np.2))
  | ⟨v, c, cs, l, m, k⟩, ⟨v', c', cs', l', m', k'⟩, p, i, h => by
    obtain ⟨h1, h2, h3, _, h4, h5, h6⟩ := h
    simp only at h1 h2 h3 h5 h6
    subst h1 h2 h3
    have hlen := similarL_length h6
    have hleaf : (Node.mk v' c' cs' l' m' k').isLeaf = (Node.mk v' c cs l' m k').isLeaf := by
      simp only [Node.isLeaf, h4]
      congr 1
      cases cs <;> cases cs' <;> simp_all
    have hp : visitPath p i ⟨v', c', cs', l', m', k'⟩ = visitPath p i ⟨v', c, cs, l', m, k'⟩ := by
      unfold visitPath Node.isEmptyKey
      rw [hleaf]
    simp only [visit, List.map_cons, hp, hf _ _ h5, physToVirt_similar h6, visitL_similar f hf cs cs' _ _ h6]
theorem visitL_similar {α : Type} (f : Str → α) (hf : ∀ c c', R c c' → f c' = f c) :
    ∀ (cs cs' : List Node) (p : List Str) (is : List Nat), similarL R cs cs' →
    (visitL p is cs').map (fun np => (f np.1.comment, np.2)) = (visitL p is cs).map (fun np => (f np.1.comment, np.2))
  | [], cs', p, is, h => by rw [similarL] at h; rw [h]
  | c :: cs, cs', p, is, h => by
    cases cs' with
    | nil => exact h.elim
    | cons n ns =>
      cases is with
      | nil => simp only [visitL]
      | cons j js => simp only [visitL, List.map_append, visit_similar f hf c n _ _ h.1, visitL_similar f hf cs ns _ _ h.2]
end

theorem similarL_modify (hR : ∀ c, R c c) {f : Node → Node} : ∀ (cs : List Node) (i : Nat),
    (∀ c, cs[i]? = some c → similar R c (f c)) → similarL R cs (cs.modify i f)
  | [], i, _ => by cases i <;> rfl
  | c :: cs, 0, h => ⟨h c rfl, similarL_refl hR cs⟩
  | c :: cs, i + 1, h => ⟨similar_refl hR c, similarL_modify hR cs i h⟩

theorem similar_updateAt (hR : ∀ c, R c c) {f : Node → Node} : ∀ (pos : Pos) (n m : Node), nodeAt n pos = some m →
    similar R m (f m) → similar R n (updateAt f pos n)
  | [], n, m, h, hs => by injection h with h; subst h; exact hs
  | i :: pos, ⟨v, c, cs, l, k, key⟩, m, h, hs => by
    simp only [nodeAt] at h
    refine ⟨rfl, rfl, rfl, rfl, ?_, hR _, ?_⟩
    · simp only [updateAt, Node.isComment, Node.isSentinel]
      congr 1
      cases cs with
      | nil => cases i <;> rfl
      | cons c cs => cases i <;> rfl
    · refine similarL_modify hR cs i fun x hx => ?_
      rw [hx] at h
      exact similar_updateAt hR pos x m h hs

theorem rebuild_similar {t t' : Node} (h : similar (fun c c' => selOf c' = selOf c) t t') :
    tblPaths (rebuildSelectors t') = tblPaths (rebuildSelectors t) := by
  rw [rebuildSelectors_fold, rebuildSelectors_fold]
  exact selFold_proj _ _ _ _ (visit_similar selOf (fun _ _ h => h) t t' none 0 h) rfl

theorem findIdx_values (cs cs' : List Node) (part : Str) (h : cs'.map (·.value) = cs.map (·.value)) :
    cs'.findIdx? (fun c => pyEq c.value (.str part)) = cs.findIdx? (fun c => pyEq c.value (.str part)) := by
  have key : ∀ l : List Node, l.findIdx? (fun c => pyEq c.value (.str part)) =
      (l.map (·.value)).findIdx? (fun v => pyEq v (.str part)) := by
    intro l; rw [List.findIdx?_map]; rfl
  rw [key, key, h]

theorem traverseRec_similar : ∀ (st : List Str) (n n' : Node), similar R n n' → traverseRec n' st = traverseRec n st
  | [], _, _, _ => by simp only [traverseRec]
  | part :: rest, n, n', h => by
    have hc := similar_children h
    have hv : virtToPhys n'.children = virtToPhys n.children :=
      virtToPhysGo_comments _ _ 0 (similarL_comments hc)
    simp only [traverseRec, hv, findIdx_values _ _ part (similarL_values hc)]
    split
    · split
      · rfl
      · rename_i phys _
        rcases similarL_get hc phys with ⟨h1, h2⟩ | ⟨c, c', h1, h2, h3⟩
        · rw [h1, h2]
        · rw [h1, h2]
          simp only [similar_listMember h3, traverseRec_similar rest c c' h3]
    · split
      · rfl
      · rename_i i _
        rcases similarL_get hc i with ⟨h1, h2⟩ | ⟨c, c', h1, h2, h3⟩
        · rw [h1, h2]
        · rw [h1, h2]
          simp only [traverseRec_similar rest c c' h3]

theorem traverse_similar (st : List Str) (n n' : Node) (h : similar R n n') : traverse n' st = traverse n st := by
  match st with
  | [] => rfl
  | [p] => rfl
  | _ :: q :: rest => exact traverseRec_similar _ n n' h

theorem nodeAt_updateAt_self {f : Node → Node} : ∀ (pos : Pos) (n m : Node), nodeAt n pos = some m →
    nodeAt (updateAt f pos n) pos = some (f m)
  | [], n, m, h => by injection h with h; subst h; rfl
  | i :: pos, n, m, h => by
    simp only [nodeAt] at h
    cases hc : n.children[i]? with
    | none => rw [hc] at h; cases h
    | some c =>
      rw [hc] at h
      simp only [updateAt, nodeAt, List.getElem?_modify, hc, if_true, Option.map_some]
      exact nodeAt_updateAt_self pos c m h

/-- Writing a comment on a line with a value keeps the shape of the node. -/
theorem similar_setLineComment (hR : ∀ c, R c c) {n : Node} {c : Str} (h0 : n.isSentinel = false ∨ n.children ≠ [])
    (h1 : ∀ x ∈ n.children, n.isSingleKey = true → x.isSentinel = false) (h2 : R n.comment c)
    (h3 : ∀ x ∈ n.children, n.isSingleKey = true → R x.comment c) : similar R n (setLineComment c n) := by
  have hemp : (setLineComment c n).children.isEmpty = n.children.isEmpty := by
    simp only [setLineComment]; split <;> simp
  have hcom : (setLineComment c n).isComment = n.isComment := by
    simp only [Node.isComment, hemp]
    have hs : (setLineComment c n).isSentinel = n.isSentinel := rfl
    rw [hs]
    rcases h0 with h0 | h0
    · simp [h0]
    · have : n.children.isEmpty = false := by simpa using h0
      simp [this]
  obtain ⟨v, cm, cs, l, m, k⟩ := n
  refine ⟨rfl, rfl, rfl, rfl, hcom, h2, ?_⟩
  simp only [setLineComment]
  split
  · rename_i hk
    have key : ∀ l : List Node, (∀ x ∈ l, x ∈ cs) → similarL R l (l.map fun x => { x with comment := c }) := by
      intro l
      induction l with
      | nil => intro _; rfl
      | cons x xs ih =>
        intro hx
        refine ⟨?_, ih fun y hy => hx y (by simp [hy])⟩
        have hxc := hx x (by simp)
        have hs := h1 x hxc hk
        have hr := h3 x hxc hk
        obtain ⟨v', c', cs', l', m', k'⟩ := x
        refine ⟨rfl, rfl, rfl, rfl, ?_, hr, similarL_refl hR cs'⟩
        have hs' : (Node.mk v' c cs' l' m' k').isSentinel = false := hs
        simp only [Node.isComment, hs, hs', Bool.false_and]
    exact key cs fun _ h => h
  · exact similarL_refl hR cs

end Crm
