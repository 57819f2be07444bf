import Verif.Spec.ConvSelectors
import Verif.Lemmas.ConvJinja
import Verif.Props.PyVersion
import Verif.Props.SelectorEdit

/-! # Conversion of selectors -/

namespace Crm
open Spec Act

/-! ## The table -/

theorem table_of_lookups {α : Type} (tbl : List (Str × α)) (d : α) (hn : (tbl.map (·.1)).Nodup) :
    tbl = (tbl.map (·.1)).map fun k => (k, (lookupD k tbl).getD d) := by
  induction tbl with
  | nil => rfl
  | cons kv tbl ih =>
    obtain ⟨k, v⟩ := kv
    simp only [List.map_cons, List.nodup_cons] at hn
    simp only [List.map_cons, lookupD, if_true, Option.getD_some, List.cons.injEq, true_and]
    conv => lhs; rw [ih hn.2]
    apply List.map_congr_left
    intro x hx
    have : k ≠ x := fun e => hn.1 (e ▸ hx)
    simp [this]

theorem selTable_lines {root : Node} (h1 : oneLineComments root) {order : List Str} (ho : FirstOccurrences (selectorsOf root) order) :
    ((rebuildSelectors root).flatMap fun entry => entry.2.map fun i => (entry.1, i.node, stackToStr i.path)) = linesWith root order := by
  have hsel : ∀ np ∈ visitAll root, (Regex.selector.search np.1.comment).map (·.text) = selectorIn np.1.comment :=
    fun np hnp => selectorIn_search _ (h1 np hnp)
  have hkeys : (rebuildSelectors root).map (·.1) = order := by
    rw [rebuildSelectors_fold, selFold_keys, C57_dedupe_unique (selectorsOf root) order ho.1 ho.2.2]
    unfold dedupe selectorsOf nodesWithPaths
    rw [List.filterMap_map]
    rw [filterMap_congr_mem _ hsel]
    refine congrArg (fun f => List.foldl f [] _) ?_
    funext acc x
    by_cases hx : x ∈ acc <;> simp [hx]
  have hl : ∀ s, (lookupD s (rebuildSelectors root)).getD [] =
      ((visitAll root).filter fun np => selectorIn np.1.comment = some s).map fun np => ⟨np.1, np.2⟩ := by
    intro s
    rw [rebuildSelectors_fold, selFold_lookup]
    simp only [lookupD, Option.getD_none, List.nil_append]
    congr 1
    apply List.filter_congr
    intro np hnp
    rw [hsel np hnp]
  rw [table_of_lookups (rebuildSelectors root) [] (by rw [hkeys]; exact ho.2.1), hkeys]
  unfold linesWith nodesWithPaths
  rw [List.flatMap_map]
  congr 1
  funext s
  simp only [hl, List.map_map, List.filter_map]
  rfl

/-! ## The place of an edit afterwards -/

/-- A number leads to the same child, whatever its value. -/
theorem childIdx_digit_same {n n' : Node} {pre post : List Node} {c c' : Node} {part : Str} (hd : isDigitS part = true)
    (hn : n.children = pre ++ c :: post) (hn' : n'.children = pre ++ c' :: post) (hr : c'.isComment = c.isComment)
    (hl : c'.listMember = c.listMember) : childIdx n' part = childIdx n part := by
  let d : Node := { c' with value := c.value }
  have hloc : ∀ (a b : List Node), a.length = b.length → (∀ p : Nat, (a.take p).countP real = (b.take p).countP real) →
      (∀ p : Nat, (a[p]?).map (fun x => (real x, x.listMember)) = (b[p]?).map (fun x => (real x, x.listMember))) →
      (List.range a.length).find? (fun p => match a[p]? with
        | some c => real c && c.listMember && decide ((a.take p).countP real = natOfStr part)
        | none => false) = (List.range b.length).find? (fun p => match b[p]? with
        | some c => real c && c.listMember && decide ((b.take p).countP real = natOfStr part)
        | none => false) := by
    intro a b h1 h2 h3
    rw [h1]
    congr 1
    funext p
    rw [h2 p]
    have := h3 p
    cases ha : a[p]? <;> cases hb : b[p]? <;> rw [ha, hb] at this <;> simp_all
  unfold childIdx
  rw [if_pos hd, if_pos hd, hn, hn']
  have hcr : real c' = real c := by simp [real, hr]
  apply hloc
  · simp
  · intro p
    simp only [List.take_append, List.countP_append]
    congr 1
    cases hp : p - pre.length with
    | zero => simp
    | succ k => simp [List.countP_cons, hcr]
  · intro p
    rcases Nat.lt_or_ge p pre.length with hlt | hge
    · rw [List.getElem?_append_left hlt, List.getElem?_append_left hlt]
    · rw [List.getElem?_append_right hge, List.getElem?_append_right hge]
      cases p - pre.length with
      | zero => simp [hcr, hl]
      | succ k => simp

theorem split_at {t c : Node} {i : Nat} (hc : t.children[i]? = some c) :
    t.children = t.children.take i ++ c :: t.children.drop (i + 1) ∧ (t.children.take i).length = i := by
  obtain ⟨hlt, he⟩ := List.getElem?_eq_some_iff.1 hc
  refine ⟨?_, by simp; omega⟩
  rw [← he, List.getElem_cons_drop, List.take_append_drop]

/-- The path of a node leads to its replacement. -/
theorem locate_put_self {q : List Str} : ∀ {t old new : Node} {pos : Pos}, locate t q = some pos → nodeAt t pos = some old →
    new.isComment = old.isComment → new.listMember = old.listMember → (new.value = old.value ∨ endsInNumber q = true) →
    locate (updateAt (fun _ => new) pos t) q = some pos := by
  induction q with
  | nil => intro t old new pos h _ _ _ _; simp only [locate, Option.some.injEq] at h ⊢; exact h
  | cons part rest ih =>
    intro t old new pos h hn hc hl hv
    simp only [locate] at h
    cases hx : childIdx t part with
    | none => rw [hx] at h; cases h
    | some i =>
      rw [hx] at h
      simp only at h
      cases hci : t.children[i]? with
      | none => rw [hci] at h; cases h
      | some c =>
        rw [hci] at h
        simp only [Option.map_eq_some_iff] at h
        obtain ⟨p, hp, rfl⟩ := h
        simp only [nodeAt, hci] at hn
        obtain ⟨hsplit, hlen⟩ := split_at hci
        have hn' : (updateAt (fun _ => new) (i :: p) t).children =
            t.children.take i ++ updateAt (fun _ => new) p c :: t.children.drop (i + 1) := by
          have := modify_split (updateAt (fun _ => new) p) (t.children.take i) (t.children.drop (i + 1)) c
          rw [hlen, ← hsplit] at this
          exact this
        have hcom := updateAt_isComment new hn hc
        have hci' : childIdx (updateAt (fun _ => new) (i :: p) t) part = some i := by
          rw [← hx]
          cases p with
          | nil =>
            have hrest : rest = [] := by
              have := locate_length hp
              simpa using this.symm
            subst hrest
            injection hn with hn; subst hn
            rcases hv with hv | hv
            · exact childIdx_sameLook hsplit hn' ⟨hv.symm, hl.symm, hc.symm⟩ part
            · have hd : isDigitS part = true := by
                have := endsInNumber_concat (init := []) (last := part)
                rw [List.nil_append] at this
                rw [this] at hv; exact hv
              exact childIdx_digit_same hd hsplit hn' hc hl
          | cons k ps => exact childIdx_sameLook hsplit hn' ⟨rfl, rfl, hcom.symm⟩ part
        have hget : (updateAt (fun _ => new) (i :: p) t).children[i]? = some (updateAt (fun _ => new) p c) := by
          simp only [updateAt, List.getElem?_modify, hci, if_true, Option.map_eq_map, Option.map_some]
        simp only [locate, hci', hget]
        cases rest with
        | nil =>
          have : p = [] := by have := locate_length hp; simpa using this
          subst this
          rfl
        | cons r rs =>
          have hv' : new.value = old.value ∨ endsInNumber (r :: rs) = true := by
            rcases hv with hv | hv
            · exact Or.inl hv
            · right
              simpa [endsInNumber, List.getLast?_cons_cons] using hv
          rw [ih hp hn hc hl hv']
          rfl

/-! ## Comments -/

theorem comment_left {body old rest : Str} (h : CommentLeft body old rest) (hn : '\n' ∉ old) :
    selOf old = some (§"[" ++ body ++ §"]") ∧ Recipe.removeSelectorComment old (§"[" ++ body ++ §"]") = rest := by
  cases h with
  | alone =>
    have e : §"# [" ++ body ++ §"]" = §"# " ++ ('[' :: (body ++ [']'])) ++ [] := by simp
    constructor
    · rw [selOf_selectorIn hn]
      have := selectorIn_some (pre := §"# ") (body := body) (post := []) (by decide) (by simp)
      simpa using this
    · rw [e, show §"[" ++ body ++ §"]" = '[' :: (body ++ [']']) by simp, removeSelectorComment_eq _ _ _ (by decide) (by simp)]
      decide
  | @text t h1 h2 h4 =>
    have e : §"# [" ++ body ++ §"] " ++ t = §"# " ++ ('[' :: (body ++ [']'])) ++ (' ' :: t) := by simp
    constructor
    · rw [selOf_selectorIn hn]
      have := selectorIn_some (pre := §"# ") (body := body) (post := ' ' :: t) (by decide) (by simp [h1])
      simpa using this
    · rw [e, show §"[" ++ body ++ §"]" = '[' :: (body ++ [']']) by simp, removeSelectorComment_eq _ _ _ (by decide) (by simp [h1])]
      have ha : replaceAll §"#  " §"# " (§"# " ++ ' ' :: t) = §"# " ++ t := by
        have := replaceAll_once '#' §"  " §"# " [] t (by simp) (by
          rintro ⟨a, b, hab⟩; exact h2 (by rw [← hab]; simp))
        simpa using this
      have hb' : replaceAll §"# # " §"# " (§"# " ++ t) = §"# " ++ t := by
        apply replaceAll_absent
        rintro ⟨a, b, hab⟩
        have hcount := congrArg (List.count '#') hab
        have h0 : List.count '#' t = 0 := List.count_eq_zero.2 h2
        simp [List.count_append, h0] at hcount
        omega
      simp only
      rw [ha, hb', if_neg]
      intro hst
      obtain ⟨c, hc1, hc2⟩ := h4
      obtain ⟨a, b, he, h5, h6⟩ := strip_decomp (§"# " ++ t)
      rw [hst] at he
      have : c ∈ a ++ §"#" ++ b := by rw [← he]; simp [hc1]
      simp only [List.mem_append, List.mem_singleton] at this
      rcases this with (this | this) | this
      · rw [h5 c this] at hc2; cases hc2
      · subst this; exact h2 hc1
      · rw [h6 c this] at hc2; cases hc2

theorem endsWith_suffix (s t : Str) : endsWith s t = decide (t <:+ s) := by
  rw [Bool.eq_iff_iff, decide_eq_true_eq]
  simp [endsWith]

theorem innerText_eq (body : Str) : innerText (§"[" ++ body ++ §"]") = body := by
  simp [innerText]

theorem selectorExpr_eq {body expr : Str} (h : SelectorExpr body expr) : upgradeExpression body = expr := (C88_selector_text body expr).2 h

/-! ## One line -/

theorem putNode_twice (a b : Node) : ∀ (pos : Pos) (t : Node), putNode a pos (putNode b pos t) = putNode a pos t
  | [], _ => rfl
  | i :: p, t => by
    simp only [putNode]
    congr 1
    apply List.ext_getElem?
    intro j
    simp only [List.getElem?_mapIdx, Option.map_map]
    cases t.children[j]? with
    | none => rfl
    | some c =>
      simp only [Option.map_some, Function.comp_apply, Option.some.injEq]
      by_cases h : j = i
      · simp only [if_pos h, putNode_twice a b p c]
      · simp only [if_neg h]

theorem nodeAt_putNode {t old new : Node} {pos : Pos} (h : nodeAt t pos = some old) : nodeAt (putNode new pos t) pos = some new := by
  rw [putNode_updateAt]
  exact nodeAt_updateAt_self pos t old h

/-- After a line has been written, the selector is taken out of its comment. -/
theorem removeSelector_after {r : Recipe} {comps : List Str} {pos : Pos} {n : Node} (hne : comps ≠ []) (hc : ∀ c ∈ comps, Component c)
    (hl : locate r.root comps = some pos) (hn : nodeAt r.root pos = some n) :
    r.removeSelector (absPath comps) = match selOf n.comment with
      | none => (.ok none, r)
      | some s => (.ok (some s), edited r (putNode (setLineComment (Recipe.removeSelectorComment n.comment s) n) pos r.root)) := by
  unfold Recipe.removeSelector
  simp only [strToStack_absPath comps hne hc, traverse_locate, hl, hn, Option.map_some, Option.getD_some, selOf]
  cases hs : Regex.selector.search n.comment with
  | none => rfl
  | some m =>
    simp only [Option.map_some]
    rw [updateAt_const _ hn, ← putNode_updateAt]
    rfl

theorem act_pure {α : Type} (a : α) (c : Conv) : (pure a : Act α) c = (.ok a, c) := rfl

theorem selector_step {E : Env} {c : Conv} {s body path : Str} {n : Node} {info : SelInfo} {e : NodeEdit} (hi : info.node = n)
    (hp : stackToStr info.path = path) (hleaf : n.isLeaf = true) (hs : s = §"[" ++ body ++ §"]")
    (hle : LineEdit E body n.value n.listMember path e) (hat : e.At c.v1.root) (hcom : e.new.isComment = false)
    (hlm : e.new.listMember = e.old.listMember) :
    ∃ c', upgradeSelector E s info c = (.ok (), c') ∧ c'.self = c.self ∧ c'.v1.root = putNode e.new e.pos c.v1.root ∧
      c'.v1.init = c.v1.init ∧ c'.v1.schema = c.v1.schema ∧ c'.v1.vars = c.v1.vars ∧ c'.msgs = c.msgs := by
  subst hi hs
  have hreal := hat.real
  cases hle with
  | @switch b expr rest x hv hpath hexpr hend hkey hnew hx hleft hnl hen =>
    subst hpath
    let new1 : Node := { e.old with children := [x] }
    have hb : bareValue e.old = false := by simp [bareValue, hkey]
    have ho : Overwrites E (.str (switchText (absPath e.comps) expr)) { e with new := new1 } := .value hend hb hnew rfl
    have hpatch := overwrite_patch (e := { e with new := new1 }) hat ho (by simp)
    simp only at hpatch
    have hsel : selectorPatch (upgradeExpression (innerText (§"[" ++ body ++ §"]"))) (absPath e.comps) info.node =
        some (replaceOp (absPath e.comps) (.str (switchText (absPath e.comps) expr))) := by
      rw [innerText_eq, selectorExpr_eq hexpr]
      unfold selectorPatch switchText
      rw [hv, endsWith_suffix]
      simp
    have hloc : locate (putNode new1 e.pos c.v1.root) e.comps = some e.pos := by
      rw [putNode_updateAt]
      refine locate_put_self hat.2.2.1 hat.2.2.2 ?_ rfl (Or.inl rfl)
      rw [hreal]
      simp [Node.isComment, new1]
    have hnode : nodeAt (putNode new1 e.pos c.v1.root) e.pos = some new1 := nodeAt_putNode hat.2.2.2
    have hrem := removeSelector_after (r := edited c.v1 (putNode new1 e.pos c.v1.root)) hat.1 hat.2.1 hloc hnode
    obtain ⟨hc1, hc2⟩ := comment_left hleft hnl
    rw [show new1.comment = e.old.comment from rfl, hc1] at hrem
    simp only [hc2] at hrem
    have hline : setLineComment rest new1 = e.new := by
      rw [hen]
      unfold setLineComment
      have : new1.isSingleKey = true := by simp [Node.isSingleKey, new1, hkey, hx]
      rw [this]
      rfl
    rw [hline] at hrem
    refine ⟨⟨c.self, (edited c.v1 (putNode new1 e.pos c.v1.root)).removeSelector (absPath e.comps) |>.2, c.msgs⟩, ?_, rfl, ?_⟩
    · simp only [upgradeSelector, hleaf, if_true, hp, hsel, patchAndLog, edit, Bind.bind, Act.bind, hpatch, Bool.not_true,
        Bool.false_eq_true, if_false, act_pure, hrem]
    · rw [hrem]
      exact ⟨putNode_twice _ _ _ _, rfl, rfl, rfl, rfl⟩
  | @element expr hel hpath hexpr hend ho hec =>
    subst hpath
    have hns : conditional (absPath e.comps) expr info.node.value ≠ .sentinel := by
      cases info.node.value <;> simp [conditional]
    have hpatch := overwrite_patch hat ho hns
    have hsel : selectorPatch (upgradeExpression (innerText (§"[" ++ body ++ §"]"))) (absPath e.comps) info.node =
        some (replaceOp (absPath e.comps) (conditional (absPath e.comps) expr info.node.value)) := by
      rw [innerText_eq, selectorExpr_eq hexpr]
      unfold selectorPatch conditional
      cases hv : info.node.value <;> simp [hel, switchText, endsWith_suffix]
    have hloc : locate (putNode e.new e.pos c.v1.root) e.comps = some e.pos := by
      rw [putNode_updateAt]
      exact locate_put_self hat.2.2.1 hat.2.2.2 (by rw [hreal, hcom]) hlm (Or.inr hend)
    have hnode : nodeAt (putNode e.new e.pos c.v1.root) e.pos = some e.new := nodeAt_putNode hat.2.2.2
    have hrem := removeSelector_after (r := edited c.v1 (putNode e.new e.pos c.v1.root)) hat.1 hat.2.1 hloc hnode
    rw [hec] at hrem
    have hno : selOf [] = none := by decide
    rw [hno] at hrem
    simp only at hrem
    refine ⟨⟨c.self, edited c.v1 (putNode e.new e.pos c.v1.root), c.msgs⟩, ?_, rfl, rfl, rfl, rfl, rfl, rfl⟩
    simp only [upgradeSelector, hleaf, if_true, hp, hsel, patchAndLog, edit, Bind.bind, Act.bind, hpatch, Bool.not_true,
      Bool.false_eq_true, if_false, act_pure, hrem]

/-! ## All lines -/

theorem each_append {α : Type} (f : α → Act Unit) : ∀ (xs ys : List α) (c : Conv),
    each f (xs ++ ys) c = (each f xs >>= fun _ => each f ys) c
  | [], _, _ => rfl
  | x :: xs, ys, c => by
    simp only [List.cons_append, each, Bind.bind, Act.bind]
    rcases hx : f x c with ⟨a | a, c1⟩
    · rfl
    · simp only
      have := each_append f xs ys c1
      simp only [Bind.bind, Act.bind] at this
      exact this

theorem each_flatten {α β : Type} (f : α → β → Act Unit) : ∀ (tbl : List (α × List β)) (c : Conv),
    each (fun entry : α × List β => each (f entry.1) entry.2) tbl c =
      each (fun kb : α × β => f kb.1 kb.2) (tbl.flatMap fun entry => entry.2.map fun i => (entry.1, i)) c
  | [], _ => rfl
  | (k, l) :: tbl, c => by
    have hmap : ∀ (l : List β) (c : Conv), each (fun kb : α × β => f kb.1 kb.2) (l.map fun i => (k, i)) c = each (f k) l c := by
      intro l
      induction l with
      | nil => intro c; rfl
      | cons b l ih =>
        intro c
        simp only [List.map_cons, each, Bind.bind, Act.bind]
        rcases f k b c with ⟨a | a, c1⟩
        · rfl
        · exact ih c1
    rw [List.flatMap_cons, each_append]
    simp only [each, Bind.bind, Act.bind, hmap]
    rcases each (f k) l c with ⟨a | a, c1⟩
    · rfl
    · exact each_flatten f tbl c1

theorem selectors_loop {E : Env} : ∀ (infos : List (Str × SelInfo)) (es : List NodeEdit) (says : List (Category × Str)) (c : Conv),
    SelectorSteps E (infos.map fun si => (si.1, si.2.node, stackToStr si.2.path)) es says → (∀ e ∈ es, e.At c.v1.root) →
    Independent es → ∃ c', each (fun si : Str × SelInfo => upgradeSelector E si.1 si.2) infos c = (.ok (), c') ∧
      c'.self = c.self ∧ c'.v1.root = putNodes es c.v1.root ∧ c'.v1.init = c.v1.init ∧ c'.v1.schema = c.v1.schema ∧
      c'.v1.vars = c.v1.vars ∧ c'.msgs = says.foldl (fun t m => t.add m.1 m.2) c.msgs
  | [], es, says, c, h, _, _ => by
    cases h
    exact ⟨c, rfl, rfl, rfl, rfl, rfl, rfl, rfl⟩
  | (s, info) :: infos, es, says, c, h, ha, hi => by
    simp only [List.map_cons] at h
    generalize hl : (s, info.node, stackToStr info.path) :: (infos.map fun si : Str × SelInfo => (si.1, si.2.node, stackToStr si.2.path)) = lines at h
    cases h with
    | nil => cases hl
    | inner hleaf hrest =>
      cases hl
      obtain ⟨c', g1, g⟩ := selectors_loop infos es says c hrest ha hi
      refine ⟨c', ?_, g⟩
      have e1 : upgradeSelector E s info c = (.ok (), c) := by
        simp only [upgradeSelector, hleaf, Bool.false_eq_true, if_false, act_pure]
      simp only [each, Bind.bind, Act.bind, e1]
      exact g1
    | reported hleaf hb hm hrest =>
      cases hl
      obtain ⟨c', g1, g⟩ := selectors_loop infos es _ { c with msgs := c.msgs.add .warning (§"A non-list item had a selector at: " ++ stackToStr info.path) } hrest ha hi
      refine ⟨c', ?_, g⟩
      have hsel : ∀ x, selectorPatch x (stackToStr info.path) info.node = none := by
        intro x
        unfold selectorPatch
        cases hv : info.node.value with
        | bool b => exact absurd hv (hb b)
        | _ => simp [hm]
      have e1 : upgradeSelector E s info c = (.ok (), { c with msgs := c.msgs.add .warning (§"A non-list item had a selector at: " ++ stackToStr info.path) }) := by
        simp only [upgradeSelector, hleaf, if_true, hsel, say]
      simp only [each, Bind.bind, Act.bind, e1]
      exact g1
    | changed hleaf hs hle hrest =>
      cases hl
      rename_i body e es
      obtain ⟨k1, k2⟩ := hi.kind e (by simp)
      obtain ⟨c1, e1, o1, r1, i1, sc1, v1, m1⟩ := selector_step (info := info) rfl rfl hleaf hs hle (ha e (by simp)) k1 k2
      obtain ⟨c', g1, g2, g3, g4, g5, g6, g7⟩ := selectors_loop infos es says c1 hrest (by rw [r1]; exact hi.rest ha) hi.tail
      refine ⟨c', ?_, g2.trans o1, ?_, g4.trans i1, g5.trans sc1, g6.trans v1, by rw [g7, m1]⟩
      · simp only [each, Bind.bind, Act.bind, e1]
        exact g1
      · rw [g3, r1]; rfl

end Crm
