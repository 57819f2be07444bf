import Verif.Lemmas.DocRender

/-! # Trees that render to the lines of a document

A patch leaves comments at places where they are not rendered, so more trees than `d.node` give the lines of `d`.
-/

namespace Crm
open Spec Doc

mutual
/-- `n` is rendered as `d`. -/
def Shows : Doc → Node → Prop
  | .scalar k _ v c, n => ∃ c', n = { value := .str k, comment := c', key := true, children := [{ value := v, comment := c }] }
  | .block k c cs, n => ∃ ns, n = { value := .str k, comment := c, key := true, children := ns } ∧ ShowsL cs ns
  | .elem first rest, n => ∃ c' m ns, n = { comment := c', listMember := true, children := m :: ns } ∧ Shows first m ∧ ShowsL rest ns
  | .comment t, n => n = (Doc.comment t).node
  | .empty k c, n => n = (Doc.empty k c).node
  | .multi k m c body, n => n = (Doc.multi k m c body).node
  | .item vt v c, n => n = (Doc.item vt v c).node
def ShowsL : List Doc → List Node → Prop
  | [], ns => ns = []
  | d :: ds, ns => ∃ m ms, ns = m :: ms ∧ Shows d m ∧ ShowsL ds ms
end

mutual
theorem shows_node : ∀ d : Doc, Shows d d.node
  | .scalar _ _ _ c => ⟨c, rfl⟩
  | .block _ _ cs => ⟨nodes cs, rfl, shows_nodes cs⟩
  | .elem first rest => ⟨_, _, _, rfl, shows_node first, shows_nodes rest⟩
  | .comment _ => rfl
  | .empty _ _ => rfl
  | .multi _ _ _ _ => rfl
  | .item _ _ _ => rfl
theorem shows_nodes : ∀ ds : List Doc, ShowsL ds (nodes ds)
  | [] => rfl
  | d :: ds => ⟨d.node, nodes ds, rfl, shows_node d, shows_nodes ds⟩
end

/-- What `Shows` leaves open. -/
theorem shows_same {d : Doc} {n : Node} (h : Shows d n) :
    n.value = d.node.value ∧ n.key = d.node.key ∧ n.listMember = d.node.listMember ∧ n.multiline = d.node.multiline ∧
      n.isLeaf = d.node.isLeaf ∧ n.isComment = d.node.isComment ∧ n.isCollectionElement = d.node.isCollectionElement := by
  cases d with
  | scalar k vt v c => obtain ⟨c', rfl⟩ := h; refine ⟨rfl, rfl, rfl, rfl, rfl, ?_, rfl⟩; simp [node, Node.isComment, Node.isSentinel]
  | block k c cs =>
    obtain ⟨ns, rfl, hns⟩ := h
    refine ⟨rfl, rfl, rfl, rfl, ?_, ?_, ?_⟩
    · cases cs with
      | nil => obtain rfl := hns; rfl
      | cons d ds => obtain ⟨m, ms, rfl, _⟩ := hns; rfl
    · simp [node, Node.isComment, Node.isSentinel]
    · simp [node, Node.isCollectionElement]
  | elem first rest => obtain ⟨c', m, ns, rfl, _⟩ := h; exact ⟨rfl, rfl, rfl, rfl, rfl, by simp [node, Node.isComment], rfl⟩
  | _ => obtain rfl := h; exact ⟨rfl, rfl, rfl, rfl, rfl, rfl, rfl⟩

theorem shows_block_single {E : Env} {cs : List Doc} {ns : List Node} (hne : ∀ d, cs = [d] → d.isEmpty = false) (hok : OkL E cs)
    (hns : ShowsL cs ns) (k c : Str) :
    (⟨.str k, c, ns, false, .no, true⟩ : Node).isSingleKey = true ↔ ∃ vt v c', cs = [.item vt v c'] := by
  rw [← block_single hne hok k c, node]
  match cs, hns with
  | [], hns => obtain rfl := hns; exact Iff.rfl
  | [d], ⟨m, ms, h1, h2, h3⟩ =>
    obtain rfl := h3; subst h1
    simp only [nodes, Node.isSingleKey, (shows_same h2).2.2.2.2.1]
  | d :: d' :: ds, ⟨m, ms, h1, h2, m', ms', h3, _⟩ =>
    subst h3; subst h1
    simp [nodes, Node.isSingleKey]

theorem shows_not_first {E : Env} {first d : Doc} {mf md : Node} (hf : first.canLead = true) (hl : Lead E first) (hd : d.Ok E)
    (hk : d.keyOf ≠ first.keyOf) (h1 : Shows first mf) (h2 : Shows d md) : md.pyEq mf = false := by
  obtain ⟨k, c, cs, hnode, hkey, hne⟩ : ∃ k c cs, mf = { value := .str k, comment := c, key := true, children := cs } ∧
      first.keyOf = some k ∧ cs ≠ [] := by
    cases first with
    | scalar k vt v c => obtain ⟨c', rfl⟩ := h1; exact ⟨k, c', _, rfl, rfl, by simp⟩
    | block k c cs =>
      obtain ⟨ns, rfl, hns⟩ := h1
      refine ⟨k, c, ns, rfl, rfl, ?_⟩
      cases cs with
      | nil => exact absurd rfl hl.1
      | cons d ds => obtain ⟨m, ms, rfl, _⟩ := hns; simp
    | _ => cases hf
  rw [hnode]
  rw [hkey] at hk
  cases d with
  | comment t => obtain rfl := h2; simp [node, Node.pyEq, pyEq]
  | empty k' c' => obtain rfl := h2; simp only [keyOf, ne_eq, Option.some.injEq] at hk; simp [node, Node.pyEq, pyEq, hk]
  | scalar k' vt v c' => obtain ⟨c'', rfl⟩ := h2; simp only [keyOf, ne_eq, Option.some.injEq] at hk; simp [Node.pyEq, pyEq, hk]
  | multi k' m c' body => obtain rfl := h2; simp only [keyOf, ne_eq, Option.some.injEq] at hk; simp [node, Node.pyEq, pyEq, hk]
  | block k' c' cs => obtain ⟨ns, rfl, _⟩ := h2; simp only [keyOf, ne_eq, Option.some.injEq] at hk; simp [Node.pyEq, pyEq, hk]
  | item vt v c' => obtain rfl := h2; simp [node, Node.pyEq]
  | elem f rest => obtain ⟨c'', m, ns, rfl, _⟩ := h2; simp [Node.pyEq, pyEq]

mutual
theorem shows_child (E : Env) : ∀ (d : Doc) (n : Node) (e : Nat) (P : Node), Shows d n → d.Ok E → isFirstOf P n = false →
    childLines ((e : Int) - 1) e P n = d.lines e
  | .comment t, n, e, P, hn, h, hf => by obtain rfl := hn; exact render_child E _ e P h hf
  | .empty k c, n, e, P, hn, h, hf => by obtain rfl := hn; exact render_child E _ e P h hf
  | .multi k m c body, n, e, P, hn, h, hf => by obtain rfl := hn; exact render_child E _ e P h hf
  | .item vt v c, n, e, P, hn, h, hf => by obtain rfl := hn; exact render_child E _ e P h hf
  | .scalar k vt v c, n, e, P, hn, h, hf => by
    obtain ⟨c', rfl⟩ := hn
    obtain ⟨hl, _, _, _, hv, hvt⟩ := h
    rw [← stringify_text] at hvt
    simp only [childLines, prefix_ind]
    rw [if_neg (by simp [Node.isComment, Node.isSentinel]), if_neg (by simp [Node.isEmptyKey, Node.isLeaf]),
      if_neg (by simp [Node.isLeaf])]
    have hleaf : (⟨v, c, [], false, .no, false⟩ : Node).isLeaf = true := by
      have : (⟨v, c, [], false, .no, false⟩ : Node).isSentinel = false := by
        cases v <;> first | rfl | exact absurd rfl hv
      simp [Node.isLeaf, Node.isComment, this]
    rw [renderTree_single _ _ _ _ _ _ _ hleaf, if_neg (by simp), hf, if_neg (by simp), if_neg (by simp), tabs_ind]
    have := rstrip_withComment (ind e) hl.clean.1 hl.clean.2 hl.plain.trimmed
    simp only [lines, under, head]
    rw [← this, ← hvt]
    simp [base, trail, pyStr]
  | .block k c cs, n, e, P, hn, h, hf => by
    obtain ⟨ns, rfl, hns⟩ := hn
    obtain ⟨hl, _, _, hne, hsingle, hcs⟩ := h
    simp only [childLines, prefix_ind]
    have hnn : ns ≠ [] := by
      cases cs with
      | nil => exact absurd rfl hne
      | cons d ds => obtain ⟨m, ms, rfl, _⟩ := hns; simp
    rw [if_neg (by simp [Node.isComment, Node.isSentinel]), if_neg (by simp [Node.isEmptyKey, Node.isLeaf, hnn]),
      if_neg (by simp [Node.isLeaf, hnn])]
    have := rstrip_withComment (ind e) hl.clean.1 hl.clean.2 hl.plain.trimmed
    have hit := shows_block_single hsingle hcs hns k c
    by_cases hs : (⟨.str k, c, ns, false, .no, true⟩ : Node).isSingleKey = true
    · obtain ⟨vt, v, c', rfl⟩ := hit.1 hs
      obtain ⟨m, ms, rfl, rfl, rfl⟩ := hns
      obtain ⟨hi, _, _, _, hv, hvt⟩ := hcs.1
      rw [← stringify_text] at hvt
      have hleaf := (node_isLeaf hcs.1).2 (Or.inr ⟨vt, v, c', rfl⟩)
      simp only [node] at hf hleaf ⊢
      rw [renderTree_single _ _ _ _ _ _ _ hleaf, if_pos rfl, hf, if_neg (by simp), tabs_ind]
      have h2 := rstrip_withComment (ind (e + 1)) hi.clean.1 hi.clean.2 hi.plain.trimmed
      simp only [lines, under, linesL, head, List.append_nil]
      rw [← this, ← h2, ← hvt, ind_succ]
      simp [base, trail, pyStr]
    · have hs' : (⟨.str k, c, ns, false, .no, true⟩ : Node).isSingleKey = false := by simpa using hs
      rw [renderTree_many _ _ _ _ _ _ _ hs', hf, if_neg (by simp), if_neg (by simp), tabs_ind]
      rw [shows_children E cs ns e _ hns hcs (fun m hm => by simp [isFirstOf, Node.isCollectionElement])]
      simp only [lines, under, head]
      rw [← this]
      simp [base, trail, pyStr]
  | .elem first rest, n, e, P, hn, h, _ => by
    obtain ⟨c', m, ns, rfl, hm, hns⟩ := hn
    obtain ⟨hl, _, _, hcan, hlead, hkeys, hrest⟩ := h
    simp only [childLines, prefix_ind]
    rw [if_neg (by simp [Node.isComment]), if_neg (by simp [Node.isEmptyKey, Node.isLeaf]),
      if_neg (by simp [Node.isLeaf])]
    rw [renderTree_elem, renderChildren_cons]
    rw [if_neg (by omega), List.append_nil]
    rw [shows_children' E rest ns e _ hns hrest (fun d hd x hx => by
      have := shows_not_first hcan hlead ((okL_iff rest).1 hrest d hd) (hkeys d hd) hm hx
      simp [isFirstOf, this])]
    have hcl : childLines (e : Int) ((e : Int) + 1) { comment := c', listMember := true, children := m :: ns }
        m = renderTree ((e : Int) + 1) (some { comment := c', listMember := true, children := m :: ns })
          m := by
      simp only [childLines]
      cases first with
      | scalar k vt v c =>
        obtain ⟨c'', rfl⟩ := hm
        rw [if_neg (by simp [Node.isComment, Node.isSentinel]), if_neg (by simp [Node.isEmptyKey, Node.isLeaf]),
          if_neg (by simp [Node.isLeaf])]
      | block k c cs =>
        obtain ⟨ns', rfl, hns'⟩ := hm
        have hnn : ns' ≠ [] := by
          cases cs with
          | nil => exact absurd rfl hlead.1
          | cons d ds => obtain ⟨m, ms, rfl, _⟩ := hns'; simp
        rw [if_neg (by simp [Node.isComment, Node.isSentinel]), if_neg (by simp [Node.isEmptyKey, Node.isLeaf, hnn]),
          if_neg (by simp [Node.isLeaf, hnn])]
      | _ => cases hcan
    rw [hcl, shows_first E first m e _ hm hcan hlead
      ⟨by simpa [base, trail, head] using hl.plain.trimmed, by simpa [base] using hl.clean.2⟩
      (by simp [isFirstOf, Node.isCollectionElement, Node.isSentinel, Node.pyEq_refl])]
    simp [lines, under, head, base, trail]
/-- The first entry of a list element. -/
theorem shows_first (E : Env) : ∀ (d : Doc) (n : Node) (e : Nat) (P : Node), Shows d n → d.canLead = true → Lead E d →
    (strip (withComment (§"- " ++ d.base) d.trail) = withComment (§"- " ++ d.base) d.trail ∧
      strip (§"- " ++ d.base) = §"- " ++ d.base) →
    isFirstOf P n = true →
    renderTree ((e : Int) + 1) (some P) n =
      (ind e ++ withComment (§"- " ++ d.base) d.trail) :: d.under (e + 1)
  | .scalar k vt v c, n, e, P, hn, _, h, hl, hf => by
    obtain ⟨c', rfl⟩ := hn
    obtain ⟨_, hv, hvt⟩ := h
    rw [← stringify_text] at hvt
    have hleaf : (⟨v, c, [], false, .no, false⟩ : Node).isLeaf = true := by
      have : (⟨v, c, [], false, .no, false⟩ : Node).isSentinel = false := by
        cases v <;> first | rfl | exact absurd rfl hv
      simp [Node.isLeaf, Node.isComment, this]
    rw [renderTree_single _ _ _ _ _ _ _ hleaf, if_neg (by simp), if_pos hf]
    have := rstrip_withComment (ind e) (b := §"- " ++ (scalar k vt v c).base) (by simp) hl.2 hl.1
    rw [← this, ← hvt, show (e : Int) + 1 - 1 = e by omega, tabs_ind]
    simp [base, trail, pyStr, under]
  | .block k c cs, n, e, P, hn, _, h, hl, hf => by
    obtain ⟨ns, rfl, hns⟩ := hn
    obtain ⟨hne, hsingle, hcs⟩ := h
    have := rstrip_withComment (ind e) (b := §"- " ++ (block k c cs).base) (by simp) hl.2 hl.1
    have hit := shows_block_single hsingle hcs hns k c
    by_cases hs : (⟨.str k, c, ns, false, .no, true⟩ : Node).isSingleKey = true
    · obtain ⟨vt, v, c', rfl⟩ := hit.1 hs
      obtain ⟨m, ms, rfl, rfl, rfl⟩ := hns
      obtain ⟨hi, _, _, _, hv, hvt⟩ := hcs.1
      rw [← stringify_text] at hvt
      have hleaf := (node_isLeaf hcs.1).2 (Or.inr ⟨vt, v, c', rfl⟩)
      simp only [node] at hf hleaf ⊢
      rw [renderTree_single _ _ _ _ _ _ _ hleaf, if_pos rfl, if_pos hf, show (e : Int) + 1 - 1 = e by omega, tabs_ind, tabs_ind']
      have h2 := rstrip_withComment (ind (e + 2)) hi.clean.1 hi.clean.2 hi.plain.trimmed
      simp only [under, linesL, head, List.append_nil]
      rw [← this, ← h2, ← hvt, ind_succ]
      simp [base, trail, pyStr]
    · have hs' : (⟨.str k, c, ns, false, .no, true⟩ : Node).isSingleKey = false := by simpa using hs
      have hmany := renderTree_many (e + 1) P (.str k) c ns .no true hs'
      have h1 : ((e + 1 : Nat) : Int) = (e : Int) + 1 := by omega
      rw [h1] at hmany
      rw [hmany, if_pos hf, if_pos hf, tabs_ind', ind_succ_drop]
      have hch := shows_children E cs ns (e + 1) ⟨.str k, c, ns, false, .no, true⟩ hns hcs
        (fun d hd => by simp [isFirstOf, Node.isCollectionElement])
      rw [h1] at hch
      rw [hch, ← this]
      simp [base, trail, pyStr, under]
  | .comment _, _, _, _, _, h, _, _, _ => by cases h
  | .empty _ _, _, _, _, _, h, _, _, _ => by cases h
  | .multi _ _ _ _, _, _, _, _, h, _, _, _ => by cases h
  | .item _ _ _, _, _, _, _, h, _, _, _ => by cases h
  | .elem _ _, _, _, _, _, h, _, _, _ => by cases h
theorem shows_children (E : Env) : ∀ (ds : List Doc) (ns : List Node) (e : Nat) (P : Node), ShowsL ds ns → OkL E ds →
    (∀ m ∈ ns, isFirstOf P m = false) →
    renderChildren (e : Int) ((e : Int) + 1) P ns = linesL (e + 1) ds
  | [], _, _, _, hn, _, _ => by obtain rfl := hn; rfl
  | d :: ds, ns, e, P, hn, h, hf => by
    obtain ⟨m, ms, rfl, hm, hms⟩ := hn
    rw [renderChildren_cons, if_neg (by omega), List.append_nil, linesL]
    have h1 : ((e + 1 : Nat) : Int) = (e : Int) + 1 := by omega
    have hc := shows_child E d m (e + 1) P hm h.1 (hf m (by simp))
    rw [h1, show (e : Int) + 1 - 1 = e by omega] at hc
    rw [hc, shows_children E ds ms e P hms h.2 (fun d hd => hf d (by simp [hd]))]
    simp [lines]
theorem shows_children' (E : Env) : ∀ (ds : List Doc) (ns : List Node) (e : Nat) (P : Node), ShowsL ds ns → OkL E ds →
    (∀ d ∈ ds, ∀ m, Shows d m → isFirstOf P m = false) →
    renderChildren (e : Int) ((e : Int) + 1) P ns = linesL (e + 1) ds
  | [], _, _, _, hn, _, _ => by obtain rfl := hn; rfl
  | d :: ds, ns, e, P, hn, h, hf => by
    obtain ⟨m, ms, rfl, hm, hms⟩ := hn
    rw [renderChildren_cons, if_neg (by omega), List.append_nil, linesL]
    have h1 : ((e + 1 : Nat) : Int) = (e : Int) + 1 := by omega
    have hc := shows_child E d m (e + 1) P hm h.1 (hf d (by simp) m hm)
    rw [h1, show (e : Int) + 1 - 1 = e by omega] at hc
    rw [hc, shows_children' E ds ms e P hms h.2 (fun d hd => hf d (by simp [hd]))]
    simp [lines]
end

/-- The rendered lines of a tree that shows a document. -/
theorem shows_documentLines (E : Env) : ∀ (ds : List Doc) (ns : List Node), ShowsL ds ns → OkL E ds → ∀ P : Node,
    P.isCollectionElement = false → renderChildren (-1) 0 P ns = documentLines ds := by
  intro ds
  induction ds with
  | nil => intro ns hn _ _ _; obtain rfl := hn; rfl
  | cons d ds ih =>
    intro ns hn h P hP
    obtain ⟨m, ms, rfl, hm, hms⟩ := hn
    rw [renderChildren_cons, documentLines, ih ms hms h.2 P hP]
    have hc := shows_child E d m 0 P hm h.1 (by simp [isFirstOf, hP])
    rw [show ((0 : Nat) : Int) - 1 = -1 by omega] at hc
    rw [show ((0 : Nat) : Int) = 0 by rfl] at hc
    rw [hc, (shows_same hm).2.2.2.2.2.1, node_isComment h.1]
    cases d.isComment <;> simp

theorem shows_document (E : Env) (ds : List Doc) (ns : List Node) (hn : ShowsL ds ns) (h : OkL E ds) :
    renderTree (-1) none { value := .str §"/", children := ns } = documentLines ds := by
  have h1 : ∀ cs, (⟨.str §"/", [], cs, false, .no, false⟩ : Node).isSingleKey = false := fun cs => by
    cases cs with
    | nil => rfl
    | cons a cs => cases cs <;> rfl
  rw [renderTree_not_single _ _ _ _ _ _ _ _ (h1 _)]
  simp only [show decide ((-1 : Int) > -1) = false by decide, Bool.false_and, Bool.false_eq_true, if_false, List.nil_append]
  rw [show (-1 : Int) + 1 = 0 by omega]
  exact shows_documentLines E ds ns hn h _ (by simp [Node.isCollectionElement])

end Crm
