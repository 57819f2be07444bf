import Verif.Spec.Document
import Verif.Lemmas.Str
import Verif.Lemmas.Edit
import Verif.Lemmas.Text

/-! # Rendering the tree of a document gives its lines -/

namespace Crm
open Spec Doc

theorem clean_of_strip {s : Str} (h : strip s = s) : Clean s := h ▸ strip_is_clean s

theorem rstrip_clean_suffix (a : Str) {x : Str} (hx : x ≠ []) (h : Clean x) : rstrip (a ++ x) = a ++ x := by
  apply rstrip_clean
  intro c hc
  rw [List.getLast?_append, List.getLast?_eq_some_getLast hx, Option.or] at hc
  exact h.2 c (by rw [List.getLast?_eq_some_getLast hx]; exact hc)

/-- A line with two spaces and a comment at its end. -/
theorem rstrip_withComment (a : Str) {b c : Str} (hb : b ≠ []) (hb' : strip b = b)
    (hc : strip (withComment b c) = withComment b c) : rstrip (a ++ (b ++ (§"  " ++ c))) = a ++ withComment b c := by
  by_cases h : c = []
  · subst h
    have : a ++ (b ++ (§"  " ++ [])) = (a ++ b) ++ §"  " := by simp
    rw [this, rstrip_append_spaces _ _ (by decide), rstrip_clean_suffix a hb (clean_of_strip hb')]
    simp [withComment]
  · simp only [withComment, if_neg h] at hc ⊢
    rw [← List.append_assoc b]
    exact rstrip_clean_suffix a (by simp) (clean_of_strip hc)

theorem tabs_ind (e : Nat) : tabs (e : Int) = ind e := by simp [tabs, ind]

theorem tabs_ind' (e : Nat) : tabs ((e : Int) + 1) = ind (e + 1) := tabs_ind (e + 1)

theorem ind_succ (e : Nat) : ind e ++ tabStr = ind (e + 1) := by
  show List.replicate (2 * e) ' ' ++ List.replicate 2 ' ' = List.replicate (2 * (e + 1)) ' '
  rw [List.replicate_append_replicate]
  rfl

theorem ind_succ_drop (e : Nat) : (ind (e + 1)).drop 2 = ind e := by
  simp only [ind, List.drop_replicate]; rfl

/-- The lines `_render_tree` appends for one child. -/
def childLines (depth childDepth : Int) (node child : Node) : List Str :=
  let prefx := tabs depth ++ (if depth < 0 then [] else tabStr)
  if child.isComment then [ rstrip (prefx ++ child.comment) ]
  else if child.isEmptyKey then [ rstrip (prefx ++ pyStr (stringifyYaml child.value) ++ §":  " ++ child.comment) ]
  else if child.isLeaf then [ rstrip (prefx ++ §"- " ++ pyStr (stringifyYaml child.value) ++ §"  " ++ child.comment) ]
  else renderTree childDepth (some node) child

theorem renderChildren_cons (depth childDepth : Int) (node child : Node) (rest : List Node) :
    renderChildren depth childDepth node (child :: rest) =
      childLines depth childDepth node child ++ (if depth < 0 ∧ !child.isComment then [[]] else []) ++
        renderChildren depth childDepth node rest := by
  rw [renderChildren]
  rfl

theorem prefix_ind (e : Nat) : tabs ((e : Int) - 1) ++ (if (e : Int) - 1 < 0 then [] else tabStr) = ind e := by
  cases e with
  | zero => rfl
  | succ e =>
    have h1 : ((e + 1 : Nat) : Int) - 1 = (e : Int) := by omega
    rw [h1, if_neg (by omega), tabs_ind, ind_succ]

/-- The test for the first entry of a list element. -/
def isFirstOf (P n : Node) : Bool :=
  P.isCollectionElement && (match P.children with | f :: _ => n.pyEq f | [] => false)

theorem renderTree_single (depth : Int) (P : Node) (v : PyVal) (c : Str) (ch : Node) (l : Bool) (m : Multiline)
    (hl : ch.isLeaf = true) :
    renderTree depth (some P) ⟨v, c, [ch], l, m, true⟩ =
      if ch.listMember then
        [ rstrip ((if isFirstOf P ⟨v, c, [ch], l, m, true⟩ then tabs (depth - 1) ++ §"- " else tabs depth) ++ pyStr v ++ §":  " ++ c),
          rstrip (tabs depth ++ tabStr ++ §"- " ++ pyStr (stringifyYaml ch.value ch.multiline) ++ §"  " ++ ch.comment) ]
      else if isFirstOf P ⟨v, c, [ch], l, m, true⟩ then
        [ rstrip (tabs (depth - 1) ++ §"- " ++ pyStr v ++ §": " ++ pyStr (stringifyYaml ch.value) ++ §"  " ++ ch.comment) ]
      else if ch.multiline ≠ .no then
        rstrip (tabs depth ++ pyStr v ++ §": " ++ ch.multiline.text ++ §"  " ++ c)
          :: (linesOf ch.value).map fun ln => rstrip (tabs depth ++ tabStr ++ pyStr (stringifyYaml (.str ln) ch.multiline))
      else [ rstrip (tabs depth ++ pyStr v ++ §": " ++ pyStr (stringifyYaml ch.value) ++ §"  " ++ ch.comment) ] := by
  rw [renderTree]
  simp only [Node.isSingleKey, hl, Bool.and_self, if_true]
  rfl

/-- The lines of a node that is not a key with one value. -/
theorem renderTree_not_single (depth : Int) (parent : Option Node) (v : PyVal) (c : Str) (cs : List Node) (l : Bool) (m : Multiline)
    (k : Bool) (hs : (⟨v, c, cs, l, m, k⟩ : Node).isSingleKey = false) :
    renderTree depth parent ⟨v, c, cs, l, m, k⟩ =
      (let first := (parent.map (isFirstOf · ⟨v, c, cs, l, m, k⟩)).getD false
       let visible := decide (depth > -1) && !(⟨v, c, cs, l, m, k⟩ : Node).isCollectionElement
       (if visible then
          [ rstrip ((if first then (tabs depth).drop 2 else tabs depth) ++ (if l || first then §"- " else []) ++ pyStr v ++
              §":  " ++ c) ]
        else []) ++
        renderChildren depth (depth + if visible && l then 2 else 1) ⟨v, c, cs, l, m, k⟩ cs) := by
  cases parent <;> cases cs <;> rw [renderTree, if_neg (by rw [hs]; simp)] <;> rfl

theorem renderTree_many (depth : Nat) (P : Node) (v : PyVal) (c : Str) (cs : List Node) (m : Multiline) (k : Bool)
    (hs : (⟨v, c, cs, false, m, k⟩ : Node).isSingleKey = false) :
    renderTree depth (some P) ⟨v, c, cs, false, m, k⟩ =
      rstrip ((if isFirstOf P ⟨v, c, cs, false, m, k⟩ then (tabs depth).drop 2 else tabs depth) ++
          (if isFirstOf P ⟨v, c, cs, false, m, k⟩ then §"- " else []) ++ pyStr v ++ §":  " ++ c) ::
        renderChildren depth (depth + 1) ⟨v, c, cs, false, m, k⟩ cs := by
  rw [renderTree_not_single _ _ _ _ _ _ _ _ hs]
  have h1 : (⟨v, c, cs, false, m, k⟩ : Node).isCollectionElement = false := by
    simp [Node.isCollectionElement]
  have h2 : decide ((depth : Int) > -1) = true := by simp; omega
  simp only [Bool.false_eq_true, if_false, h1, h2, Bool.not_false, Bool.and_true, if_true, Bool.and_false,
    Bool.false_or, Option.map_some, Option.getD_some, List.cons_append, List.nil_append]

theorem renderTree_elem (depth : Nat) (P : Node) (c : Str) (f : Node) (cs : List Node) :
    renderTree depth (some P) { comment := c, listMember := true, children := f :: cs } =
      renderChildren depth (depth + 1) { comment := c, listMember := true, children := f :: cs } (f :: cs) := by
  have h1 : (⟨.sentinel, c, f :: cs, true, .no, false⟩ : Node).isCollectionElement = true := rfl
  have h2 : (⟨.sentinel, c, f :: cs, true, .no, false⟩ : Node).isSingleKey = false := by cases cs <;> rfl
  rw [renderTree_not_single _ _ _ _ _ _ _ _ h2]
  simp only [h1, Bool.false_eq_true, if_false, Bool.not_true, Bool.and_false, Bool.false_and, List.nil_append]

theorem nodes_map (ds : List Doc) : nodes ds = ds.map Doc.node := by
  induction ds with
  | nil => rfl
  | cons d ds ih => rw [nodes, ih]; rfl

theorem okL_iff {E : Env} (ds : List Doc) : OkL E ds ↔ ∀ d ∈ ds, d.Ok E := by
  induction ds with
  | nil => simp [OkL]
  | cons d ds ih => simp [OkL, ih]

/-- Which nodes are leaves. -/
theorem node_isLeaf {E : Env} {d : Doc} (h : d.Ok E) : d.node.isLeaf = true ↔ d.isEmpty = true ∨ ∃ vt v c, d = .item vt v c := by
  cases d with
  | comment t =>
    obtain ⟨_, ⟨u, rfl⟩, _⟩ := h
    simp [node, Node.isLeaf, Node.isComment, Node.isSentinel, Doc.isEmpty]
  | empty k c => simp [node, Node.isLeaf, Node.isComment, Node.isSentinel, Doc.isEmpty]
  | scalar k vt v c => simp [node, Node.isLeaf, Doc.isEmpty]
  | multi k m c body => simp [node, Node.isLeaf, Doc.isEmpty]
  | block k c cs =>
    obtain ⟨_, _, _, hne, _⟩ := h
    cases cs with
    | nil => exact absurd rfl hne
    | cons d ds => simp [node, nodes, Node.isLeaf, Doc.isEmpty]
  | item vt v c =>
    obtain ⟨_, _, _, _, hv, _⟩ := h
    have : (⟨v, c, [], true, .no, false⟩ : Node).isSentinel = false := by
      cases v <;> first | rfl | exact absurd rfl hv
    simp [node, Node.isLeaf, Node.isComment, this]
  | elem first rest => simp [node, Node.isLeaf, Doc.isEmpty]

theorem node_isComment {E : Env} {d : Doc} (h : d.Ok E) : d.node.isComment = d.isComment := by
  cases d with
  | comment t =>
    obtain ⟨_, ⟨u, rfl⟩, _⟩ := h
    simp [node, Node.isComment, Node.isSentinel, Doc.isComment]
  | empty k c => simp [node, Node.isComment, Node.isSentinel, Doc.isComment]
  | scalar k vt v c => simp [node, Node.isComment, Node.isSentinel, Doc.isComment]
  | multi k m c body => simp [node, Node.isComment, Node.isSentinel, Doc.isComment]
  | block k c cs => simp [node, Node.isComment, Node.isSentinel, Doc.isComment]
  | item vt v c =>
    obtain ⟨_, _, _, _, hv, _⟩ := h
    have : (⟨v, c, [], true, .no, false⟩ : Node).isSentinel = false := by
      cases v <;> first | rfl | exact absurd rfl hv
    simp [node, Node.isComment, this, Doc.isComment]
  | elem first rest => simp [node, Node.isComment, Doc.isComment]

/-- When the only child of a block is a leaf, it is a list item. -/
theorem block_single {E : Env} {cs : List Doc} (hne : ∀ d, cs = [d] → d.isEmpty = false) (hok : OkL E cs) (k c : Str) :
    (block k c cs).node.isSingleKey = true ↔ ∃ vt v c', cs = [.item vt v c'] := by
  rw [node]
  match cs, hok with
  | [], _ => simp [nodes, Node.isSingleKey]
  | [d], hok =>
    have hd : d.Ok E := hok.1
    simp only [nodes, Node.isSingleKey, Bool.true_and]
    rw [node_isLeaf hd]
    constructor
    · rintro (h | ⟨vt, v, c', rfl⟩)
      · rw [hne d rfl] at h; cases h
      · exact ⟨vt, v, c', rfl⟩
    · rintro ⟨vt, v, c', h⟩
      simp only [List.cons.injEq, and_true] at h
      exact Or.inr ⟨vt, v, c', h⟩
  | d :: d' :: ds, _ => simp [nodes, Node.isSingleKey]

/-- Only entries with the same key can be taken for the first one. -/
theorem not_first {E : Env} {first d : Doc} (hf : first.canLead = true) (hl : Lead E first) (hd : d.Ok E)
    (hk : d.keyOf ≠ first.keyOf) : d.node.pyEq first.node = false := by
  obtain ⟨k, c, cs, hnode, hkey, hne⟩ : ∃ k c cs, first.node = { value := .str k, comment := c, key := true, children := cs } ∧
      first.keyOf = some k ∧ cs ≠ [] := by
    cases first with
    | scalar k vt v c => exact ⟨k, c, _, rfl, rfl, by simp⟩
    | block k c cs =>
      refine ⟨k, c, nodes cs, rfl, rfl, ?_⟩
      cases cs with
      | nil => exact absurd rfl hl.1
      | cons d ds => simp [nodes]
    | _ => cases hf
  rw [hnode]
  rw [hkey] at hk
  cases d with
  | comment t => simp [node, Node.pyEq, pyEq]
  | empty k' c' => simp only [keyOf, ne_eq, Option.some.injEq] at hk; simp [node, Node.pyEq, pyEq, hk]
  | scalar k' vt v c' => simp only [keyOf, ne_eq, Option.some.injEq] at hk; simp [node, Node.pyEq, pyEq, hk]
  | multi k' m c' body => simp only [keyOf, ne_eq, Option.some.injEq] at hk; simp [node, Node.pyEq, pyEq, hk]
  | block k' c' cs => simp only [keyOf, ne_eq, Option.some.injEq] at hk; simp [node, Node.pyEq, pyEq, hk]
  | item vt v c' => simp [node, Node.pyEq]
  | elem f rest => simp [node, Node.pyEq, pyEq]

theorem quote_multi (l : Str) {m : Multiline} (h : m ≠ .no) : pyStr (stringifyYaml (.str l) m) = l := by
  simp [stringifyYaml, quoteSpecialStrings, h, pyStr]

theorem item_stringify (v : PyVal) : stringifyYaml v .no = stringifyYaml v := rfl

mutual
theorem render_child (E : Env) : ∀ (d : Doc) (e : Nat) (P : Node), d.Ok E → isFirstOf P d.node = false →
    childLines ((e : Int) - 1) e P d.node = d.lines e
  | .comment t, e, P, h, _ => by
    obtain ⟨hl, ⟨u, rfl⟩, _⟩ := h
    have hcl := hl.plain.trimmed
    simp only [childLines, prefix_ind, node]
    rw [if_pos (by rfl)]
    simp only [lines, under, head, base, trail, withComment, if_true] at hcl ⊢
    rw [rstrip_clean_suffix _ (by simp) (clean_of_strip hcl)]
  | .empty k c, e, P, h, _ => by
    obtain ⟨hl, _, _, hq⟩ := h
    rw [← stringify_text] at hq
    simp only [childLines, prefix_ind, node]
    rw [if_neg (by simp [Node.isComment, Node.isSentinel]), if_pos (by rfl)]
    have := rstrip_withComment (ind e) hl.clean.1 hl.clean.2 hl.plain.trimmed
    simp only [lines, under, head]
    rw [← this, hq]
    simp [base, trail]
  | .scalar k vt v c, e, P, h, hf => by
    obtain ⟨hl, _, _, _, hv, hvt⟩ := h
    rw [← stringify_text] at hvt
    simp only [childLines, prefix_ind]
    rw [if_neg (by simp [node, Node.isComment, Node.isSentinel]), if_neg (by simp [node, Node.isEmptyKey, Node.isLeaf]),
      if_neg (by simp [node, Node.isLeaf])]
    have hleaf : (⟨v, c, [], false, .no, false⟩ : Node).isLeaf = true := by
      have : (⟨v, c, [], false, .no, false⟩ : Node).isSentinel = false := by
        cases v <;> first | rfl | exact absurd rfl hv
      simp [Node.isLeaf, Node.isComment, this]
    simp only [node] at hf ⊢
    rw [renderTree_single _ _ _ _ _ _ _ hleaf, if_neg (by simp), hf, if_neg (by simp), if_neg (by simp), tabs_ind]
    have := rstrip_withComment (ind e) hl.clean.1 hl.clean.2 hl.plain.trimmed
    simp only [lines, under, head]
    rw [← this, ← hvt]
    simp [base, trail, pyStr]
  | .multi k m c body, e, P, h, hf => by
    obtain ⟨hl, _, _, hm, hb⟩ := h
    simp only [childLines, prefix_ind]
    rw [if_neg (by simp [node, Node.isComment, Node.isSentinel]), if_neg (by simp [node, Node.isEmptyKey, Node.isLeaf]),
      if_neg (by simp [node, Node.isLeaf])]
    have hm' : m ≠ .no := by rintro rfl; simp at hm
    simp only [node] at hf ⊢
    rw [renderTree_single _ _ _ _ _ _ _ (by rfl), if_neg (by simp), hf, if_neg (by simp), if_pos hm', tabs_ind]
    have := rstrip_withComment (ind e) hl.clean.1 hl.clean.2 hl.plain.trimmed
    simp only [lines, under, head]
    rw [← this]
    have hbody : (linesOf (.list (body.map .str))) = body := by
      simp only [linesOf, List.map_map]
      exact List.map_id' body
    rw [hbody]
    refine congr (congrArg List.cons ?_) ?_
    · simp [base, trail, pyStr]
    · apply List.map_congr_left
      intro l hlb
      simp only [quote_multi l hm', ind_succ]
      by_cases hl0 : l = []
      · subst hl0
        have hsp := rstrip_append_spaces [] (ind (e + 1)) (by
          intro x hx
          rw [ind] at hx
          rw [(List.mem_replicate.1 hx).2]; rfl)
        rw [List.nil_append] at hsp
        rw [if_pos rfl, List.append_nil, hsp]
        rfl
      · rw [if_neg hl0, rstrip_clean_suffix _ hl0 (clean_of_strip (hb l hlb).trimmed)]
  | .block k c cs, e, P, h, hf => by
    obtain ⟨hl, _, _, hne, hsingle, hcs⟩ := h
    simp only [childLines, prefix_ind]
    have hnn : nodes cs ≠ [] := by cases cs with | nil => exact absurd rfl hne | cons d ds => simp [nodes]
    rw [if_neg (by simp [node, Node.isComment, Node.isSentinel]), if_neg (by simp [node, Node.isEmptyKey, Node.isLeaf, hnn]),
      if_neg (by simp [node, Node.isLeaf, hnn])]
    have := rstrip_withComment (ind e) hl.clean.1 hl.clean.2 hl.plain.trimmed
    have hit := block_single hsingle hcs k c
    by_cases hs : (block k c cs).node.isSingleKey = true
    · obtain ⟨vt, v, c', rfl⟩ := hit.1 hs
      obtain ⟨hi, _, _, _, hv, hvt⟩ := hcs.1
      rw [← stringify_text] at hvt
      have hleaf := (node_isLeaf hcs.1).2 (Or.inr ⟨vt, v, c', rfl⟩)
      simp only [node, nodes] at hf hleaf ⊢
      rw [renderTree_single _ _ _ _ _ _ _ hleaf, if_pos rfl, hf, if_neg (by simp), tabs_ind]
      have h2 := rstrip_withComment (ind (e + 1)) hi.clean.1 hi.clean.2 hi.plain.trimmed
      simp only [lines, under, linesL, head, List.append_nil]
      rw [← this, ← h2, ← hvt, ind_succ]
      simp [base, trail, pyStr]
    · have hs' : (block k c cs).node.isSingleKey = false := by simpa using hs
      simp only [node] at hf hs' ⊢
      rw [renderTree_many _ _ _ _ _ _ _ hs', hf, if_neg (by simp), if_neg (by simp), tabs_ind]
      rw [render_children E cs e _ hcs (fun d hd => by simp [isFirstOf, Node.isCollectionElement])]
      simp only [lines, under, head]
      rw [← this]
      simp [base, trail, pyStr]
  | .item vt v c, e, P, h, _ => by
    have hleaf := (node_isLeaf h).2 (Or.inr ⟨vt, v, c, rfl⟩)
    have hc := node_isComment h
    obtain ⟨hl, _, _, _, hv, hvt⟩ := h
    rw [← stringify_text] at hvt
    simp only [childLines, prefix_ind]
    rw [if_neg (by rw [hc]; simp [Doc.isComment]), if_neg (by simp [node, Node.isEmptyKey]), if_pos hleaf]
    have := rstrip_withComment (ind e) hl.clean.1 hl.clean.2 hl.plain.trimmed
    simp only [lines, under, head, node]
    rw [← this, ← hvt]
    simp [base, trail]
  | .elem first rest, e, P, h, _ => by
    obtain ⟨hl, _, _, hcan, hlead, hkeys, hrest⟩ := h
    simp only [childLines, prefix_ind]
    rw [if_neg (by simp [node, Node.isComment, Node.isSentinel]), if_neg (by simp [node, Node.isEmptyKey, Node.isLeaf]),
      if_neg (by simp [node, Node.isLeaf])]
    simp only [node]
    rw [renderTree_elem, renderChildren_cons]
    rw [if_neg (by omega), List.append_nil]
    rw [render_children E rest e _ hrest (fun d hd => by
      have := not_first hcan hlead ((okL_iff rest).1 hrest d hd) (hkeys d hd)
      simp [isFirstOf, this])]
    have hcl : childLines (e : Int) ((e : Int) + 1) { comment := first.trail, listMember := true, children := first.node :: nodes rest }
        first.node = renderTree ((e : Int) + 1) (some { comment := first.trail, listMember := true, children := first.node :: nodes rest })
          first.node := by
      simp only [childLines]
      cases first with
      | scalar k vt v c =>
        rw [if_neg (by simp [node, Node.isComment, Node.isSentinel]), if_neg (by simp [node, Node.isEmptyKey, Node.isLeaf]),
          if_neg (by simp [node, Node.isLeaf])]
      | block k c cs =>
        have hnn : nodes cs ≠ [] := by cases cs with | nil => exact absurd rfl hlead.1 | cons d ds => simp [nodes]
        rw [if_neg (by simp [node, Node.isComment, Node.isSentinel]), if_neg (by simp [node, Node.isEmptyKey, Node.isLeaf, hnn]),
          if_neg (by simp [node, Node.isLeaf, hnn])]
      | _ => cases hcan
    rw [hcl, render_first E first e _ hcan hlead
      ⟨by simpa [base, trail, head] using hl.plain.trimmed, by simpa [base] using hl.clean.2⟩
      (by simp [isFirstOf, Node.isCollectionElement, Node.isSentinel, Node.pyEq_refl])]
    simp [lines, under, head, base, trail]
/-- The first entry of a list element. -/
theorem render_first (E : Env) : ∀ (d : Doc) (e : Nat) (P : Node), d.canLead = true → Lead E d →
    (strip (withComment (§"- " ++ d.base) d.trail) = withComment (§"- " ++ d.base) d.trail ∧
      strip (§"- " ++ d.base) = §"- " ++ d.base) →
    isFirstOf P d.node = true →
    renderTree ((e : Int) + 1) (some P) d.node =
      (ind e ++ withComment (§"- " ++ d.base) d.trail) :: d.under (e + 1)
  | .scalar k vt v c, e, P, _, h, hl, hf => by
    obtain ⟨_, hv, hvt⟩ := h
    rw [← stringify_text] at hvt
    have hleaf : (⟨v, c, [], false, .no, false⟩ : Node).isLeaf = true := by
      have : (⟨v, c, [], false, .no, false⟩ : Node).isSentinel = false := by
        cases v <;> first | rfl | exact absurd rfl hv
      simp [Node.isLeaf, Node.isComment, this]
    simp only [node] at hf ⊢
    rw [renderTree_single _ _ _ _ _ _ _ hleaf, if_neg (by simp), if_pos hf]
    have := rstrip_withComment (ind e) (b := §"- " ++ (scalar k vt v c).base) (by simp) hl.2 hl.1
    rw [← this, ← hvt, show (e : Int) + 1 - 1 = e by omega, tabs_ind]
    simp [base, trail, pyStr, under]
  | .block k c cs, e, P, _, h, hl, hf => by
    obtain ⟨hne, hsingle, hcs⟩ := h
    have := rstrip_withComment (ind e) (b := §"- " ++ (block k c cs).base) (by simp) hl.2 hl.1
    have hit := block_single hsingle hcs k c
    by_cases hs : (block k c cs).node.isSingleKey = true
    · obtain ⟨vt, v, c', rfl⟩ := hit.1 hs
      obtain ⟨hi, _, _, _, hv, hvt⟩ := hcs.1
      rw [← stringify_text] at hvt
      have hleaf := (node_isLeaf hcs.1).2 (Or.inr ⟨vt, v, c', rfl⟩)
      simp only [node, nodes] at hf hleaf ⊢
      rw [renderTree_single _ _ _ _ _ _ _ hleaf, if_pos rfl, if_pos hf, show (e : Int) + 1 - 1 = e by omega, tabs_ind, tabs_ind']
      have h2 := rstrip_withComment (ind (e + 2)) hi.clean.1 hi.clean.2 hi.plain.trimmed
      simp only [under, linesL, head, List.append_nil]
      rw [← this, ← h2, ← hvt, ind_succ]
      simp [base, trail, pyStr]
    · have hs' : (block k c cs).node.isSingleKey = false := by simpa using hs
      simp only [node] at hf hs' ⊢
      have hmany := renderTree_many (e + 1) P (.str k) c (nodes cs) .no true hs'
      have h1 : ((e + 1 : Nat) : Int) = (e : Int) + 1 := by omega
      rw [h1] at hmany
      rw [hmany, if_pos hf, if_pos hf, tabs_ind', ind_succ_drop]
      have hch := render_children E cs (e + 1) ⟨.str k, c, nodes cs, false, .no, true⟩ hcs
        (fun d hd => by simp [isFirstOf, Node.isCollectionElement])
      rw [h1] at hch
      rw [hch, ← this]
      simp [base, trail, pyStr, under]
  | .comment _, _, _, h, _, _, _ => by cases h
  | .empty _ _, _, _, h, _, _, _ => by cases h
  | .multi _ _ _ _, _, _, h, _, _, _ => by cases h
  | .item _ _ _, _, _, h, _, _, _ => by cases h
  | .elem _ _, _, _, h, _, _, _ => by cases h
theorem render_children (E : Env) : ∀ (ds : List Doc) (e : Nat) (P : Node), OkL E ds → (∀ d ∈ ds, isFirstOf P d.node = false) →
    renderChildren (e : Int) ((e : Int) + 1) P (nodes ds) = linesL (e + 1) ds
  | [], _, _, _, _ => rfl
  | d :: ds, e, P, h, hf => by
    rw [nodes, renderChildren_cons, if_neg (by omega), List.append_nil, linesL]
    have h1 : ((e + 1 : Nat) : Int) = (e : Int) + 1 := by omega
    have hc := render_child E d (e + 1) P h.1 (hf d (by simp))
    rw [h1, show (e : Int) + 1 - 1 = e by omega] at hc
    rw [hc, render_children E ds e P h.2 (fun d hd => hf d (by simp [hd]))]
    simp [lines]
end

/-- The rendered lines of the tree of a document. -/
theorem render_documentLines (E : Env) : ∀ ds : List Doc, OkL E ds → ∀ P : Node, P.isCollectionElement = false →
    renderChildren (-1) 0 P (nodes ds) = documentLines ds := by
  intro ds
  induction ds with
  | nil => intro _ _ _; rfl
  | cons d ds ih =>
    intro h P hP
    rw [nodes, renderChildren_cons, documentLines, ih h.2 P hP]
    have hc := render_child E d 0 P h.1 (by simp [isFirstOf, hP])
    rw [show ((0 : Nat) : Int) - 1 = -1 by omega] at hc
    rw [show ((0 : Nat) : Int) = 0 by rfl] at hc
    rw [hc, node_isComment h.1]
    cases d.isComment <;> simp

theorem render_document (E : Env) (ds : List Doc) (h : OkL E ds) : renderTree (-1) none (Doc.root ds) = documentLines ds := by
  unfold Doc.root
  have h1 : ∀ cs, (⟨.str §"/", [], cs, false, .no, false⟩ : Node).isSingleKey = false := fun cs => by
    cases cs with
    | nil => rfl
    | cons a cs => cases cs <;> rfl
  rw [renderTree_not_single _ _ _ _ _ _ _ _ (h1 _)]
  simp only [show decide ((-1 : Int) > -1) = false by decide, Bool.false_and, Bool.false_eq_true, if_false, List.nil_append]
  rw [show (-1 : Int) + 1 = 0 by omega]
  exact render_documentLines E ds h _ (by simp [Node.isCollectionElement])

end Crm
