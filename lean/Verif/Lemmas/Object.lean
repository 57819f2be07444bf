import Verif.Model.Object
import Verif.Spec.Object
import Verif.Lemmas.Dict
import Verif.Lemmas.DocVars

/-! # Rendering a document as an object -/

namespace Crm
open Spec Spec.Doc

theorem lookupD_end {α : Type} (k : Str) (x : α) : ∀ (pre : List (Str × α)), k ∉ pre.map (·.1) → lookupD k (pre ++ [(k, x)]) = some x
  | [], _ => by simp [lookupD]
  | (l, w) :: es, h => by
    simp only [List.map_cons, List.mem_cons, not_or] at h
    simp [lookupD, Ne.symm h.1, lookupD_end k x es h.2]

theorem insertD_end {α : Type} (k : Str) (x y : α) : ∀ (pre : List (Str × α)), k ∉ pre.map (·.1) →
    insertD k y (pre ++ [(k, x)]) = pre ++ [(k, y)]
  | [], _ => by simp [insertD]
  | (l, w) :: es, h => by
    simp only [List.map_cons, List.mem_cons, not_or] at h
    simp [insertD, Ne.symm h.1, insertD_end k x y es h.2]

theorem getItem_end {k : Str} {x : PyVal} {pre : List (Str × PyVal)} (h : k ∉ pre.map (·.1)) :
    getItem (.dict (pre ++ [(k, x)])) k = .ok x := by simp [getItem, lookupD_end k x pre h]

theorem setItem_end {k : Str} {x y : PyVal} {pre : List (Str × PyVal)} (h : k ∉ pre.map (·.1)) :
    setItem (.dict (pre ++ [(k, x)])) k y = .ok (.dict (pre ++ [(k, y)])) := by simp [setItem, insertD_end k x y pre h]

theorem setItem_new {k : Str} {y : PyVal} {pre : List (Str × PyVal)} (h : k ∉ pre.map (·.1)) :
    setItem (.dict pre) k y = .ok (.dict (pre ++ [(k, y)])) := by simp [setItem, insertD_new k y pre h]

theorem setDefault_end {k : Str} {x : PyVal} {pre : List (Str × PyVal)} (h : k ∉ pre.map (·.1)) :
    setDefault (.dict (pre ++ [(k, x)])) k = .ok (.dict (pre ++ [(k, x)])) := by simp [setDefault, lookupD_end k x pre h]

theorem setDefault_new {k : Str} {pre : List (Str × PyVal)} (h : k ∉ pre.map (·.1)) :
    setDefault (.dict pre) k = .ok (.dict (pre ++ [(k, .dict [])])) := by
  simp [setDefault, (lookupD_none k pre).2 h, insertD_new k _ pre h]

theorem hasItem_end {k : Str} {x : PyVal} {pre : List (Str × PyVal)} (h : k ∉ pre.map (·.1)) :
    hasItem (.dict (pre ++ [(k, x)])) k = .ok true := by simp [hasItem, lookupD_end k x pre h]

theorem hasItem_new {k : Str} {pre : List (Str × PyVal)} (h : k ∉ pre.map (·.1)) :
    hasItem (.dict pre) k = .ok false := by simp [hasItem, (lookupD_none k pre).2 h]

/-- What becomes of a text. -/
def evText (E : Env) (ctx : Option JinjaCtx) (s : Str) : Except PyErr PyVal :=
  match ctx with
  | none => .ok (.str s)
  | some c => renderJinjaVars E c s

/-- How a block of lines is read. -/
def ldText (E : Env) (ctx : Option JinjaCtx) (s : Str) : Except PyErr PyVal :=
  match ctx with
  | none => E.load s
  | some c => renderJinjaVars E c s

theorem objectValue_plain (E : Env) (ctx : Option JinjaCtx) (n : Node) (h : n.multiline = .no) :
    objectValue E ctx n = shown (evText E ctx) n.value := by
  unfold objectValue
  rw [h]
  simp only [normalizeMultiline, if_true]
  cases n.value <;> cases ctx <;> simp [shown, evText]

theorem joinStr_tabs (ls : List Str) (l : Str) :
    tabStr ++ joinStr (§"\n" ++ tabStr) (l :: ls) = joinStr §"\n" ((l :: ls).map fun x => §"  " ++ x) := by
  induction ls generalizing l with
  | nil => simp [joinStr, tabStr]
  | cons a as ih =>
    have := ih a
    simp only [joinStr, List.map_cons] at this ⊢
    rw [← this]
    simp [tabStr, List.append_assoc]

theorem objectValue_lines (E : Env) (ctx : Option JinjaCtx) {m : Multiline} {body : List Str} (hm : m ≠ .no) (hb : body ≠ []) :
    objectValue E ctx { value := .list (body.map .str), multiline := m } = ldText E ctx (blockText m body) := by
  have ht : normalizeMultiline (.list (body.map .str)) m = .str (blockText m body) := by
    simp only [normalizeMultiline, if_neg hm, blockText]
    have hl : linesOf (.list (body.map .str)) = body := by
      simp only [linesOf, List.map_map]
      conv => rhs; rw [← List.map_id body]
      apply List.map_congr_left
      intro a _; rfl
    rw [hl]
    cases body with
    | nil => exact absurd rfl hb
    | cons l ls => 
      rw [List.append_assoc, joinStr_tabs]
      rfl
  unfold objectValue
  simp only [ht]
  cases ctx <;> simp [ldText, hm]

/-! ## One child -/

section
variable {E : Env} {ctx : Option JinjaCtx} {k : Str} {pre : List (Str × PyVal)} {x : PyVal} {child : Node} {rest : List Node}

theorem step_skip {key data : PyVal} (h : child.isComment = true) :
    objectChildren E ctx key data (child :: rest) = objectChildren E ctx key data rest := by
  rw [objectChildren, if_pos h]

theorem step_deep {data w : PyVal} (hk : k ∉ pre.map (·.1)) (h1 : child.isComment = false) (h2 : child.isEmptyKey = false)
    (h3 : child.isCollectionElement = false) (h4 : child.listMember = false) (h5 : child.isLeaf = false)
    (hv : objectValue E ctx child = .ok w) (hd : setDefault data k = .ok (.dict (pre ++ [(k, x)]))) :
    objectChildren E ctx (.str k) data (child :: rest) =
      (objectTree E ctx x child).bind fun y => objectChildren E ctx (.str k) (.dict (pre ++ [(k, y)])) rest := by
  rw [objectChildren, if_neg (by simp [h1])]
  simp only [hv, asKey, bind, Except.bind, h2, h3, h4, h5, Bool.false_eq_true, if_false, hd, getItem_end hk]
  cases objectTree E ctx x child with
  | error e => rfl
  | ok y => simp only [setItem_end hk]

theorem step_empty {c : Str} {ck : Str} {w : PyVal} {acc : List (Str × PyVal)} (hk : k ∉ pre.map (·.1)) (hck : ck ∉ acc.map (·.1))
    (hv : shown (evText E ctx) (.str ck) = .ok w) :
    objectChildren E ctx (.str k) (.dict (pre ++ [(k, .dict acc)])) ({ value := .str ck, comment := c, key := true } :: rest) =
      objectChildren E ctx (.str k) (.dict (pre ++ [(k, .dict (acc ++ [(ck, .none)]))])) rest := by
  rw [objectChildren, if_neg (by simp [Node.isComment, Node.isSentinel]), objectValue_plain _ _ _ rfl, hv]
  simp only [asKey, bind, Except.bind, getItem_end hk]
  rw [if_pos (by rfl)]
  simp only [setItem_new hck, setItem_end hk]

theorem step_leaf {data : PyVal} {kvs : List (Str × PyVal)} (h1 : child.isComment = false) (h2 : child.isEmptyKey = false)
    (h3 : child.isCollectionElement = false) (h4 : child.listMember = false) (h5 : child.isLeaf = true)
    (hs : ∀ v, setItem data k v = .ok (.dict (kvs ++ [(k, v)]))) :
    objectChildren E ctx (.str k) data [child] =
      (objectValue E ctx child).map fun v => .dict (kvs ++ [(k, v)]) := by
  rw [objectChildren, if_neg (by simp [h1])]
  cases objectValue E ctx child with
  | error e => rfl
  | ok v =>
    simp only [asKey, bind, Except.bind, h2, h3, h4, h5, Bool.false_eq_true, if_false, if_true, hs v]
    rfl

theorem step_item_new (hk : k ∉ pre.map (·.1)) (h1 : child.isComment = false) (h2 : child.isEmptyKey = false)
    (h3 : child.isCollectionElement = false) (h4 : child.listMember = true) :
    objectChildren E ctx (.str k) (.dict pre) (child :: rest) =
      (objectValue E ctx child).bind fun v => objectChildren E ctx (.str k) (.dict (pre ++ [(k, .list [v])])) rest := by
  rw [objectChildren, if_neg (by simp [h1])]
  cases objectValue E ctx child with
  | error e => rfl
  | ok v =>
    simp only [asKey, bind, Except.bind, h2, h3, h4, Bool.false_eq_true, if_false, if_true, hasItem_new hk, setItem_new hk,
      getItem_end hk, appendItem, setItem_end hk, List.nil_append]

theorem step_item {acc : List PyVal} (hk : k ∉ pre.map (·.1)) (h1 : child.isComment = false) (h2 : child.isEmptyKey = false)
    (h3 : child.isCollectionElement = false) (h4 : child.listMember = true) :
    objectChildren E ctx (.str k) (.dict (pre ++ [(k, .list acc)])) (child :: rest) =
      (objectValue E ctx child).bind fun v => objectChildren E ctx (.str k) (.dict (pre ++ [(k, .list (acc ++ [v]))])) rest := by
  rw [objectChildren, if_neg (by simp [h1])]
  cases objectValue E ctx child with
  | error e => rfl
  | ok v =>
    simp only [asKey, bind, Except.bind, h2, h3, h4, Bool.false_eq_true, if_false, if_true, hasItem_end hk,
      getItem_end hk, appendItem, setItem_end hk]

/-- A list element, where a list stands or a mapping that is still empty. -/
theorem step_elem {acc : List PyVal} (hk : k ∉ pre.map (·.1)) (hx : x = .list acc ∨ (x = .dict [] ∧ acc = [])) (h0 : child.value = .sentinel)
    (h1 : child.isComment = false) (h2 : child.isEmptyKey = false) (h3 : child.isCollectionElement = true) (h4 : child.multiline = .no) :
    objectChildren E ctx (.str k) (.dict (pre ++ [(k, x)])) (child :: rest) =
      (objectElements E ctx (.dict []) child).bind fun v =>
        objectChildren E ctx (.str k) (.dict (pre ++ [(k, .list (acc ++ [v]))])) rest := by
  rw [objectChildren, if_neg (by simp [h1]), objectValue_plain _ _ _ h4, h0]
  simp only [shown, asKey, bind, Except.bind, h2, h3, Bool.false_eq_true, if_false, if_true, getItem_end hk]
  cases objectElements E ctx (.dict []) child with
  | error e => rfl
  | ok v =>
    rcases hx with rfl | ⟨rfl, rfl⟩
    · simp only [Recipe.pyLen]
      by_cases ha : acc.length = 0
      · rw [if_pos ha]
        have ha : acc = [] := List.eq_nil_of_length_eq_zero ha
        subst ha
        simp only [setItem_end hk, getItem_end hk, appendItem]
      · rw [if_neg ha]
        simp only [setItem_end hk, getItem_end hk, appendItem]
    · simp only [Recipe.pyLen, List.length_nil, if_true, setItem_end hk, getItem_end hk, appendItem]
end

/-! ## Nodes of entries -/

theorem isComment_key {v c : Str} {cs : List Node} {l : Bool} {m : Multiline} {key : Bool} : (⟨.str v, c, cs, l, m, key⟩ : Node).isComment = false := by
  simp [Node.isComment, Node.isSentinel]

theorem isSentinel_value {v : PyVal} (h : isValue v = true) (c : Str) (cs : List Node) (l : Bool) (m : Multiline) (key : Bool) :
    (⟨v, c, cs, l, m, key⟩ : Node).isSentinel = false := by
  cases v <;> first | rfl | cases h

theorem objectTree_key (E : Env) (ctx : Option JinjaCtx) (data : PyVal) (k c : Str) (cs : List Node) :
    objectTree E ctx data { value := .str k, comment := c, key := true, children := cs } = objectChildren E ctx (.str k) data cs := by
  rw [objectTree, if_neg (by simp [isComment_key])]

theorem Spec.Doc.nodes_ne_nil {cs : List Doc} (h : cs ≠ []) : nodes cs ≠ [] := by
  cases cs with
  | nil => exact absurd rfl h
  | cons d ds => simp [nodes]

theorem valueList_ne {cs : List Doc} (h : valueList cs = true) : cs ≠ [] := by
  rintro rfl; simp [valueList] at h

theorem leads_ne {cs : List Doc} (h : leads cs = true) : cs ≠ [] := by
  rintro rfl; simp [leads] at h

/-- An entry with a key and something in it. -/
theorem below_node {d : Doc} (h : d.Below = true) (he : d.isEmpty = false) (hc : d.isComment = false) :
    ∃ k, d.keyOf = some k ∧ k ∈ d.allKeys ∧ d.node.value = .str k ∧ d.node.isComment = false ∧ d.node.isEmptyKey = false ∧
      d.node.isCollectionElement = false ∧ d.node.listMember = false ∧ d.node.isLeaf = false ∧ d.node.multiline = .no := by
  cases d with
  | comment t => cases hc
  | empty k c => cases he
  | scalar k vt v c =>
    exact ⟨k, rfl, by simp [allKeys], rfl, by simp [node, isComment_key], by simp [node, Node.isEmptyKey, Node.isLeaf],
      by simp [node, Node.isCollectionElement, Node.isSentinel], rfl, by simp [node, Node.isLeaf], rfl⟩
  | multi k m c body =>
    exact ⟨k, rfl, by simp [allKeys], rfl, by simp [node, isComment_key], by simp [node, Node.isEmptyKey, Node.isLeaf],
      by simp [node, Node.isCollectionElement, Node.isSentinel], rfl, by simp [node, Node.isLeaf], rfl⟩
  | block k c cs =>
    have hne : cs ≠ [] := by
      simp only [Below, Bool.or_eq_true, Bool.and_eq_true] at h
      rcases h with h | h
      · exact valueList_ne h
      · exact leads_ne h.1.1
    have := nodes_ne_nil hne
    exact ⟨k, rfl, by simp [allKeys], rfl, by simp [node, isComment_key], by simp [node, Node.isEmptyKey, Node.isLeaf, this],
      by simp [node, Node.isCollectionElement, Node.isSentinel], rfl, by simp [node, Node.isLeaf, this], rfl⟩
  | item vt v c => cases h
  | elem f r => cases h

theorem comment_node {d : Doc} (h : d.Below = true) (hc : d.isComment = true) : d.node.isComment = true ∧ d.keyOf = none := by
  cases d with
  | comment t => 
    have h : t ≠ [] := by simpa [Below] using h
    exact ⟨by simp [node, Node.isComment, Node.isSentinel, h], rfl⟩
  | _ => cases hc

/-- Where the key is not there yet, a mapping is begun by its first entry. -/
theorem loop_begin {E : Env} {ctx : Option JinjaCtx} {k : Str} {pre : List (Str × PyVal)} (hk : k ∉ pre.map (·.1)) :
    ∀ (cs : List Doc), leads cs = true → BelowL cs = true → (∀ key ∈ allKeysL cs, ∃ w, evText E ctx key = .ok w) →
      objectChildren E ctx (.str k) (.dict pre) (nodes cs) = objectChildren E ctx (.str k) (.dict (pre ++ [(k, .dict [])])) (nodes cs)
  | [], h, _, _ => by cases h
  | d :: ds, h, hb, hv => by
    simp only [BelowL, Bool.and_eq_true] at hb
    simp only [allKeysL, List.mem_append] at hv
    cases hc : d.isComment with
    | true =>
      have hn := (comment_node hb.1 hc).1
      rw [leads, if_pos hc] at h
      rw [nodes, step_skip hn, step_skip hn]
      exact loop_begin hk ds h hb.2 fun key hm => hv key (.inr hm)
    | false =>
      rw [leads, if_neg (by simp [hc])] at h
      obtain ⟨k', _, hmem, hval, h1, h2, h3, h4, h5, h6⟩ := below_node hb.1 (by simpa using h) hc
      obtain ⟨w, hw⟩ := hv k' (.inl hmem)
      have hov : objectValue E ctx d.node = .ok w := by rw [objectValue_plain _ _ _ h6, hval]; exact hw
      rw [nodes, step_deep hk h1 h2 h3 h4 h5 hov (setDefault_new hk), step_deep hk h1 h2 h3 h4 h5 hov (setDefault_end hk)]

theorem items_loop {E : Env} {ctx : Option JinjaCtx} {k : Str} {pre : List (Str × PyVal)} (hk : k ∉ pre.map (·.1)) :
    ∀ (cs : List Doc) (acc : List PyVal), (cs.all fun d => match d with
        | .item _ v _ => isValue v
        | .comment t => !t.isEmpty
        | _ => false) = true →
      objectChildren E ctx (.str k) (.dict (pre ++ [(k, .list acc)])) (nodes cs) =
        (elements (evText E ctx) (ldText E ctx) cs).map fun vs => .dict (pre ++ [(k, .list (acc ++ vs))])
  | [], acc, _ => by simp [nodes, objectChildren, elements, Except.map]
  | d :: ds, acc, h => by
    rw [List.all_cons, Bool.and_eq_true] at h
    cases d with
    | comment t =>
      have ht : t ≠ [] := by simpa using h.1
      rw [nodes, step_skip (by simp [node, Node.isComment, Node.isSentinel, ht]), items_loop hk ds acc h.2, elements, if_pos (show isComment (.comment t) = true from rfl)]
    | item vt v c =>
      have hs := isSentinel_value (v := v) h.1 c [] true .no false
      rw [nodes, step_item hk (by simp [node, Node.isComment, hs]) (by simp [node, Node.isEmptyKey])
        (by simp [node, Node.isCollectionElement]) rfl, objectValue_plain _ _ _ rfl, elements, if_neg (by simp [isComment])]
      simp only [node, data]
      cases shown (evText E ctx) v with
      | error e => rfl
      | ok w =>
        simp only [Except.bind, bind]
        rw [items_loop hk ds _ h.2]
        cases elements (evText E ctx) (ldText E ctx) ds with
        | error e => rfl
        | ok vs => simp [Except.map]
    | _ => cases h.1

theorem items_begin {E : Env} {ctx : Option JinjaCtx} {k : Str} {pre : List (Str × PyVal)} (hk : k ∉ pre.map (·.1)) :
    ∀ (cs : List Doc), valueList cs = true →
      objectChildren E ctx (.str k) (.dict pre) (nodes cs) =
        (elements (evText E ctx) (ldText E ctx) cs).map fun vs => .dict (pre ++ [(k, .list vs)])
  | [], h => by cases h
  | d :: ds, h => by
    unfold valueList at h
    rw [Bool.and_eq_true, List.all_cons, Bool.and_eq_true] at h
    cases d with
    | comment t =>
      have ht : t ≠ [] := by simpa using h.2.1
      rw [nodes, step_skip (by simp [node, Node.isComment, Node.isSentinel, ht]), elements, if_pos (show isComment (.comment t) = true from rfl)]
      apply items_begin hk ds
      unfold valueList
      rw [Bool.and_eq_true]
      refine ⟨?_, h.2.2⟩
      simpa [isItem] using h.1
    | item vt v c =>
      have hs := isSentinel_value (v := v) h.2.1 c [] true .no false
      rw [nodes, step_item_new hk (by simp [node, Node.isComment, hs]) (by simp [node, Node.isEmptyKey])
        (by simp [node, Node.isCollectionElement]) rfl, objectValue_plain _ _ _ rfl, elements, if_neg (by simp [isComment])]
      simp only [node, data]
      cases shown (evText E ctx) v with
      | error e => rfl
      | ok w =>
        simp only [Except.bind, bind]
        rw [items_loop hk ds _ h.2.2]
        cases elements (evText E ctx) (ldText E ctx) ds with
        | error e => rfl
        | ok vs => simp [Except.map]
    | _ => cases h.2.1

theorem leads_not_comments : ∀ {cs : List Doc}, leads cs = true → cs.all isComment = false
  | [], h => by cases h
  | d :: ds, h => by
    cases hc : d.isComment with
    | true =>
      rw [leads, if_pos hc] at h
      simpa [hc] using leads_not_comments h
    | false => simp [hc]

theorem below_no_list : ∀ {cs : List Doc}, BelowL cs = true → (cs.any fun d => d.isItem || d.isElem) = false
  | [], _ => rfl
  | d :: ds, h => by
    simp only [BelowL, Bool.and_eq_true] at h
    rw [List.any_cons, below_no_list h.2]
    cases d <;> first | rfl | cases h.1

theorem valueList_list {cs : List Doc} (h : valueList cs = true) :
    cs.all isComment = false ∧ (cs.any fun d => d.isItem || d.isElem) = true := by
  simp only [valueList, Bool.and_eq_true] at h
  obtain ⟨d, hd, hi⟩ := List.any_eq_true.1 h.1
  constructor
  · rw [List.all_eq_false]
    refine ⟨d, hd, ?_⟩
    cases d <;> simp_all [isItem, isComment]
  · rw [List.any_eq_true]
    exact ⟨d, hd, by simp [hi]⟩

mutual
/-- An entry below a key. -/
theorem tree_below (E : Env) (ctx : Option JinjaCtx) : ∀ (d : Doc) (k : Str) (kvs : List (Str × PyVal)) (start : PyVal),
    d.Below = true → d.isEmpty = false → d.keyOf = some k → k ∉ kvs.map (·.1) → (∀ key ∈ d.allKeys, ∃ w, evText E ctx key = .ok w) →
    start = .dict kvs →
    objectTree E ctx start d.node = (data (evText E ctx) (ldText E ctx) d).map fun v => .dict (kvs ++ [(k, v)])
  | .comment t, _, _, _, _, _, hk, _, _, _ => by cases hk
  | .empty _ _, _, _, _, _, he, _, _, _, _ => by cases he
  | .scalar k vt v c, _, kvs, _, hb, _, hk, hn, _, rfl => by
    injection hk with hk
    subst hk
    have hs := isSentinel_value (v := v) hb c [] false .no false
    rw [node, objectTree_key, step_leaf (by simp [Node.isComment, hs]) (by simp [Node.isEmptyKey])
      (by simp [Node.isCollectionElement]) rfl (by simp [Node.isLeaf, Node.isComment, hs]) (fun v => setItem_new hn),
      objectValue_plain _ _ _ rfl, data]
  | .multi k m c body, _, kvs, _, hb, _, hk, hn, _, rfl => by
    injection hk with hk
    subst hk
    simp only [Below, Bool.and_eq_true, decide_eq_true_eq, Bool.not_eq_true', List.isEmpty_eq_false_iff] at hb
    rw [node, objectTree_key, step_leaf (by simp [Node.isComment, Node.isSentinel]) (by simp [Node.isEmptyKey])
      (by simp [Node.isCollectionElement]) rfl (by simp [Node.isLeaf, Node.isComment, Node.isSentinel]) (fun v => setItem_new hn),
      objectValue_lines E ctx hb.1 hb.2, data]
  | .block k c cs, _, kvs, _, hb, _, hk, hn, hv, rfl => by
    injection hk with hk
    subst hk
    rw [node, objectTree_key, data]
    simp only [allKeys, List.mem_cons] at hv
    simp only [Below, Bool.or_eq_true, Bool.and_eq_true, decide_eq_true_eq] at hb
    rcases hb with hb | hb
    · obtain ⟨h1, h2⟩ := valueList_list hb
      rw [items_begin hn cs hb, if_neg (by simp [h1]), if_pos h2]
      cases elements (evText E ctx) (ldText E ctx) cs <;> rfl
    · rw [if_neg (by simp [leads_not_comments hb.1.1]), if_neg (by simp [below_no_list hb.2]),
        loop_begin hn cs hb.1.1 hb.2 (fun key hm => hv key (.inr hm)),
        loop_below E ctx cs k kvs [] hb.2 hn (by simpa using hb.1.2) (fun key hm => hv key (.inr hm))]
      cases entries (evText E ctx) (ldText E ctx) cs <;> rfl
  | .item _ _ _, _, _, _, _, _, hk, _, _, _ => by cases hk
  | .elem _ _, _, _, _, _, _, hk, _, _, _ => by cases hk
/-- The entries of a mapping. -/
theorem loop_below (E : Env) (ctx : Option JinjaCtx) : ∀ (cs : List Doc) (k : Str) (pre acc : List (Str × PyVal)),
    BelowL cs = true → k ∉ pre.map (·.1) → (acc.map (·.1) ++ keys cs).Nodup → (∀ key ∈ allKeysL cs, ∃ w, evText E ctx key = .ok w) →
    objectChildren E ctx (.str k) (.dict (pre ++ [(k, .dict acc)])) (nodes cs) =
      (entries (evText E ctx) (ldText E ctx) cs).map fun es => .dict (pre ++ [(k, .dict (acc ++ es))])
  | [], k, pre, acc, _, _, _, _ => by simp [nodes, objectChildren, entries, Except.map]
  | d :: ds, k, pre, acc, hb, hk, hn, hv => by
    simp only [BelowL, Bool.and_eq_true] at hb
    simp only [allKeysL, List.mem_append] at hv
    have ihs := loop_below E ctx ds k pre
    have iht := tree_below E ctx d
    cases hc : d.isComment with
    | true =>
      obtain ⟨h1, h2⟩ := comment_node hb.1 hc
      simp only [keys, List.filterMap_cons, h2] at hn
      rw [nodes, step_skip h1, ihs acc hb.2 hk hn (fun key hm => hv key (.inr hm)), entries, h2]
    | false =>
      cases he : d.isEmpty with
      | true =>
        cases d with
        | empty ck c =>
          simp only [keys, List.filterMap_cons, keyOf] at hn
          obtain ⟨w, hw⟩ := hv ck (.inl (by simp [allKeys]))
          have hck : ck ∉ acc.map (·.1) := by
            intro hm
            rw [List.nodup_append] at hn
            exact hn.2.2 ck hm ck (by simp) rfl
          rw [nodes, node, step_empty hk hck hw, ihs _ hb.2 hk (by simpa [keys, List.append_assoc] using hn)
            (fun key hm => hv key (.inr hm)), entries]
          simp only [keyOf, data, bind, Except.bind]
          cases entries (evText E ctx) (ldText E ctx) ds with
          | error e => rfl
          | ok es => simp [Except.map]
        | _ => cases he
      | false =>
        obtain ⟨k', hkey, hmem, hval, h1, h2, h3, h4, h5, h6⟩ := below_node hb.1 he hc
        simp only [keys, List.filterMap_cons, hkey] at hn
        obtain ⟨w, hw⟩ := hv k' (.inl hmem)
        have hov : objectValue E ctx d.node = .ok w := by rw [objectValue_plain _ _ _ h6, hval]; exact hw
        have hck : k' ∉ acc.map (·.1) := by
          intro hm
          rw [List.nodup_append] at hn
          exact hn.2.2 k' hm k' (by simp) rfl
        rw [nodes, step_deep hk h1 h2 h3 h4 h5 hov (setDefault_end hk),
          iht k' acc _ hb.1 he hkey hck (fun key hm => hv key (.inl hm)) rfl, entries, hkey]
        simp only [bind]
        cases data (evText E ctx) (ldText E ctx) d with
        | error e => rfl
        | ok v =>
          simp only [Except.map, Except.bind]
          rw [ihs _ hb.2 hk (by simpa [keys, List.append_assoc] using hn) (fun key hm => hv key (.inr hm))]
          cases entries (evText E ctx) (ldText E ctx) ds with
          | error e => rfl
          | ok es => simp [Except.map]
end

/-- The entries of a list element. -/
theorem each_below (E : Env) (ctx : Option JinjaCtx) : ∀ (cs : List Doc) (acc : List (Str × PyVal)),
    (cs.all fun d => d.Below && !d.isEmpty) = true → (acc.map (·.1) ++ keys cs).Nodup →
    (∀ key ∈ allKeysL cs, ∃ w, evText E ctx key = .ok w) →
    objectEach E ctx (.dict acc) (nodes cs) = (entries (evText E ctx) (ldText E ctx) cs).map fun es => .dict (acc ++ es)
  | [], acc, _, _, _ => by simp [nodes, objectEach, entries, Except.map]
  | d :: ds, acc, hb, hn, hv => by
    simp only [List.all_cons, Bool.and_eq_true, Bool.not_eq_true'] at hb
    simp only [allKeysL, List.mem_append] at hv
    rw [nodes, objectEach]
    cases hc : d.isComment with
    | true =>
      obtain ⟨h1, h2⟩ := comment_node hb.1.1 hc
      simp only [keys, List.filterMap_cons, h2] at hn
      have ht : objectTree E ctx (.dict acc) d.node = .ok (.dict acc) := by
        cases hd : d.node with
        | mk v c cs l m k => rw [objectTree, if_pos (by rw [← hd]; exact h1)]
      rw [ht]
      simp only [bind, Except.bind]
      rw [each_below E ctx ds acc (by simpa using hb.2) hn (fun key hm => hv key (.inr hm)), entries, h2]
    | false =>
      obtain ⟨k', hkey, hmem, hval, h1, h2, h3, h4, h5, h6⟩ := below_node hb.1.1 hb.1.2 hc
      simp only [keys, List.filterMap_cons, hkey] at hn
      have hck : k' ∉ acc.map (·.1) := by
        intro hm
        rw [List.nodup_append] at hn
        exact hn.2.2 k' hm k' (by simp) rfl
      rw [tree_below E ctx d k' acc _ hb.1.1 hb.1.2 hkey hck (fun key hm => hv key (.inl hm)) rfl, entries, hkey]
      simp only [bind]
      cases data (evText E ctx) (ldText E ctx) d with
      | error e => rfl
      | ok v =>
        simp only [Except.map, Except.bind]
        rw [each_below E ctx ds _ (by simpa using hb.2) (by simpa [keys, List.append_assoc] using hn) (fun key hm => hv key (.inr hm))]
        cases entries (evText E ctx) (ldText E ctx) ds with
        | error e => rfl
        | ok es => simp [Except.map]

/-- A list of mappings. -/
theorem elems_loop {E : Env} {ctx : Option JinjaCtx} {k : Str} {pre : List (Str × PyVal)} (hk : k ∉ pre.map (·.1)) :
    ∀ (cs : List Doc) (x : PyVal) (acc : List PyVal), cs.all Element = true → (x = .list acc ∨ (x = .dict [] ∧ acc = [])) →
      (∀ key ∈ allKeysL cs, ∃ w, evText E ctx key = .ok w) →
      objectChildren E ctx (.str k) (.dict (pre ++ [(k, x)])) (nodes cs) =
        (elements (evText E ctx) (ldText E ctx) cs).map fun vs => .dict (pre ++ [(k, if vs = [] then x else .list (acc ++ vs))])
  | [], x, acc, _, _, _ => by simp [nodes, objectChildren, elements, Except.map]
  | d :: ds, x, acc, h, hx, hv => by
    rw [List.all_cons, Bool.and_eq_true] at h
    simp only [allKeysL, List.mem_append] at hv
    cases d with
    | comment t =>
      have ht : t ≠ [] := by simpa [Element] using h.1
      rw [nodes, step_skip (by simp [node, Node.isComment, Node.isSentinel, ht]),
        elems_loop hk ds x acc h.2 hx (fun key hm => hv key (.inr hm)), elements, if_pos (show isComment (.comment t) = true from rfl)]
    | elem first rest =>
      obtain ⟨h1, h2⟩ := h
      simp only [Element, Bool.and_eq_true, decide_eq_true_eq, Bool.not_eq_true'] at h1
      obtain ⟨⟨hfc, hall⟩, hnd⟩ := h1
      have hall' := hall
      rw [List.all_cons, Bool.and_eq_true, Bool.and_eq_true, Bool.not_eq_true'] at hall'
      obtain ⟨k', hkey, -⟩ := below_node hall'.1.1 hall'.1.2 hfc
      rw [nodes, step_elem hk hx (by rfl) (by simp [node, Node.isComment]) (by simp [node, Node.isEmptyKey])
        (by simp [node, Node.isCollectionElement, Node.isSentinel]) (by rfl), elements, if_neg (by simp [isComment])]
      have he : objectElements E ctx (.dict []) (node (.elem first rest)) =
          data (evText E ctx) (ldText E ctx) (.elem first rest) := by
        have hn : nodes (first :: rest) = first.node :: nodes rest := by rw [nodes]
        rw [node, objectElements, ← hn, each_below E ctx (first :: rest) [] hall (by simpa using hnd)
          (fun key hm => hv key (.inl (by simpa [allKeys, allKeysL] using hm))), entries, hkey, data, hkey]
        simp only [bind]
        cases data (evText E ctx) (ldText E ctx) first with
        | error e => rfl
        | ok v =>
          simp only [Except.bind]
          cases entries (evText E ctx) (ldText E ctx) rest <;> rfl
      rw [he]
      simp only [bind]
      cases data (evText E ctx) (ldText E ctx) (.elem first rest) with
      | error e => rfl
      | ok v =>
        simp only [Except.bind]
        rw [elems_loop hk ds (.list (acc ++ [v])) (acc ++ [v]) h2 (.inl rfl) (fun key hm => hv key (.inr hm))]
        cases elements (evText E ctx) (ldText E ctx) ds with
        | error e => rfl
        | ok vs => by_cases hvs : vs = [] <;> simp [Except.map, hvs]
    | _ => cases h.1

theorem elements_nil {ev ld : Str → Except PyErr PyVal} : ∀ {cs : List Doc}, elements ev ld cs = .ok [] → cs.all isComment = true
  | [], _ => rfl
  | d :: ds, h => by
    rw [elements] at h
    cases hc : d.isComment with
    | true =>
      rw [if_pos hc] at h
      simp [hc, elements_nil h]
    | false =>
      rw [if_neg (by simp [hc])] at h
      cases hd : data ev ld d with
      | error e => rw [hd] at h; cases h
      | ok v =>
        rw [hd] at h
        simp only [bind, Except.bind] at h
        cases he : elements ev ld ds with
        | error e => rw [he] at h; cases h
        | ok vs => rw [he] at h; cases h

theorem elements_list {cs : List Doc} (h : cs.all Element = true) (hc : cs.all isComment = false) :
    (cs.any fun d => d.isItem || d.isElem) = true := by
  obtain ⟨d, hd, hdc⟩ := List.all_eq_false.1 hc
  rw [List.any_eq_true]
  refine ⟨d, hd, ?_⟩
  have := List.all_eq_true.1 h d hd
  cases d <;> simp_all [Element, isComment, isItem, isElem]

/-- An entry at the top level. -/
theorem tree_top (E : Env) (ctx : Option JinjaCtx) (d : Doc) (k : Str) (kvs : List (Str × PyVal)) (ht : d.Top = true) (hkey : d.keyOf = some k)
    (hn : k ∉ kvs.map (·.1)) (hv : ∀ key ∈ d.allKeys, ∃ w, evText E ctx key = .ok w) :
    d.node.isComment = false ∧ d.node.value = .str k ∧ objectTree E ctx (.dict (kvs ++ [(k, .dict [])])) d.node =
      (data (evText E ctx) (ldText E ctx) d).map fun v => .dict (kvs ++ [(k, v)]) := by
  cases d with
  | comment t => cases hkey
  | empty k c => cases ht
  | scalar k' vt v c =>
    injection hkey with hkey
    subst hkey
    have hs := isSentinel_value (v := v) ht c [] false .no false
    refine ⟨by simp [node, isComment_key], rfl, ?_⟩
    rw [node, objectTree_key, step_leaf (by simp [Node.isComment, hs]) (by simp [Node.isEmptyKey])
      (by simp [Node.isCollectionElement]) rfl (by simp [Node.isLeaf, Node.isComment, hs]) (fun v => setItem_end hn),
      objectValue_plain _ _ _ rfl, data]
  | multi k' m c body =>
    injection hkey with hkey
    subst hkey
    refine ⟨by simp [node, isComment_key], rfl, ?_⟩
    simp only [Top, Bool.and_eq_true, decide_eq_true_eq, Bool.not_eq_true', List.isEmpty_eq_false_iff] at ht
    rw [node, objectTree_key, step_leaf (by simp [Node.isComment, Node.isSentinel]) (by simp [Node.isEmptyKey])
      (by simp [Node.isCollectionElement]) rfl (by simp [Node.isLeaf, Node.isComment, Node.isSentinel]) (fun v => setItem_end hn),
      objectValue_lines E ctx ht.1 ht.2, data]
  | block k' c cs =>
    injection hkey with hkey
    subst hkey
    refine ⟨by simp [node, isComment_key], rfl, ?_⟩
    rw [node, objectTree_key, data]
    simp only [allKeys, List.mem_cons] at hv
    simp only [Top, Bool.or_eq_true, Bool.and_eq_true, decide_eq_true_eq, Bool.not_eq_true'] at ht
    rw [if_neg (by simp [ht.1])]
    rcases ht with ⟨hc, hb | hb⟩
    · rw [if_neg (by simp [below_no_list hb.1]),
        loop_below E ctx cs k' kvs [] hb.1 hn (by simpa using hb.2) (fun key hm => hv key (.inr hm))]
      cases entries (evText E ctx) (ldText E ctx) cs <;> rfl
    · rw [if_pos (elements_list hb hc), elems_loop hn cs _ [] hb (.inr ⟨rfl, rfl⟩) (fun key hm => hv key (.inr hm))]
      cases he : elements (evText E ctx) (ldText E ctx) cs with
      | error e => rfl
      | ok vs =>
        have : vs ≠ [] := by
          rintro rfl
          rw [elements_nil he] at hc
          cases hc
        simp [Except.map, this]
  | item vt v c => cases ht
  | elem f r => cases ht

theorem object_top (E : Env) (ctx : Option JinjaCtx) : ∀ (ds : List Doc) (kvs : List (Str × PyVal)), ds.all Top = true →
    (kvs.map (·.1) ++ keys ds).Nodup → (∀ key ∈ allKeysL ds, ∃ w, evText E ctx key = .ok w) →
    objectTop E ctx (.dict kvs) (nodes ds) = (entries (evText E ctx) (ldText E ctx) ds).map fun es => .dict (kvs ++ es)
  | [], kvs, _, _, _ => by simp [nodes, objectTop, entries, Except.map]
  | d :: ds, kvs, ht, hn, hv => by
    rw [List.all_cons, Bool.and_eq_true] at ht
    simp only [allKeysL, List.mem_append] at hv
    rw [nodes, objectTop]
    cases hkey : d.keyOf with
    | none =>
      have hc : d.node.isComment = true := by
        cases d with
        | comment t =>
          have h : t ≠ [] := by simpa [Top] using ht.1
          simp [node, Node.isComment, Node.isSentinel, h]
        | item _ _ _ => cases ht.1
        | elem _ _ => cases ht.1
        | _ => cases hkey
      simp only [keys, List.filterMap_cons, hkey] at hn
      rw [if_pos hc, object_top E ctx ds kvs ht.2 hn (fun key hm => hv key (.inr hm)), entries, hkey]
    | some k =>
      simp only [keys, List.filterMap_cons, hkey] at hn
      have hk : k ∉ kvs.map (·.1) := by
        intro hm
        rw [List.nodup_append] at hn
        exact hn.2.2 k hm k (by simp) rfl
      obtain ⟨h1, h2, h3⟩ := tree_top E ctx d k kvs ht.1 hkey hk (fun key hm => hv key (.inl hm))
      rw [if_neg (by simp [h1]), h2]
      simp only [asKey, bind, Except.bind, setDefault_new hk, h3]
      rw [entries, hkey]
      simp only [bind]
      cases data (evText E ctx) (ldText E ctx) d with
      | error e => rfl
      | ok v =>
        simp only [Except.map, Except.bind]
        rw [object_top E ctx ds _ ht.2 (by simpa [keys, List.append_assoc] using hn) (fun key hm => hv key (.inr hm))]
        cases entries (evText E ctx) (ldText E ctx) ds with
        | error e => rfl
        | ok es => simp [Except.map]

end Crm
