import Verif.Lemmas.DocEdit

/-! # Values read from a tree that shows a document -/

namespace Crm
open Spec Doc

/-- `n` shows the document whose tree is `n'`. -/
inductive Rel (E : Env) : Node → Node → Prop
  | same (n : Node) : Rel E n n
  | scalar (k : Str) (v : PyVal) (c c' : Str) : v ≠ .sentinel →
      Rel E { value := .str k, comment := c', key := true, children := [{ value := v, comment := c }] }
        { value := .str k, comment := c, key := true, children := [{ value := v, comment := c }] }
  | sec (v : PyVal) (c : Str) (key : Bool) (cs : List Doc) (ns : List Node) : OkL E cs → ShowsL cs ns → v ≠ .sentinel →
      (key = true → ∀ d, cs = [d] → d.isEmpty = false) →
      Rel E { value := v, comment := c, key := key, children := ns } { value := v, comment := c, key := key, children := nodes cs }
  | elem (c c' : Str) (first : Doc) (rest : List Doc) (m : Node) (ns : List Node) : Shows first m → ShowsL rest ns →
      first.canLead = true → Lead E first → (∀ d ∈ rest, d.keyOf ≠ first.keyOf) → OkL E rest →
      Rel E { comment := c', listMember := true, children := m :: ns }
        { comment := c, listMember := true, children := first.node :: nodes rest }

theorem rel_lead {E : Env} {d : Doc} {n : Node} (hc : d.canLead = true) (hl : Lead E d) (h : Shows d n) : Rel E n d.node := by
  cases d with
  | scalar k vt v c => obtain ⟨c', rfl⟩ := h; exact .scalar k v c c' hl.2.1
  | block k c cs => obtain ⟨ns, rfl, hns⟩ := h; exact .sec (.str k) c true cs ns hl.2.2 hns (by simp) (fun _ => hl.2.1)
  | _ => cases hc

theorem rel_shows {E : Env} {d : Doc} {n : Node} (ho : d.Ok E) (h : Shows d n) : Rel E n d.node := by
  cases d with
  | scalar k vt v c =>
    obtain ⟨c', rfl⟩ := h
    obtain ⟨_, _, _, _, hv, _⟩ := ho
    exact .scalar k v c c' hv
  | block k c cs =>
    obtain ⟨ns, rfl, hns⟩ := h
    obtain ⟨_, _, _, _, h1, h2⟩ := ho
    exact .sec (.str k) c true cs ns h2 hns (by simp) (fun _ => h1)
  | elem first rest =>
    obtain ⟨c', m, ns, rfl, hm, hns⟩ := h
    obtain ⟨_, _, _, h1, h2, h3, h4⟩ := ho
    exact .elem _ c' first rest m ns hm hns h1 h2 h3 h4
  | _ => obtain rfl := h; exact .same _

/-- What a path looks at. -/
def sig (n : Node) : PyVal × Bool × Bool := (n.value, real n, n.listMember)

theorem childIdx_congr {n n' : Node} (h : n.children.map sig = n'.children.map sig) (part : Str) : childIdx n part = childIdx n' part := by
  have hlen : n.children.length = n'.children.length := by simpa using congrArg List.length h
  unfold childIdx
  split
  · rw [hlen]
    congr 1
    funext p
    have hp : (n.children.map sig)[p]? = (n'.children.map sig)[p]? := by rw [h]
    have ht : ∀ (l : List Node), (l.take p).countP real = ((l.map sig).take p).countP (·.2.1) := by
      intro l
      rw [← List.map_take, List.countP_map]
      rfl
    rw [ht, ht, h]
    simp only [List.getElem?_map] at hp
    cases h1 : n.children[p]? with
    | none =>
      cases h2 : n'.children[p]? with
      | none => rfl
      | some b => rw [h1, h2] at hp; cases hp
    | some a =>
      cases h2 : n'.children[p]? with
      | none => rw [h1, h2] at hp; cases hp
      | some b =>
        rw [h1, h2] at hp
        simp only [Option.map_some, Option.some.injEq, sig, Prod.mk.injEq] at hp
        simp only [hp.2.1, hp.2.2]
  · have : ∀ l : List Node, l.findIdx? (fun c => decide (c.value = .str part)) =
        (l.map sig).findIdx? (fun c => decide (c.1 = .str part)) := by
      intro l
      rw [List.findIdx?_map]
      rfl
    rw [this, this, h]

theorem sig_shows {d : Doc} {n : Node} (h : Shows d n) : sig n = sig d.node := by
  obtain ⟨h1, _, h3, _, _, h6, _⟩ := shows_same h
  simp [sig, real, h1, h3, h6]

theorem sig_showsL : ∀ {ds : List Doc} {ns : List Node}, ShowsL ds ns → ns.map sig = (nodes ds).map sig := by
  intro ds
  induction ds with
  | nil => intro ns h; obtain rfl := h; rfl
  | cons d ds ih =>
    rintro ns ⟨m, ms, rfl, hm, hms⟩
    simp only [nodes, List.map_cons, sig_shows hm, ih hms]

theorem rel_children {E : Env} {n n' : Node} (h : Rel E n n') : n.children.map sig = n'.children.map sig := by
  cases h with
  | same => rfl
  | scalar => rfl
  | sec v c key cs ns ho hs => exact sig_showsL hs
  | elem c c' first rest m ns hm hns => simp only [List.map_cons, sig_shows hm, sig_showsL hns]

theorem rel_getL {E : Env} : ∀ {ds : List Doc} {ns : List Node}, ShowsL ds ns → OkL E ds → ∀ i : Nat,
    match ns[i]?, (nodes ds)[i]? with
    | some a, some b => Rel E a b
    | none, none => True
    | _, _ => False := by
  intro ds
  induction ds with
  | nil => intro ns h _ i; obtain rfl := h; simp [nodes]
  | cons d ds ih =>
    rintro ns ⟨m, ms, rfl, hm, hms⟩ ho i
    cases i with
    | zero => simpa [nodes] using rel_shows ho.1 hm
    | succ i => simpa [nodes] using ih hms ho.2 i

theorem rel_get {E : Env} {n n' : Node} (h : Rel E n n') (i : Nat) :
    match n.children[i]?, n'.children[i]? with
    | some a, some b => Rel E a b
    | none, none => True
    | _, _ => False := by
  cases h with
  | same => split <;> simp_all <;> exact .same _
  | scalar => dsimp only; split <;> simp_all <;> exact .same _
  | sec v c key cs ns ho hs => exact rel_getL hs ho i
  | elem c c' first rest m ns hm hns h1 h2 h3 h4 =>
    cases i with
    | zero => exact rel_lead h1 h2 hm
    | succ i => exact rel_getL hns h4 i

/-- Paths lead to the same places. -/
theorem rel_locate {E : Env} : ∀ (path : List Str) {n n' : Node}, Rel E n n' →
    locate n path = locate n' path ∧ ∀ pos, locate n path = some pos →
      ∃ m m', nodeAt n pos = some m ∧ nodeAt n' pos = some m' ∧ Rel E m m' := by
  intro path
  induction path with
  | nil =>
    intro n n' h
    refine ⟨rfl, fun pos hp => ?_⟩
    simp only [locate, Option.some.injEq] at hp
    subst hp
    exact ⟨n, n', rfl, rfl, h⟩
  | cons part rest ih =>
    intro n n' h
    have hi := childIdx_congr (rel_children h) part
    cases hc : childIdx n part with
    | none =>
      have h1 : locate n (part :: rest) = none := by simp only [locate, hc]
      have h2 : locate n' (part :: rest) = none := by simp only [locate, ← hi, hc]
      exact ⟨by rw [h1, h2], fun _ hp => by rw [h1] at hp; cases hp⟩
    | some i =>
      have hg := rel_get h i
      cases h1 : n.children[i]? with
      | none =>
        cases h2 : n'.children[i]? with
        | none =>
          have h3 : locate n (part :: rest) = none := by simp only [locate, hc, h1]
          have h4 : locate n' (part :: rest) = none := by simp only [locate, ← hi, hc, h2]
          exact ⟨by rw [h3, h4], fun _ hp => by rw [h3] at hp; cases hp⟩
        | some b => rw [h1, h2] at hg; exact absurd hg id
      | some a =>
        cases h2 : n'.children[i]? with
        | none => rw [h1, h2] at hg; exact absurd hg id
        | some b =>
          rw [h1, h2] at hg
          obtain ⟨e1, e2⟩ := ih hg
          have h3 : locate n (part :: rest) = (locate a rest).map (i :: ·) := by simp only [locate, hc, h1]
          have h4 : locate n' (part :: rest) = (locate b rest).map (i :: ·) := by simp only [locate, ← hi, hc, h2]
          refine ⟨by rw [h3, h4, e1], fun pos hp => ?_⟩
          rw [h3] at hp
          cases hl : locate a rest with
          | none => rw [hl] at hp; cases hp
          | some q =>
            rw [hl] at hp
            simp only [Option.map_some, Option.some.injEq] at hp
            subst hp
            obtain ⟨m, m', g1, g2, g3⟩ := e2 q hl
            exact ⟨m, m', by simp only [nodeAt, h1, g1], by simp only [nodeAt, h2, g2], g3⟩

theorem sec_not_single {v : PyVal} {c : Str} {ns : List Node} : (⟨v, c, ns, false, .no, false⟩ : Node).isSingleKey = false := by
  cases ns with
  | nil => rfl
  | cons a l => cases l <;> rfl

theorem shows_documentLines' (E : Env) : ∀ (ds : List Doc) (ns : List Node), ShowsL ds ns → OkL E ds → ∀ P : Node,
    (∀ d ∈ ds, ∀ m, Shows d m → isFirstOf P m = false) → renderChildren (-1) 0 P ns = documentLines ds := by
  intro ds
  induction ds with
  | nil => intro ns hn _ _ _; obtain rfl := hn; rfl
  | cons d ds ih =>
    intro ns hn h P hP
    obtain ⟨m, ms, rfl, hm, hms⟩ := hn
    rw [renderChildren_cons, documentLines, ih ms hms h.2 P (fun d hd => hP d (by simp [hd]))]
    have hc := shows_child E d m 0 P hm h.1 (hP d (by simp) m hm)
    rw [show ((0 : Nat) : Int) - 1 = -1 by omega] at hc
    rw [show ((0 : Nat) : Int) = 0 by rfl] at hc
    rw [hc, (shows_same hm).2.2.2.2.2.1, node_isComment h.1]
    cases d.isComment <;> simp

/-- The first entry of a list element that is rendered on its own. -/
theorem first_lines {E : Env} {first : Doc} {m m' P P' : Node} (hm : Shows first m) (hm' : Shows first m') (hc : first.canLead = true)
    (hl : Lead E first) (hf : isFirstOf P m = true) (hf' : isFirstOf P' m' = true) :
    childLines (-1) 0 P m = childLines (-1) 0 P' m' := by
  simp only [childLines]
  cases first with
  | scalar k vt v c =>
    obtain ⟨c1, rfl⟩ := hm
    obtain ⟨c2, rfl⟩ := hm'
    have hleaf : (⟨v, c, [], false, .no, false⟩ : Node).isLeaf = true := by
      have : (⟨v, c, [], false, .no, false⟩ : Node).isSentinel = false := by
        cases v <;> first | rfl | exact absurd rfl hl.2.1
      simp [Node.isLeaf, Node.isComment, this]
    rw [if_neg (by simp [Node.isComment, Node.isSentinel]), if_neg (by simp [Node.isEmptyKey, Node.isLeaf]),
      if_neg (by simp [Node.isLeaf]), if_neg (by simp [Node.isComment, Node.isSentinel]),
      if_neg (by simp [Node.isEmptyKey, Node.isLeaf]), if_neg (by simp [Node.isLeaf])]
    rw [renderTree_single _ _ _ _ _ _ _ hleaf, renderTree_single _ _ _ _ _ _ _ hleaf, if_neg (by simp),
      if_pos hf, if_neg (by simp), if_pos hf']
  | block k c cs =>
    obtain ⟨ns, rfl, hns⟩ := hm
    obtain ⟨ns', rfl, hns'⟩ := hm'
    obtain ⟨hne, hsingle, hcs⟩ := hl
    have hnn : ∀ l, ShowsL cs l → l ≠ [] := by
      intro l h
      cases cs with
      | nil => exact absurd rfl hne
      | cons d ds => obtain ⟨m, ms, rfl, _⟩ := h; simp
    rw [if_neg (by simp [Node.isComment, Node.isSentinel]), if_neg (by simp [Node.isEmptyKey, Node.isLeaf, hnn ns hns]),
      if_neg (by simp [Node.isLeaf, hnn ns hns]), if_neg (by simp [Node.isComment, Node.isSentinel]),
      if_neg (by simp [Node.isEmptyKey, Node.isLeaf, hnn ns' hns']), if_neg (by simp [Node.isLeaf, hnn ns' hns'])]
    have hit := shows_block_single hsingle hcs hns k c
    have hit' := shows_block_single hsingle hcs hns' k c
    by_cases hs : (⟨.str k, c, ns, false, .no, true⟩ : Node).isSingleKey = true
    · obtain ⟨vt, v, c', rfl⟩ := hit.1 hs
      obtain ⟨m, ms, rfl, rfl, rfl⟩ := hns
      obtain ⟨m', ms', rfl, rfl, rfl⟩ := hns'
      have hleaf := (node_isLeaf hcs.1).2 (Or.inr ⟨vt, v, c', rfl⟩)
      rw [renderTree_single _ _ _ _ _ _ _ hleaf, renderTree_single _ _ _ _ _ _ _ hleaf, if_pos (by rfl), if_pos hf, if_pos (by rfl),
        if_pos hf']
    · have hs1 : (⟨.str k, c, ns, false, .no, true⟩ : Node).isSingleKey = false := by simpa using hs
      have hs2 : (⟨.str k, c, ns', false, .no, true⟩ : Node).isSingleKey = false := by
        cases h : (⟨.str k, c, ns', false, .no, true⟩ : Node).isSingleKey with
        | false => rfl
        | true => rw [hit.2 (hit'.1 h)] at hs1; cases hs1
      have e1 := renderTree_many 0 P (.str k) c ns .no true hs1
      have e2 := renderTree_many 0 P' (.str k) c ns' .no true hs2
      rw [show ((0 : Nat) : Int) = 0 by rfl] at e1 e2
      rw [e1, e2, hf, hf']
      have g1 := shows_children E cs ns 0 ⟨.str k, c, ns, false, .no, true⟩ hns hcs
        (fun d hd => by simp [isFirstOf, Node.isCollectionElement])
      have g2 := shows_children E cs ns' 0 ⟨.str k, c, ns', false, .no, true⟩ hns' hcs
        (fun d hd => by simp [isFirstOf, Node.isCollectionElement])
      rw [show ((0 : Nat) : Int) = 0 by rfl] at g1 g2
      rw [g1, g2]
  | _ => cases hc

/-- A list element that is rendered on its own. -/
theorem elem_lines {E : Env} {first : Doc} {rest : List Doc} {m : Node} {ns : List Node} (c c' : Str) (hm : Shows first m)
    (hns : ShowsL rest ns) (hc : first.canLead = true) (hl : Lead E first) (hk : ∀ d ∈ rest, d.keyOf ≠ first.keyOf) (ho : OkL E rest) :
    renderTree (-1) none { comment := c', listMember := true, children := m :: ns } =
      renderTree (-1) none { comment := c, listMember := true, children := first.node :: nodes rest } := by
  have hsk : ∀ (c : Str) (a : Node) (as : List Node), (⟨.sentinel, c, a :: as, true, .no, false⟩ : Node).isSingleKey = false := by
    intro c a as; cases as <;> rfl
  have hfirst : ∀ (c : Str) (a : Node) (as : List Node), isFirstOf ⟨.sentinel, c, a :: as, true, .no, false⟩ a = true := by
    intro c a as; simp [isFirstOf, Node.isCollectionElement, Node.isSentinel, Node.pyEq_refl]
  have hrest : ∀ (c : Str) (a : Node) (as : List Node), Shows first a → ShowsL rest as →
      renderChildren (-1) 0 ⟨.sentinel, c, a :: as, true, .no, false⟩ as = documentLines rest := by
    intro c a as h1 h2
    apply shows_documentLines' E rest as h2 ho
    intro d hd x hx
    have := shows_not_first hc hl ((okL_iff rest).1 ho d hd) (hk d hd) h1 hx
    simp [isFirstOf, this]
  have hcm : m.isComment = first.node.isComment := (shows_same hm).2.2.2.2.2.1
  rw [renderTree_not_single _ _ _ _ _ _ _ _ (hsk _ _ _), renderTree_not_single _ _ _ _ _ _ _ _ (hsk _ _ _)]
  simp only [show decide ((-1 : Int) > -1) = false by decide, Bool.false_and, Bool.false_eq_true, if_false, List.nil_append]
  rw [show (-1 : Int) + 1 = 0 by omega, renderChildren_cons, renderChildren_cons, hrest _ _ _ hm hns,
    hrest _ _ _ (shows_node first) (shows_nodes rest), hcm,
    first_lines hm (shows_node first) hc hl (hfirst _ _ _) (hfirst _ _ _)]

/-- What reading a value looks at. -/
theorem rel_facts {E : Env} {n n' : Node} (h : Rel E n n') :
    n.value = n'.value ∧ n.isLeaf = n'.isLeaf ∧ (n.isSingleKey && !n.isRoot) = (n'.isSingleKey && !n'.isRoot) ∧
      ((n.isSingleKey && !n.isRoot) = true → n.children = n'.children) ∧
      ((n.isSingleKey && !n.isRoot) = false → n.isLeaf = false → renderTree (-1) none n = renderTree (-1) none n') ∧
      (match n.children with | [c] => c.listMember | _ => false) = (match n'.children with | [c] => c.listMember | _ => false) := by
  cases h with
  | same => exact ⟨rfl, rfl, rfl, fun _ => rfl, fun _ _ => rfl, rfl⟩
  | scalar k v c c' hv =>
    refine ⟨rfl, rfl, rfl, fun _ => rfl, ?_, rfl⟩
    intro _ _
    have hleaf : (⟨v, c, [], false, .no, false⟩ : Node).isLeaf = true := by
      have : (⟨v, c, [], false, .no, false⟩ : Node).isSentinel = false := by
        cases v <;> first | rfl | exact absurd rfl hv
      simp [Node.isLeaf, Node.isComment, this]
    have hsk : ∀ c', (⟨.str k, c', [⟨v, c, [], false, .no, false⟩], false, .no, true⟩ : Node).isSingleKey = true := by
      intro c'; simp [Node.isSingleKey, hleaf]
    rw [renderTree, renderTree, if_pos (hsk c'), if_pos (hsk c)]
    simp
  | sec v c key cs ns ho hs hv hkey =>
    have hlen : ns = [] ↔ nodes cs = [] := by
      cases cs with
      | nil => obtain rfl := hs; simp [nodes]
      | cons d ds => obtain ⟨x, xs, rfl, _⟩ := hs; simp [nodes]
    have hleaf : (⟨v, c, ns, false, .no, key⟩ : Node).isLeaf = (⟨v, c, nodes cs, false, .no, key⟩ : Node).isLeaf := by
      cases cs with
      | nil => obtain rfl := hs; rfl
      | cons d ds => obtain ⟨x, xs, rfl, _⟩ := hs; rfl
    have hlm : (match ns with | [c] => c.listMember | _ => false) = (match nodes cs with | [c] => c.listMember | _ => false) := by
      match cs, hs with
      | [], hs => obtain rfl := hs; rfl
      | [d], ⟨x, xs, h1, h2, h3⟩ => obtain rfl := h3; subst h1; exact (shows_same h2).2.2.1
      | d :: d' :: ds, ⟨x, xs, h1, h2, y, ys, h3, _⟩ => subst h3; subst h1; rfl
    have hsingle : (⟨v, c, ns, false, .no, key⟩ : Node).isSingleKey = (⟨v, c, nodes cs, false, .no, key⟩ : Node).isSingleKey ∧
        ((⟨v, c, ns, false, .no, key⟩ : Node).isSingleKey = true → ns = nodes cs) := by
      cases key with
      | false => rw [sec_not_single, sec_not_single]; exact ⟨rfl, fun h => by cases h⟩
      | true =>
        have h1 : (⟨v, c, ns, false, .no, true⟩ : Node).isSingleKey = true ↔ ∃ vt v c', cs = [.item vt v c'] :=
          shows_block_single (hkey rfl) ho hs [] c
        have h2 : (⟨v, c, nodes cs, false, .no, true⟩ : Node).isSingleKey = true ↔ ∃ vt v c', cs = [.item vt v c'] :=
          shows_block_single (hkey rfl) ho (shows_nodes cs) [] c
        refine ⟨Bool.eq_iff_iff.2 (h1.trans h2.symm), fun h => ?_⟩
        obtain ⟨vt, w, c', rfl⟩ := h1.1 h
        obtain ⟨m, ms, rfl, rfl, rfl⟩ := hs
        rfl
    refine ⟨rfl, hleaf, ?_, ?_, ?_, hlm⟩
    · rw [hsingle.1]; rfl
    · intro h
      exact hsingle.2 (by simp only [Bool.and_eq_true] at h; exact h.1)
    · intro h1 h2
      by_cases hsk : (⟨v, c, ns, false, .no, key⟩ : Node).isSingleKey = true
      · rw [hsingle.2 hsk]
      · have hs1 : (⟨v, c, ns, false, .no, key⟩ : Node).isSingleKey = false := by simpa using hsk
        have hs2 := hs1
        rw [hsingle.1] at hs2
        rw [renderTree_not_single _ _ _ _ _ _ _ _ hs1, renderTree_not_single _ _ _ _ _ _ _ _ hs2]
        simp only [show decide ((-1 : Int) > -1) = false by decide, Bool.false_and, Bool.false_eq_true, if_false, List.nil_append]
        rw [show (-1 : Int) + 1 = 0 by omega,
          shows_documentLines E cs ns hs ho _ (by simp [Node.isCollectionElement]),
          shows_documentLines E cs (nodes cs) (shows_nodes cs) ho _ (by simp [Node.isCollectionElement])]
  | elem c c' first rest m ns hm hns hc hl hk ho =>
    have hsk : ∀ (c : Str) (a : Node) (as : List Node), (⟨.sentinel, c, a :: as, true, .no, false⟩ : Node).isSingleKey = false := by
      intro c a as; cases as <;> rfl
    refine ⟨rfl, rfl, by rw [hsk, hsk]; rfl, fun h => (by rw [hsk] at h; cases h), fun _ _ => elem_lines c c' hm hns hc hl hk ho, ?_⟩
    cases rest with
    | nil =>
      obtain rfl := hns
      exact (shows_same hm).2.2.1
    | cons d ds => obtain ⟨x, xs, rfl, _⟩ := hns; rfl

/-- Reading a value. -/
theorem rel_value {E : Env} {n n' : Node} (h : Rel E n n') (path : Str) (default : Option PyVal) (ctx : Option JinjaCtx) :
    getValueIn E n path default ctx = getValueIn E n' path default ctx := by
  unfold getValueIn
  cases hst : strToStack path with
  | error e => rfl
  | ok stack =>
    simp only [bind, Except.bind]
    have key : ∀ stack, traverse n stack = traverse n' stack ∧ ∀ pos, traverse n stack = some pos →
        ∃ m m', nodeAt n pos = some m ∧ nodeAt n' pos = some m' ∧ Rel E m m' := by
      intro stack
      match stack with
      | [] => exact ⟨rfl, fun _ hp => by cases hp⟩
      | [p] =>
        refine ⟨rfl, fun pos hp => ?_⟩
        simp only [traverse] at hp
        split at hp
        · injection hp with hp; subst hp; exact ⟨n, n', rfl, rfl, h⟩
        · cases hp
      | p :: q :: rest =>
        have e := rel_locate (q :: rest) h
        simp only [traverse, traverseRec_locate]
        exact e
    obtain ⟨k1, k2⟩ := key stack
    rw [← k1]
    cases ht : traverse n stack with
    | none => rfl
    | some pos =>
      obtain ⟨m, m', g1, g2, g3⟩ := k2 pos ht
      obtain ⟨f1, f2, f3, f4, f5, f6⟩ := rel_facts g3
      have hlen : m.children.length = m'.children.length := by
        simpa using congrArg List.length (rel_children g3)
      simp only [Option.bind_some, g1, g2, ← f3, ← f2, ← f1]
      by_cases hs : (m.isSingleKey && !m.isRoot) = true
      · simp only [hs, if_true, ← f4 hs]
      · have hs' : (m.isSingleKey && !m.isRoot) = false := by simpa using hs
        have hr : m.isLeaf = false → renderTree (-1) none m = renderTree (-1) none m' := f5 hs'
        simp only [hs', Bool.false_eq_true, if_false]
        match hc : m.children, hc' : m'.children with
        | [], [] => cases hl : m.isLeaf <;> simp [hl, hr]
        | [a], [b] =>
          rw [hc, hc'] at f6
          simp only at f6
          cases hl : m.isLeaf <;> simp [hl, hr, f6]
        | a :: a' :: as, b :: b' :: bs => cases hl : m.isLeaf <;> simp [hl, hr]
        | [], b :: bs => rw [hc, hc'] at hlen; simp at hlen
        | a :: as, [] => rw [hc, hc'] at hlen; simp at hlen
        | [a], b :: b' :: bs => rw [hc, hc'] at hlen; simp at hlen
        | a :: a' :: as, [b] => rw [hc, hc'] at hlen; simp at hlen

end Crm
