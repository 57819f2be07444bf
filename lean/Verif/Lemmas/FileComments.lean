import Verif.Spec.FileComments
import Verif.Props.FileDeps

/-! # Visiting the lines of a document -/

namespace Crm
open Spec Spec.Doc

/-! ## Repetitions in a row -/

/-- `m` is `l` with some repetitions in a row left out. -/
inductive Stutter {α : Type} : List α → List α → Prop
  | nil : Stutter [] []
  | cons (x : α) {l m : List α} : Stutter l m → Stutter (x :: l) (x :: m)
  | again (x : α) {l m : List α} : Stutter (x :: l) m → Stutter (x :: x :: l) m

theorem Stutter.refl {α : Type} : ∀ l : List α, Stutter l l
  | [] => .nil
  | x :: l => .cons x (Stutter.refl l)

theorem Stutter.append {α : Type} {l m l' m' : List α} (h : Stutter l m) (h' : Stutter l' m') : Stutter (l ++ l') (m ++ m') := by
  induction h with
  | nil => exact h'
  | cons x _ ih => exact .cons x ih
  | again x _ ih => exact .again x ih

theorem Stutter.filterMap {α β : Type} (f : α → Option β) {l m : List α} (h : Stutter l m) : Stutter (l.filterMap f) (m.filterMap f) := by
  induction h with
  | nil => exact .nil
  | cons x _ ih =>
    simp only [List.filterMap_cons]
    cases f x with
    | none => exact ih
    | some y => exact .cons y ih
  | again x _ ih =>
    simp only [List.filterMap_cons] at ih ⊢
    cases hx : f x with
    | none => simpa only [hx] using ih
    | some y =>
      simp only [hx] at ih
      exact .again y ih

theorem Stutter.mem {α : Type} {l m : List α} (h : Stutter l m) (x : α) : x ∈ l ↔ x ∈ m := by
  induction h with
  | nil => exact Iff.rfl
  | cons y _ ih => simp [ih]
  | again y _ ih => rw [← ih]; simp

theorem Stutter.foldl {α : Type} [DecidableEq α] {l m : List α} (h : Stutter l m) : ∀ acc : List α,
    l.foldl (fun acc x => if x ∈ acc then acc else acc ++ [x]) acc = m.foldl (fun acc x => if x ∈ acc then acc else acc ++ [x]) acc := by
  induction h with
  | nil => intro _; rfl
  | cons x _ ih => intro acc; simp only [List.foldl_cons, ih]
  | again x _ ih =>
    intro acc
    rw [← ih, List.foldl_cons, List.foldl_cons, List.foldl_cons]
    by_cases hx : x ∈ acc
    · simp only [if_pos hx]
    · simp only [if_neg hx]
      rw [if_pos (by simp)]

theorem Stutter.dedupe {α : Type} [DecidableEq α] {l m : List α} (h : Stutter l m) : dedupe l = dedupe m := h.foldl []

theorem Stutter.last {α : Type} {l m : List α} (h : Stutter l m) (q : α → Bool) : l.reverse.find? q = m.reverse.find? q := by
  induction h with
  | nil => rfl
  | cons x _ ih => simp only [List.reverse_cons, List.find?_append, ih]
  | again x _ ih =>
    rw [← ih]
    simp only [List.reverse_cons, List.find?_append, List.find?_cons, List.find?_nil]
    cases (List.find? q _) <;> cases q x <;> rfl

/-! ## The numbers of the entries -/

/-- Numbers of the entries of a list, comment lines not counted. -/
def entryNumbers : Nat → List Doc → List Nat
  | _, [] => []
  | i, d :: ds => (if d.isComment then 0 else i) :: entryNumbers (if d.isComment then i else i + 1) ds

theorem entryNumbers_get {E : Env} : ∀ (ds : List Doc), (∀ d ∈ ds, d.node.isComment = d.isComment) → ∀ (i p : Nat) (hp : p < (nodes ds).length),
    (entryNumbers i ds)[p]? = some (if real (nodes ds)[p] then i + ((nodes ds).take p).countP real else 0)
  | [], _, _, p, hp => by simp [nodes] at hp
  | d :: ds, h, i, 0, hp => by
    have hd := h d (by simp)
    simp only [entryNumbers, nodes, List.getElem?_cons_zero, List.getElem_cons_zero, List.take_zero, List.countP_nil, Nat.add_zero, real, hd]
    cases d.isComment <;> rfl
  | d :: ds, h, i, p + 1, hp => by
    have hd := h d (by simp)
    have hp' : p < (nodes ds).length := by simpa [nodes] using hp
    have ih := entryNumbers_get (E := E) ds (fun x hx => h x (by simp [hx])) (if d.isComment then i else i + 1) p hp'
    simp only [entryNumbers, nodes, List.getElem?_cons_succ, List.getElem_cons_succ, List.take_succ_cons, List.countP_cons]
    rw [ih]
    have hr : real d.node = !d.isComment := by unfold real; rw [hd]
    rw [hr]
    cases d.isComment
    · simp only [Bool.false_eq_true, if_false, Bool.not_false, if_true]
      congr 2
      omega
    · simp

theorem entryNumbers_length (ds : List Doc) : ∀ i, (entryNumbers i ds).length = ds.length := by
  induction ds with
  | nil => intro _; rfl
  | cons d ds ih => intro i; simp [entryNumbers, ih]

theorem nodes_length (ds : List Doc) : (nodes ds).length = ds.length := by rw [nodes_map]; simp

theorem physToVirt_nodes (E : Env) (ds : List Doc) (h : ∀ d ∈ ds, d.node.isComment = d.isComment) :
    physToVirt (nodes ds) = entryNumbers 0 ds := by
  apply List.ext_getElem?
  intro p
  by_cases hp : p < (nodes ds).length
  · rw [physToVirt_getElem? _ p hp, entryNumbers_get (E := E) ds h 0 p hp]
    simp
  · rw [List.getElem?_eq_none (by rw [physToVirt_length]; omega),
      List.getElem?_eq_none (by rw [entryNumbers_length, ← nodes_length]; omega)]

/-! ## The comments that are visited -/

/-- What is seen of a visited node: the place of an ordinary line, and the comment. -/
def seen (np : Node × List Str) : Option (Option (List Str) × Str) :=
  if np.1.comment = [] then none else some (if np.1.isComment then none else some np.2, np.1.comment)

/-- What the file says about a line. -/
def said (e : Option (List Str) × Str) : Option (Option (List Str) × Str) :=
  if e.2 = [] then none else some (e.1.map (rootValue :: ·), e.2)

theorem fine_isComment {E : Env} {d : Doc} (h : Fine E d) : d.node.isComment = d.isComment := by
  rcases h with h | h
  · exact node_isComment h
  · cases d <;> simp only [Doc.Lead] at h <;> rfl

theorem visit_key (P : List Str) (i : Nat) (k c : Str) (cs : List Node) (m : Multiline) :
    visitPath (some P) i ⟨.str k, c, cs, false, m, true⟩ = P ++ [k] := by
  unfold visitPath
  have : ((⟨.str k, c, cs, false, m, true⟩ : Node).isEmptyKey || !(⟨.str k, c, cs, false, m, true⟩ : Node).isLeaf) = true := by
    unfold Node.isEmptyKey
    cases (⟨.str k, c, cs, false, m, true⟩ : Node).isLeaf <;> rfl
  simp only [Bool.false_eq_true, if_false, this, if_true]
  rfl

mutual
theorem visit_comments (E : Env) : ∀ (d : Doc), Fine E d → ∀ (p : List Str) (i : Nat),
    Stutter ((visit (some (rootValue :: p)) i d.node).filterMap seen) ((d.comments p i).filterMap said)
  | comment t, h, p, i => by
    have hc := fine_isComment h
    simp only [node] at hc
    simp only [node, visit, visitL, comments, physToVirt, List.filterMap_cons, List.filterMap_nil, seen, said, hc, Doc.isComment,
      if_true, Option.map_none]
    exact .refl _
  | empty k c, h, p, i => by
    have hc := fine_isComment h
    simp only [node] at hc
    simp only [node, visit, visitL, comments, List.filterMap_cons, List.filterMap_nil, seen, said, hc, Doc.isComment,
      visit_key]
    exact .refl _
  | scalar k vt v c, h, p, i => by
    have hc := fine_isComment h
    have hv : v ≠ .sentinel := by
      rcases h with h | h
      · exact h.2.2.2.2.1
      · exact h.2.1
    have hn : (⟨v, c, [], false, .no, false⟩ : Node).isComment = false := by
      cases v <;> first | rfl | exact absurd rfl hv
    have hl : (⟨v, c, [], false, .no, false⟩ : Node).isLeaf = true := by
      cases v <;> first | rfl | exact absurd rfl hv
    simp only [node] at hc
    have hpv : physToVirt [(⟨v, c, [], false, .no, false⟩ : Node)] = [0] := by
      have h1 := physToVirt_length [(⟨v, c, [], false, .no, false⟩ : Node)]
      have h2 := physToVirt_getElem? [(⟨v, c, [], false, .no, false⟩ : Node)] 0 (by simp)
      match hx : physToVirt [(⟨v, c, [], false, .no, false⟩ : Node)], h1, h2 with
      | [y], _, h2 => simpa using h2
    have hpath : visitPath (some (rootValue :: p ++ [k])) 0 ⟨v, c, [], false, .no, false⟩ = rootValue :: p ++ [k] := by
      unfold visitPath
      simp only [Bool.false_eq_true, if_false, Node.isEmptyKey, hl, Bool.false_and, Bool.not_true, Bool.or_self]
    simp only [node, visit, visitL, comments, List.filterMap_cons, List.filterMap_nil, seen, said, hc, Doc.isComment, hpv,
      visit_key, List.append_nil, hpath, hn, Bool.false_eq_true, if_false, Option.map_some]
    by_cases he : c = []
    · simp only [he, if_true]; exact .nil
    · simp only [if_neg he]
      exact .again _ (.refl _)
  | multi k m c body, h, p, i => by
    have hc := fine_isComment h
    simp only [node] at hc
    have hpv : physToVirt [(⟨.list (body.map .str), [], [], false, m, false⟩ : Node)] = [0] := by
      have h1 := physToVirt_length [(⟨.list (body.map .str), [], [], false, m, false⟩ : Node)]
      have h2 := physToVirt_getElem? [(⟨.list (body.map .str), [], [], false, m, false⟩ : Node)] 0 (by simp)
      match hx : physToVirt [(⟨.list (body.map .str), [], [], false, m, false⟩ : Node)], h1, h2 with
      | [y], _, h2 => simpa using h2
    simp only [node, visit, visitL, comments, List.filterMap_cons, List.filterMap_nil, seen, said, hc, Doc.isComment, hpv,
      visit_key, List.append_nil, Bool.false_eq_true, if_false, Option.map_some, if_true]
    exact .refl _
  | block k c cs, h, p, i => by
    have hc := fine_isComment h
    simp only [node] at hc
    obtain ⟨_, _, hcs⟩ := fine_block h
    have hall := (okL_iff cs).1 hcs
    have ih := visitL_comments E cs (fun x hx => Or.inl (hall x hx)) (p ++ [k]) 0
    simp only [node, visit, comments, List.filterMap_cons, seen, said, hc, Doc.isComment, visit_key,
      Bool.false_eq_true, if_false, Option.map_some]
    rw [physToVirt_nodes E cs fun x hx => node_isComment (hall x hx)]
    by_cases he : c = []
    · simp only [he, if_true]; exact ih
    · simp only [if_neg he]
      exact .cons _ ih
  | item vt v c, h, p, i => by
    have hc := fine_isComment h
    simp only [node] at hc
    simp only [node, visit, visitL, comments, List.filterMap_cons, List.filterMap_nil, seen, said, hc, Doc.isComment, visitPath, if_true]
    exact .refl _
  | elem first rest, h, p, i => by
    have ho := fine_element h rfl
    have hc := fine_isComment h
    simp only [node] at hc
    have h1 : Fine E first := Or.inr ho.2.2.2.2.1
    have hall : ∀ x ∈ first :: rest, Fine E x := by
      intro x hx
      rcases List.mem_cons.1 hx with rfl | hx
      · exact h1
      · exact Or.inl ((okL_iff rest).1 ho.2.2.2.2.2.2 x hx)
    have hfc : first.isComment = false := by
      have := ho.2.2.2.1
      cases first <;> first | rfl | cases this
    have ih1 := visit_comments E first h1 (p ++ [natStr i]) 0
    have ih2 := visitL_comments E rest (fun x hx => hall x (by simp [hx])) (p ++ [natStr i]) 1
    have hn := physToVirt_nodes E (first :: rest) fun x hx => fine_isComment (hall x hx)
    rw [nodes] at hn
    simp only [entryNumbers, hfc, Bool.false_eq_true, if_false, Nat.zero_add] at hn
    replace hc : (⟨.sentinel, first.trail, first.node :: nodes rest, true, .no, false⟩ : Node).isComment = false := hc
    simp only [node, visit, comments, List.filterMap_cons, seen, said, hc, visitPath, if_true,
      Bool.false_eq_true, if_false, Option.map_some, hn, visitL, List.filterMap_append]
    by_cases he : first.trail = []
    · simp only [he, if_true]; exact ih1.append ih2
    · simp only [if_neg he]
      exact .cons _ (ih1.append ih2)
theorem visitL_comments (E : Env) : ∀ (ds : List Doc), (∀ d ∈ ds, Fine E d) → ∀ (p : List Str) (i : Nat),
    Stutter ((visitL (rootValue :: p) (entryNumbers i ds) (nodes ds)).filterMap seen) ((commentsL p i ds).filterMap said)
  | [], _, p, i => by simp only [nodes, entryNumbers, visitL, commentsL]; exact .nil
  | d :: ds, h, p, i => by
    have hd := h d (by simp)
    simp only [nodes, entryNumbers, visitL, commentsL, List.filterMap_append]
    refine Stutter.append ?_ (visitL_comments E ds (fun x hx => h x (by simp [hx])) p _)
    cases hc : d.isComment with
    | false => simpa using visit_comments E d hd p i
    | true =>
      have := visit_comments E d hd p 0
      cases d with
      | comment t => simpa [comments] using this
      | _ => cases hc
end

/-- What is seen in the tree of a document. -/
theorem visitAll_comments {E : Env} {ds : List Doc} (h : OkL E ds) :
    Stutter ((visitAll (root ds)).filterMap seen) ((commentsOf ds).map fun e => (e.1.map (rootValue :: ·), e.2)) := by
  have hall := (okL_iff ds).1 h
  have := visitL_comments E ds (fun x hx => Or.inl (hall x hx)) [] 0
  have he : ∀ l : List (Option (List Str) × Str), l.filterMap said = (l.filter fun e => e.2 ≠ []).map fun e => (e.1.map (rootValue :: ·), e.2) := by
    intro l
    induction l with
    | nil => rfl
    | cons e l ih =>
      rw [List.filterMap_cons, List.filter_cons]
      unfold said
      by_cases hc : e.2 = []
      · rw [if_pos hc, if_neg (by simp [hc])]
        exact ih
      · rw [if_neg hc, if_pos (by simp [hc]), List.map_cons, ← ih]
        rfl
  rw [he] at this
  unfold visitAll root commentsOf
  rw [visit]
  simp only [List.filterMap_cons, seen, if_true, visitPath]
  rw [physToVirt_nodes E ds fun x hx => node_isComment (hall x hx)]
  exact this

/-! ## Comments stay on their line -/

theorem withComment_oneLine {b c : Str} (h : Plain (withComment b c)) : '\n' ∉ c := by
  intro hc
  have := h.oneLine '\n' (by
    unfold withComment
    split
    · rename_i he; rw [he] at hc; cases hc
    · simp [hc])
  exact absurd this (by decide)

mutual
theorem comments_oneLine (E : Env) : ∀ (d : Doc), Fine E d → '\n' ∉ d.trail → ∀ (p : List Str) (i : Nat), ∀ e ∈ d.comments p i, '\n' ∉ e.2
  | comment t, h, _, p, i, e, he => by
    simp only [comments, List.mem_singleton] at he
    subst he
    rcases h with h | h
    · intro hn
      exact absurd (h.1.plain.oneLine '\n' (by simpa [head, base, trail, withComment] using hn)) (by decide)
    · exact absurd h id
  | empty k c, _, ht, p, i, e, he => by simp only [comments, List.mem_singleton] at he; subst he; exact ht
  | scalar k vt v c, _, ht, p, i, e, he => by simp only [comments, List.mem_singleton] at he; subst he; exact ht
  | multi k m c body, _, ht, p, i, e, he => by simp only [comments, List.mem_singleton] at he; subst he; exact ht
  | block k c cs, h, ht, p, i, e, he => by
    rcases List.mem_cons.1 he with rfl | he
    · exact ht
    · exact commentsL_oneLine E cs (fine_block h).2.2 _ _ e he
  | item vt v c, _, ht, p, i, e, he => by simp only [comments, List.mem_singleton] at he; subst he; exact ht
  | elem first rest, h, ht, p, i, e, he => by
    have ho := fine_element h rfl
    rw [comments] at he
    rcases List.mem_cons.1 he with rfl | he
    · exact ht
    · rcases List.mem_append.1 he with he | he
      · exact comments_oneLine E first (Or.inr ho.2.2.2.2.1) ht _ _ e he
      · exact commentsL_oneLine E rest ho.2.2.2.2.2.2 _ _ e he
theorem commentsL_oneLine (E : Env) : ∀ (ds : List Doc), OkL E ds → ∀ (p : List Str) (i : Nat), ∀ e ∈ commentsL p i ds, '\n' ∉ e.2
  | [], _, _, _, _, he => by cases he
  | d :: ds, h, p, i, e, he => by
    rw [commentsL] at he
    rcases List.mem_append.1 he with he | he
    · have hp : Plain d.head := by
        have := h.1
        cases d <;> exact this.1.plain
      exact comments_oneLine E d (Or.inl h.1) (withComment_oneLine hp) p i e he
    · exact commentsL_oneLine E ds h.2 _ _ e he
end

end Crm
