import Verif.Spec.DocComment
import Verif.Lemmas.DocItem
import Verif.Props.SelectorEdit

/-! # Changing the comment on a line: what becomes of the tree -/

namespace Crm
open Spec Doc

theorem modify_mid {α} (f : α → α) (pre : List α) (x : α) (post : List α) :
    (pre ++ x :: post).modify pre.length f = pre ++ f x :: post := by
  induction pre with
  | nil => rfl
  | cons a pre ih => simp [ih]

theorem isSentinel_false {n : Node} (h : n.value ≠ .sentinel) : n.isSentinel = false := by
  unfold Node.isSentinel
  split
  · rename_i hv; exact absurd hv h
  · rfl

theorem recommented_node {c c' : Str} {d d' : Doc} (h : Recommented c c' d d') :
    d.node.comment = c ∧ setLineComment c' d.node = d'.node ∧ real d.node = true ∧ d.isComment = false ∧ d'.isComment = false ∧
      d'.base = d.base ∧ d.trail = c ∧ d'.trail = c' ∧ ∀ level, d'.under level = d.under level := by
  cases h with
  | scalar k vt v hv =>
    refine ⟨rfl, ?_, ?_, rfl, rfl, rfl, rfl, rfl, fun _ => rfl⟩
    · have hs : (scalar k vt v c).node.isSingleKey = true := by
        simp [node, Node.isSingleKey, Node.isLeaf, Node.isComment, isSentinel_false (n := { value := v, comment := c }) hv]
      unfold setLineComment
      rw [if_pos hs]
      rfl
    · simp [real, node, Node.isComment, Node.isSentinel]
  | item vt v hv =>
    refine ⟨rfl, ?_, ?_, rfl, rfl, rfl, rfl, rfl, fun _ => rfl⟩
    · simp [setLineComment, node, Node.isSingleKey]
    · exact (real_item hv).1
  | empty k =>
    refine ⟨rfl, ?_, ?_, rfl, rfl, rfl, rfl, rfl, fun _ => rfl⟩
    · simp [setLineComment, node, Node.isSingleKey]
    · simp [real, node, Node.isComment, Node.isSentinel]
  | block k cs hcs =>
    refine ⟨rfl, ?_, ?_, rfl, rfl, rfl, rfl, rfl, fun _ => rfl⟩
    · have hs : (block k c cs).node.isSingleKey = false := by
        match cs, hcs with
        | [], _ => rfl
        | [d], h =>
          simp only [node, nodes, Node.isSingleKey, Bool.true_and]
          simp [Node.isLeaf, h d rfl]
        | _ :: _ :: _, _ => rfl
      unfold setLineComment
      rw [if_neg (by rw [hs]; simp)]
      rfl
    · simp [real, node, Node.isComment, Node.isSentinel]

/-- The place of the entry in the tree, and the tree after its comment was changed. -/
theorem entry_place {path base c c' : Str} {ds ds' : List Doc} {R : List Doc → List Doc → Prop} {init : List Str} {last : Str}
    (hp : path = absPath (init ++ [last])) (hc : ∀ x ∈ init ++ [last], Component x) (hw : Within R init ds ds')
    (hR : ∀ cs cs', R cs cs' → EntryRecommented last base c c' cs cs') :
    ∃ st pos d d', strToStack path = .ok st ∧ traverse (Doc.root ds) st = some pos ∧ nodeAt (Doc.root ds) pos = some d.node ∧
      Recommented c c' d d' ∧ d.node.comment = c ∧
      ∃ ns', updateAt (setLineComment c') pos (Doc.root ds) = { value := .str §"/", children := ns' } ∧ ShowsL ds' ns' ∧
        (SameLead R init → ns' = nodes ds') := by
  obtain ⟨pos, m, cs, cs', h1, h2, h3, h4, _, _, _, h8, h9⟩ := within_exact hw (Doc.root ds) rfl
  obtain ⟨pre, d, d', post, rfl, rfl, hn, hrec, hb⟩ := hR _ _ h4
  obtain ⟨e1, e2, e3, _⟩ := recommented_node hrec
  rw [nodes_append, nodes] at h3
  have hidx : childIdx m last = some (nodes pre).length := by
    unfold Names at hn
    split at hn
    · rename_i hi
      obtain ⟨⟨vt, v, c, rfl⟩, hcount⟩ := hn
      exact childIdx_number hi h3 ((showsL_count (shows_nodes pre)).trans hcount.symm) e3 rfl
    · rename_i hi
      exact childIdx_key (by simpa using hi) h3 (showsL_fresh (shows_nodes pre) hn.2) (keyOf_node hn.1).1
  have hloc : locate (Doc.root ds) (init ++ [last]) = some (pos ++ [(nodes pre).length]) := by
    rw [locate_concat, h1, Option.bind_some, h2, Option.bind_some, hidx]; rfl
  have hat : nodeAt (Doc.root ds) (pos ++ [(nodes pre).length]) = some d.node := by
    rw [nodeAt_append, h2, Option.bind_some]
    simp [nodeAt, h3]
  have hst : strToStack path = .ok (rootValue :: (init ++ [last])) := by
    rw [hp]; exact strToStack_absPath _ (by simp) hc
  have hch := childrenChanged_updateAt (fun l => l.modify (nodes pre).length (setLineComment c'))
    (fun a b => b = a.modify (nodes pre).length (setLineComment c')) h2 rfl
  have hup : updateAt (setLineComment c') (pos ++ [(nodes pre).length]) (Doc.root ds) =
      updateAt (fun n => { n with children := n.children.modify (nodes pre).length (setLineComment c') }) pos (Doc.root ds) := by
    rw [updateAt_append]; rfl
  refine ⟨_, _, d, d', hst, by rw [traverse_locate]; exact hloc, hat, hrec, e1,
    (updateAt (fun n => { n with children := n.children.modify (nodes pre).length (setLineComment c') }) pos (Doc.root ds)).children, ?_, ?_, ?_⟩
  · rw [hup]
    exact root_changed hch
  · refine h9 _ _ hch ?_
    rintro b rfl
    rw [h3, modify_mid, e2]
    exact showsL_join (shows_nodes pre) (shows_node d') (shows_nodes post)
  · intro hsl
    refine h8 hsl _ _ hch ?_
    rintro b rfl
    rw [h3, modify_mid, e2, nodes_append, nodes]

end Crm
