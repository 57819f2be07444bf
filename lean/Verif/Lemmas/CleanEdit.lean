import Verif.Lemmas.DocItem

/-! # Edits that take away no trailing comment: the tree is exactly that of the edited document -/

namespace Crm
open Spec Doc

theorem leads_same (init : List Str) (R : List Doc → List Doc → Prop) : SameLead (Leads init R) init :=
  fun h _ _ hR => hR.2 h

theorem key_comment {d : Doc} {k : Str} (h : d.keyOf = some k) : d.node.comment = d.trail := by
  cases d <;> first | rfl | cases h

theorem cleanEdit_patch {E : Env} {p : PyVal} {ds ds' : List Doc} (h : CleanEdit E p ds ds') (r : Recipe) (hr : r.root = Doc.root ds) :
    r.patch E p = (.ok true, edited r (Doc.root ds')) := by
  have hs' : r.root.children = nodes ds := by rw [hr]; rfl
  have fin : ∀ {F : List Node → List Node → Prop} {pos : Pos} {root' : Node}, r.patch E p = (.ok true, edited r root') →
      ChildrenChanged F pos r.root root' → root'.children = nodes ds' →
      r.patch E p = (.ok true, edited r (Doc.root ds')) := by
    intro F pos root' h1 h2 h3
    rw [hr] at h2
    rw [h1, root_changed h2, h3]
    rfl
  have bare : ∀ {m : Node} {init : List Str}, ds ≠ [] → (init = [] → m = r.root) →
      (init ≠ [] → m.key = true ∨ m.isCollectionElement = true) → bareValue m = false := by
    intro m init hne h5 h6
    by_cases hp : init = []
    · rw [h5 hp]
      cases ds with
      | nil => exact absurd rfl hne
      | cons d ds => simp [bareValue, Node.isLeaf, hs', nodes]
    · exact bare_key (h6 hp)
  cases h with
  | setKey op init k v w hc hk hop hp hv hsc hw =>
    obtain ⟨pos, m, cs, cs', h1, h2, h3, h4, h5, h6, h7, h8, _⟩ := within_exact hw r.root hs'
    have h8 := h8 (leads_same _ _)
    obtain ⟨⟨pre, d, post, rfl, rfl, hd, ht, hf⟩, _⟩ := h4
    rw [nodes_append, nodes] at h3
    obtain ⟨e1, e2, e3, e4⟩ := shows_key hd (shows_node d)
    have e5 := (key_comment hd).trans ht
    have hidx := childIdx_key hk h3 (showsL_fresh (shows_nodes pre) hf) e1
    have hloc : locate r.root (init ++ [k]) = some (pos ++ [(nodes pre).length]) := by
      rw [locate_concat, h1, Option.bind_some, h2, Option.bind_some, hidx]; rfl
    have hat : nodeAt r.root (pos ++ [(nodes pre).length]) = some d.node := by
      rw [nodeAt_append, h2, Option.bind_some]
      simp [nodeAt, h3]
    have : ∃ root', r.patch E p = (.ok true, edited r root') ∧
        ChildrenChanged (Becomes [{ value := w }]) (pos ++ [(nodes pre).length]) r.root root' := by
      rcases hop with rfl | ⟨rfl, hdash⟩
      · have := C12_replace E r p v (init ++ [k]) _ d.node (by simp) hc hp hv hloc hat (Or.inl (by rw [endsInNumber_last, hk]))
        rw [if_neg (by rw [bare_key (Or.inl e2)]; simp), newNodes_scalar hsc.primitive hsc.reads hsc.scalar hsc.notSchema hsc.oneLine] at this
        exact this
      · have := C10_existing E r p v (init ++ [k]) _ d.node (by simp) hc hp hv (by simpa using hdash) hloc hat
          (Or.inl (by rw [endsInNumber_last, hk]))
        rw [if_neg (by rw [bare_key (Or.inl e2)]; simp), newNodes_scalar hsc.primitive hsc.reads hsc.scalar hsc.notSchema hsc.oneLine] at this
        exact this
    obtain ⟨root', g1, g2⟩ := this
    refine fin g1 (changed_concat g2) (h8 _ _ (changed_concat g2) ?_)
    rintro b ⟨x', md', y', cs2, q1, q2, q3, rfl⟩
    rw [h3] at q1
    obtain ⟨rfl, rfl, rfl⟩ := split_eq q1 q2.symm
    obtain rfl := q3
    rw [nodes_append, nodes, e1, e2, e3, e4, e5]
    rfl
  | replaceSection op init k v new hc hk hop hp hv hcol hw =>
    obtain ⟨pos, m, cs, cs', h1, h2, h3, h4, h5, h6, h7, h8, _⟩ := within_exact hw r.root hs'
    have h8 := h8 (leads_same _ _)
    obtain ⟨⟨pre, d, post, rfl, rfl, hd, hf⟩, _⟩ := h4
    rw [nodes_append, nodes] at h3
    obtain ⟨e1, e2, e3, e4⟩ := shows_key hd (shows_node d)
    have e5 := key_comment hd
    have hidx := childIdx_key hk h3 (showsL_fresh (shows_nodes pre) hf) e1
    have hloc : locate r.root (init ++ [k]) = some (pos ++ [(nodes pre).length]) := by
      rw [locate_concat, h1, Option.bind_some, h2, Option.bind_some, hidx]; rfl
    have hat : nodeAt r.root (pos ++ [(nodes pre).length]) = some d.node := by
      rw [nodeAt_append, h2, Option.bind_some]
      simp [nodeAt, h3]
    have := put_existing E r p v hop (by simp) hc hp hv (by simp) hloc hat (Or.inl (by rw [endsInNumber_last, hk]))
    rw [if_neg (by rw [bare_key (Or.inl e2)]; simp),
      newNodes_document E v hcol.notPrimitive new hcol.wellFormed hcol.nonEmpty hcol.noText hcol.written hcol.notSchema] at this
    obtain ⟨root', g1, g2⟩ := this
    refine fin g1 (changed_concat g2) (h8 _ _ (changed_concat g2) ?_)
    rintro b ⟨x', md', y', cs2, q1, q2, q3, rfl⟩
    rw [h3] at q1
    obtain ⟨rfl, rfl, rfl⟩ := split_eq q1 q2.symm
    obtain rfl := q3
    rw [nodes_append, nodes, e1, e2, e3, e4, e5]
    rfl
  | replaceElem op init i v first' rest' hc hi hop hp hv hcol hw =>
    obtain ⟨pos, m, cs, cs', h1, h2, h3, h4, h5, h6, h7, h8, _⟩ := within_exact hw r.root hs'
    have h8 := h8 (leads_same _ _)
    obtain ⟨⟨pre, first, rest, post, rfl, rfl, hcount, htr⟩, _⟩ := h4
    rw [nodes_append, nodes] at h3
    have hidx := childIdx_number hi h3 ((showsL_count (shows_nodes pre)).trans hcount) (by simp [real, Node.isComment, node]) rfl
    have hloc : locate r.root (init ++ [i]) = some (pos ++ [(nodes pre).length]) := by
      rw [locate_concat, h1, Option.bind_some, h2, Option.bind_some, hidx]; rfl
    have hat : nodeAt r.root (pos ++ [(nodes pre).length]) = some (elem first rest).node := by
      rw [nodeAt_append, h2, Option.bind_some]
      simp [nodeAt, h3]
    have := put_existing E r p v (hop.imp id fun h => ⟨h, number_not_dash hi⟩) (by simp) hc hp hv (by simp) hloc hat (Or.inr rfl)
    rw [if_neg (by simp [bareValue, node]),
      newNodes_document E v hcol.notPrimitive (first' :: rest') hcol.wellFormed hcol.nonEmpty hcol.noText hcol.written hcol.notSchema] at this
    obtain ⟨root', g1, g2⟩ := this
    refine fin g1 (changed_concat g2) (h8 _ _ (changed_concat g2) ?_)
    rintro b ⟨x', md', y', cs2, q1, q2, q3, rfl⟩
    rw [h3] at q1
    obtain ⟨rfl, rfl, rfl⟩ := split_eq q1 q2.symm
    obtain rfl := q3
    rw [nodes_append, nodes]
    simp only [node, nodes, htr]
  | replaceItem init i v w hc hi hp hv hsc hw =>
    obtain ⟨pos, m, cs, cs', h1, h2, h3, h4, h5, h6, h7, h8, _⟩ := within_exact hw r.root hs'
    have h8 := h8 (leads_same _ _)
    obtain ⟨⟨pre, vt, ov, c, post, rfl, rfl, hov, hcount⟩, _⟩ := h4
    rw [nodes_append, nodes] at h3
    have hidx := childIdx_number hi h3 ((showsL_count (shows_nodes pre)).trans hcount) (real_item hov).1 rfl
    have hloc : locate r.root (init ++ [i]) = some (pos ++ [(nodes pre).length]) := by
      rw [locate_concat, h1, Option.bind_some, h2, Option.bind_some, hidx]; rfl
    have hat : nodeAt r.root (pos ++ [(nodes pre).length]) = some (item vt ov c).node := by
      rw [nodeAt_append, h2, Option.bind_some]
      simp [nodeAt, h3]
    have := C12_replace_element E r p v init i pos (nodes pre).length _ hc hp hv hi hloc hat (real_item hov).2
    rw [newNodes_scalar hsc.primitive hsc.reads hsc.scalar hsc.notSchema hsc.oneLine] at this
    obtain ⟨root', g1, g2⟩ := this
    refine fin g1 g2 (h8 _ _ g2 ?_)
    rintro b ⟨x', md', y', q1, q2, rfl⟩
    rw [h3] at q1
    obtain ⟨rfl, rfl, rfl⟩ := split_eq q1 q2.symm
    rw [asElement_primitive hsc.primitive]
    simp only [List.append_assoc, List.singleton_append, List.map_cons, List.map_nil, nodes_append, nodes]
    rfl
  | addKey init k v new hc hk hdash hp hv hcol hne hw =>
    obtain ⟨pos, m, cs, cs', h1, h2, h3, h4, h5, h6, h7, h8, h9⟩ := within_exact hw r.root hs'
    have h8 := h8 (leads_same _ _)
    obtain ⟨⟨hf, rfl⟩, _⟩ := h4
    have hnone : childIdx m k = none := by
      simp only [childIdx, hk, Bool.false_eq_true, if_false]
      rw [List.findIdx?_eq_none_iff, h3]
      intro n hn
      simpa using showsL_fresh (shows_nodes cs) hf n hn
    have hloc : locate r.root (init ++ [k]) = none := by
      rw [locate_concat, h1, Option.bind_some, h2, Option.bind_some, hnone]; rfl
    have hbare : bareValue m = false := bare hne h5 h6
    obtain ⟨pos', m', _, _, p1, p2, _, _, _, _, p7, _⟩ := within_place hw r.root (by rw [hs']; exact shows_nodes ds)
    rw [h1] at p1; injection p1 with p1; subst p1
    rw [h2] at p2; injection p2 with p2; subst p2
    have hplace : endsInNumber init = false ∨ m.isCollectionElement = true := by
      cases he : endsInNumber init with
      | false => exact Or.inl rfl
      | true => exact Or.inr (p7 he)
    have := C10_new_key E r p v init k pos m hc hp hv hk hdash hloc h1 h2 hplace hbare
    rw [newNodes_document E _ hcol.notPrimitive [new] hcol.wellFormed hcol.nonEmpty hcol.noText hcol.written hcol.notSchema] at this
    obtain ⟨root', g1, g2⟩ := this
    refine fin g1 g2 (h8 _ _ g2 ?_)
    rintro b rfl
    rw [h3, nodes_append]
  | addItem init i v w hc hi hp hv hsc hw =>
    obtain ⟨pos, m, cs, cs', h1, h2, h3, h4, h5, h6, h7, h8, _⟩ := within_exact hw r.root hs'
    have h8 := h8 (leads_same _ _)
    obtain ⟨⟨pre, vt, ov, c, post, rfl, rfl, hov, hcount⟩, _⟩ := h4
    rw [nodes_append, nodes] at h3
    have hidx := childIdx_number hi h3 ((showsL_count (shows_nodes pre)).trans hcount) (real_item hov).1 rfl
    have hloc : locate r.root (init ++ [i]) = some (pos ++ [(nodes pre).length]) := by
      rw [locate_concat, h1, Option.bind_some, h2, Option.bind_some, hidx]; rfl
    have hat : nodeAt r.root (pos ++ [(nodes pre).length]) = some (item vt ov c).node := by
      rw [nodeAt_append, h2, Option.bind_some]
      simp [nodeAt, h3]
    have := C11_insert E r p v init i pos (nodes pre).length _ hc hp hv hi hloc hat (real_item hov).2
    rw [newNodes_scalar hsc.primitive hsc.reads hsc.scalar hsc.notSchema hsc.oneLine] at this
    obtain ⟨root', g1, g2⟩ := this
    refine fin g1 g2 (h8 _ _ g2 ?_)
    rintro b ⟨x', y', q1, q2, rfl⟩
    rw [h3] at q1
    obtain ⟨rfl, rfl⟩ := List.append_inj q1 q2.symm
    rw [asElement_primitive hsc.primitive]
    simp only [List.append_assoc, List.singleton_append, List.map_cons, List.map_nil, nodes_append, nodes]
    rfl
  | itemToElem init i v first rest hc hi hp hv hcol htr hw =>
    obtain ⟨pos, m, cs, cs', h1, h2, h3, h4, h5, h6, h7, h8, _⟩ := within_exact hw r.root hs'
    have h8 := h8 (leads_same _ _)
    obtain ⟨⟨pre, vt, ov, c, post, rfl, rfl, hov, hcount⟩, _⟩ := h4
    rw [nodes_append, nodes] at h3
    have hidx := childIdx_number hi h3 ((showsL_count (shows_nodes pre)).trans hcount) (real_item hov).1 rfl
    have hloc : locate r.root (init ++ [i]) = some (pos ++ [(nodes pre).length]) := by
      rw [locate_concat, h1, Option.bind_some, h2, Option.bind_some, hidx]; rfl
    have hat : nodeAt r.root (pos ++ [(nodes pre).length]) = some (item vt ov c).node := by
      rw [nodeAt_append, h2, Option.bind_some]
      simp [nodeAt, h3]
    have := C12_replace_element E r p v init i pos (nodes pre).length _ hc hp hv hi hloc hat (real_item hov).2
    rw [newNodes_document E v hcol.notPrimitive _ hcol.wellFormed hcol.nonEmpty hcol.noText hcol.written hcol.notSchema] at this
    obtain ⟨root', g1, g2⟩ := this
    refine fin g1 g2 (h8 _ _ g2 ?_)
    rintro b ⟨x', md', y', q1, q2, rfl⟩
    rw [h3] at q1
    obtain ⟨rfl, rfl, rfl⟩ := split_eq q1 q2.symm
    rw [asElement_collection hcol]
    simp only [List.append_assoc, List.singleton_append, nodes_append, nodes, node, htr]
  | addElem init i v first rest hc hi hp hv hcol htr hw =>
    obtain ⟨pos, m, cs, cs', h1, h2, h3, h4, h5, h6, h7, h8, _⟩ := within_exact hw r.root hs'
    have h8 := h8 (leads_same _ _)
    obtain ⟨⟨pre, vt, ov, c, post, rfl, rfl, hov, hcount⟩, _⟩ := h4
    rw [nodes_append, nodes] at h3
    have hidx := childIdx_number hi h3 ((showsL_count (shows_nodes pre)).trans hcount) (real_item hov).1 rfl
    have hloc : locate r.root (init ++ [i]) = some (pos ++ [(nodes pre).length]) := by
      rw [locate_concat, h1, Option.bind_some, h2, Option.bind_some, hidx]; rfl
    have hat : nodeAt r.root (pos ++ [(nodes pre).length]) = some (item vt ov c).node := by
      rw [nodeAt_append, h2, Option.bind_some]
      simp [nodeAt, h3]
    have := C11_insert E r p v init i pos (nodes pre).length _ hc hp hv hi hloc hat (real_item hov).2
    rw [newNodes_document E v hcol.notPrimitive _ hcol.wellFormed hcol.nonEmpty hcol.noText hcol.written hcol.notSchema] at this
    obtain ⟨root', g1, g2⟩ := this
    refine fin g1 g2 (h8 _ _ g2 ?_)
    rintro b ⟨x', y', q1, q2, rfl⟩
    rw [h3] at q1
    obtain ⟨rfl, rfl⟩ := List.append_inj q1 q2.symm
    rw [asElement_collection hcol]
    simp only [List.append_assoc, List.singleton_append, nodes_append, nodes, node, htr]
  | appendItem init v w hc hp hv hsc hne hw =>
    obtain ⟨pos, m, cs, cs', h1, h2, h3, h4, h5, h6, h7, h8, _⟩ := within_exact hw r.root hs'
    have h8 := h8 (leads_same _ _)
    obtain ⟨rfl, _⟩ := h4
    have hbare : bareValue m = false := bare hne h5 h6
    obtain ⟨pos', m', _, _, p1, p2, _, _, _, _, p7, _⟩ := within_place hw r.root (by rw [hs']; exact shows_nodes ds)
    rw [h1] at p1; injection p1 with p1; subst p1
    rw [h2] at p2; injection p2 with p2; subst p2
    have hplace : endsInNumber init = false ∨ m.isCollectionElement = true := by
      cases he : endsInNumber init with
      | false => exact Or.inl rfl
      | true => exact Or.inr (p7 he)
    have := C11_append E r p v init pos m hc hp hv h1 h2 hplace
    rw [if_neg (by rw [hbare]; simp), newNodes_scalar hsc.primitive hsc.reads hsc.scalar hsc.notSchema hsc.oneLine] at this
    obtain ⟨root', g1, g2⟩ := this
    refine fin g1 g2 (h8 _ _ g2 ?_)
    rintro b rfl
    rw [asElement_primitive hsc.primitive, h3, nodes_append]
    rfl
  | appendElem init v first rest hc hp hv hcol htr hne hw =>
    obtain ⟨pos, m, cs, cs', h1, h2, h3, h4, h5, h6, h7, h8, _⟩ := within_exact hw r.root hs'
    have h8 := h8 (leads_same _ _)
    obtain ⟨rfl, _⟩ := h4
    have hbare : bareValue m = false := bare hne h5 h6
    obtain ⟨pos', m', _, _, p1, p2, _, _, _, _, p7, _⟩ := within_place hw r.root (by rw [hs']; exact shows_nodes ds)
    rw [h1] at p1; injection p1 with p1; subst p1
    rw [h2] at p2; injection p2 with p2; subst p2
    have hplace : endsInNumber init = false ∨ m.isCollectionElement = true := by
      cases he : endsInNumber init with
      | false => exact Or.inl rfl
      | true => exact Or.inr (p7 he)
    have := C11_append E r p v init pos m hc hp hv h1 h2 hplace
    rw [if_neg (by rw [hbare]; simp),
      newNodes_document E v hcol.notPrimitive _ hcol.wellFormed hcol.nonEmpty hcol.noText hcol.written hcol.notSchema] at this
    obtain ⟨root', g1, g2⟩ := this
    refine fin g1 g2 (h8 _ _ g2 ?_)
    rintro b rfl
    rw [asElement_collection hcol, h3, nodes_append, nodes, nodes, node, htr, nodes]
  | removeKey init k hc hk hp hw =>
    obtain ⟨pos, m, cs, cs', h1, h2, h3, h4, h5, h6, h7, h8, _⟩ := within_exact hw r.root hs'
    have h8 := h8 (leads_same _ _)
    obtain ⟨⟨pre, d, post, rfl, rfl, hd, hf⟩, _⟩ := h4
    rw [nodes_append, nodes] at h3
    obtain ⟨e1, e2, e3, e4⟩ := shows_key hd (shows_node d)
    have hidx := childIdx_key hk h3 (showsL_fresh (shows_nodes pre) hf) e1
    have hloc : locate r.root (init ++ [k]) = some (pos ++ [(nodes pre).length]) := by
      rw [locate_concat, h1, Option.bind_some, h2, Option.bind_some, hidx]; rfl
    have hat : nodeAt r.root (pos ++ [(nodes pre).length]) = some d.node := by
      rw [nodeAt_append, h2, Option.bind_some]
      simp [nodeAt, h3]
    have := (C09_remove E r p init k hc hp).2 pos (nodes pre).length _ hloc hat
    rw [if_neg (by rw [bare_key (Or.inl e2)]; simp)] at this
    obtain ⟨root', g1, g2⟩ := this
    refine fin g1 g2 (h8 _ _ g2 ?_)
    rintro b ⟨x', md', y', q1, q2, rfl⟩
    rw [h3] at q1
    obtain ⟨rfl, rfl, rfl⟩ := split_eq q1 q2.symm
    simp [nodes_append]
  | removeItem init i hc hi hp hw =>
    obtain ⟨pos, m, cs, cs', h1, h2, h3, h4, h5, h6, h7, h8, _⟩ := within_exact hw r.root hs'
    have h8 := h8 (leads_same _ _)
    obtain ⟨⟨pre, vt, ov, c, post, rfl, rfl, hov, hcount⟩, _⟩ := h4
    rw [nodes_append, nodes] at h3
    have hidx := childIdx_number hi h3 ((showsL_count (shows_nodes pre)).trans hcount) (real_item hov).1 rfl
    have hloc : locate r.root (init ++ [i]) = some (pos ++ [(nodes pre).length]) := by
      rw [locate_concat, h1, Option.bind_some, h2, Option.bind_some, hidx]; rfl
    have hat : nodeAt r.root (pos ++ [(nodes pre).length]) = some (item vt ov c).node := by
      rw [nodeAt_append, h2, Option.bind_some]
      simp [nodeAt, h3]
    have := (C09_remove E r p init i hc hp).2 pos (nodes pre).length _ hloc hat
    rw [if_neg (by simp [bareValue, node])] at this
    obtain ⟨root', g1, g2⟩ := this
    refine fin g1 g2 (h8 _ _ g2 ?_)
    rintro b ⟨x', md', y', q1, q2, rfl⟩
    rw [h3] at q1
    obtain ⟨rfl, rfl, rfl⟩ := split_eq q1 q2.symm
    simp [nodes_append]
  | removeElem init i hc hi hp hw =>
    obtain ⟨pos, m, cs, cs', h1, h2, h3, h4, h5, h6, h7, h8, _⟩ := within_exact hw r.root hs'
    have h8 := h8 (leads_same _ _)
    obtain ⟨⟨pre, first, rest, post, rfl, rfl, hcount⟩, _⟩ := h4
    rw [nodes_append, nodes] at h3
    have hidx := childIdx_number hi h3 ((showsL_count (shows_nodes pre)).trans hcount) (by simp [real, Node.isComment, node]) rfl
    have hloc : locate r.root (init ++ [i]) = some (pos ++ [(nodes pre).length]) := by
      rw [locate_concat, h1, Option.bind_some, h2, Option.bind_some, hidx]; rfl
    have hat : nodeAt r.root (pos ++ [(nodes pre).length]) = some (elem first rest).node := by
      rw [nodeAt_append, h2, Option.bind_some]
      simp [nodeAt, h3]
    have := (C09_remove E r p init i hc hp).2 pos (nodes pre).length _ hloc hat
    rw [if_neg (by simp [bareValue, node])] at this
    obtain ⟨root', g1, g2⟩ := this
    refine fin g1 g2 (h8 _ _ g2 ?_)
    rintro b ⟨x', md', y', q1, q2, rfl⟩
    rw [h3] at q1
    obtain ⟨rfl, rfl, rfl⟩ := split_eq q1 q2.symm
    simp [nodes_append]

end Crm
