import Verif.Lemmas.DocEdit
import Verif.Props.DocEdit

/-! # Edits of list items: the tree is exactly that of the edited document -/

namespace Crm
open Spec Doc

theorem sec_node (k c : Str) (cs : List Doc) :
    (sec k c cs).node = { value := .str k, comment := c, key := true, children := nodes cs } := by
  unfold sec
  split
  · rename_i h; subst h; rfl
  · rfl

theorem sec_trail (k c : Str) (cs : List Doc) : (sec k c cs).trail = c := by
  unfold sec
  split <;> rfl

theorem endsInNumber_cons (a b : Str) (l : List Str) : endsInNumber (a :: b :: l) = endsInNumber (b :: l) := by
  simp [endsInNumber, List.getLast?_cons_cons]

/-- The first line of a list element keeps its trailing comment. -/
def SameLead (R : List Doc → List Doc → Prop) (path : List Str) : Prop :=
  endsInNumber path = true → ∀ cs cs', R cs cs' → cs.head?.map trail = cs'.head?.map trail

/-- An edit further down changes no trailing comment. -/
theorem within_trail {R : List Doc → List Doc → Prop} {path : List Str} {ds ds' : List Doc} (h : Within R path ds ds')
    (hne : path ≠ []) (hk : SameLead R path) : ds.map trail = ds'.map trail := by
  induction h with
  | here _ => exact absurd rfl hne
  | key _ _ _ _ => simp [sec_trail]
  | @element i first rest first' rest' pre post path hi _ hw ih =>
    cases path with
    | nil =>
      cases hw with
      | here hR =>
        have := hk (by simp [endsInNumber, hi]) _ _ hR
        simp only [List.head?_cons, Option.map_some, Option.some.injEq] at this
        simp [trail, this]
    | cons q qs =>
      have := ih (by simp) (fun h => hk (by rw [endsInNumber_cons]; exact h))
      simp only [List.map_cons, List.cons.injEq] at this
      simp [trail, this.1]

theorem within_lead {R : List Doc → List Doc → Prop} {path : List Str} {first first' : Doc} {rest rest' : List Doc} {i : Str}
    (h : Within R path (first :: rest) (first' :: rest')) (hi : isDigitS i = true) (hk : SameLead R (i :: path)) :
    first.trail = first'.trail := by
  cases path with
  | nil =>
    cases h with
    | here hR =>
      have := hk (by simp [endsInNumber, hi]) _ _ hR
      simpa using this
  | cons q qs =>
    have := within_trail h (by simp) (fun h => hk (by rw [endsInNumber_cons]; exact h))
    simp only [List.map_cons, List.cons.injEq] at this
    exact this.1

/-- The place of a path in the tree of a document, and what an edit of the entries there makes of the tree. -/
theorem within_exact {R : List Doc → List Doc → Prop} {path : List Str} {ds ds' : List Doc} (h : Within R path ds ds') :
    ∀ n : Node, n.children = nodes ds →
      ∃ pos m cs cs', locate n path = some pos ∧ nodeAt n pos = some m ∧ m.children = nodes cs ∧ R cs cs' ∧
        (path = [] → m = n) ∧ (path ≠ [] → m.key = true ∨ m.isCollectionElement = true) ∧
        (endsInNumber path = false → path ≠ [] → m.key = true) ∧
        (SameLead R path → ∀ (F : List Node → List Node → Prop) (n' : Node), ChildrenChanged F pos n n' →
          (∀ b, F m.children b → b = nodes cs') → n'.children = nodes ds') ∧
        ∀ (F : List Node → List Node → Prop) (n' : Node), ChildrenChanged F pos n n' →
          (∀ b, F m.children b → ShowsL cs' b) → ShowsL ds' n'.children := by
  induction h with
  | @here ds ds' hR =>
    intro n hn
    exact ⟨[], n, ds, ds', rfl, rfl, hn, hR, fun _ => rfl, fun h => absurd rfl h, fun _ h => absurd rfl h,
      fun _ F n' hc hF => hF _ (changed_here hc), fun F n' hc hF => hF _ (changed_here hc)⟩
  | @key k c cs cs' pre post path hk hfresh hw ih =>
    intro n hn
    rw [nodes_append, nodes, sec_node] at hn
    obtain ⟨pos, m, as, as', h1, h2, h3, h4, h5, h6, h7, h8, h9⟩ := ih ⟨.str k, c, nodes cs, false, .no, true⟩ rfl
    have hidx := childIdx_key hk hn (showsL_fresh (shows_nodes pre) hfresh) rfl
    have hget : n.children[(nodes pre).length]? = some { value := .str k, comment := c, key := true, children := nodes cs } := by simp [hn]
    refine ⟨(nodes pre).length :: pos, m, as, as', ?_, ?_, h3, h4, fun h => (by cases h), ?_, ?_, ?_, ?_⟩
    · simp only [locate, hidx, hget, h1, Option.map_some]
    · simp only [nodeAt, hget, h2]
    · intro _
      by_cases hp : path = []
      · left; rw [h5 hp]
      · exact h6 hp
    · intro he _
      cases path with
      | nil => rw [h5 rfl]
      | cons q qs => exact h7 (by rw [← endsInNumber_cons k]; exact he) (by simp)
    · intro hsl F n' hc hF
      obtain ⟨pre', c1, c1', post', e1, e2, e3, e4⟩ := changed_there hc
      rw [hn] at e1
      obtain ⟨rfl, rfl, rfl⟩ := split_eq e1 e2.symm
      have e5 := h8 (fun h => by
        cases path with
        | nil => cases h
        | cons q qs => exact hsl (by rw [endsInNumber_cons]; exact h)) F c1' e3 hF
      rw [e4, nodes_append, nodes, sec_node, changed_fields e3, e5]
    · intro F n' hc hF
      obtain ⟨pre', c1, c1', post', e1, e2, e3, e4⟩ := changed_there hc
      rw [hn] at e1
      obtain ⟨rfl, rfl, rfl⟩ := split_eq e1 e2.symm
      rw [e4]
      exact showsL_join (shows_nodes pre) (shows_sec.2 ⟨c1'.children, changed_fields e3, h9 F c1' e3 hF⟩) (shows_nodes post)
  | @element i first rest first' rest' pre post path hi hcount hw ih =>
    intro n hn
    rw [nodes_append, nodes, node] at hn
    obtain ⟨pos, m, as, as', h1, h2, h3, h4, h5, h6, h7, h8, h9⟩ := ih ⟨.sentinel, first.trail, first.node :: nodes rest, true, .no, false⟩ rfl
    have hidx := childIdx_number hi hn ((showsL_count (shows_nodes pre)).trans hcount.symm) (by simp [real, Node.isComment]) rfl
    have hget : n.children[(nodes pre).length]? = some ⟨.sentinel, first.trail, first.node :: nodes rest, true, .no, false⟩ := by simp [hn]
    refine ⟨(nodes pre).length :: pos, m, as, as', ?_, ?_, h3, h4, fun h => (by cases h), ?_, ?_, ?_, ?_⟩
    · rw [locate, hidx]
      simp only [hget]
      rw [h1]
      rfl
    · rw [nodeAt, hget]
      exact h2
    · intro _
      by_cases hp : path = []
      · right; rw [h5 hp]; rfl
      · exact h6 hp
    · intro he _
      cases path with
      | nil => simp [endsInNumber, hi] at he
      | cons q qs => exact h7 (by rw [← endsInNumber_cons i]; exact he) (by simp)
    · intro hsl F n' hc hF
      obtain ⟨pre', c1, c1', post', e1, e2, e3, e4⟩ := changed_there hc
      rw [hn] at e1
      obtain ⟨rfl, rfl, rfl⟩ := split_eq e1 e2.symm
      have e5 := h8 (fun h => by
        cases path with
        | nil => cases h
        | cons q qs => exact hsl (by rw [endsInNumber_cons]; exact h)) F c1' e3 hF
      rw [e4, nodes_append, nodes, node, changed_fields e3, e5, ← within_lead hw hi hsl]
      rfl
    · intro F n' hc hF
      obtain ⟨pre', c1, c1', post', e1, e2, e3, e4⟩ := changed_there hc
      rw [hn] at e1
      obtain ⟨rfl, rfl, rfl⟩ := split_eq e1 e2.symm
      rw [e4]
      obtain ⟨m', ms', hm', hs1, hs2⟩ := h9 F c1' e3 hF
      refine showsL_join (shows_nodes pre) ⟨first.trail, m', ms', ?_, hs1, hs2⟩ (shows_nodes post)
      rw [changed_fields e3, hm']

/-- The tree after a patch of the items of a list. -/
theorem item_exact {E : Env} {p : PyVal} {ds ds' : List Doc} {comps : List Str} (r : Recipe) (hr : r.root = Doc.root ds)
    (hne : comps ≠ []) (hk : endsInNumber comps = false) (hc : ∀ c ∈ comps, Component c) :
    (∀ v w, IsPatch p §"add" (absPath (comps ++ [§"-"])) → field p §"value" = some v → Scalar E v w →
      Within (Ends (item (yamlText w) w [])) comps ds ds' → r.patch E p = (.ok true, edited r (Doc.root ds'))) ∧
    (∀ i v w, isDigitS i = true → IsPatch p §"replace" (absPath (comps ++ [i])) → field p §"value" = some v → Scalar E v w →
      Within (ItemBecomes (natOfStr i) [item (yamlText w) w []]) comps ds ds' → r.patch E p = (.ok true, edited r (Doc.root ds'))) ∧
    (∀ i, isDigitS i = true → IsPatch p §"remove" (absPath (comps ++ [i])) →
      Within (ItemBecomes (natOfStr i) []) comps ds ds' → r.patch E p = (.ok true, edited r (Doc.root ds'))) := by
  have hs' : r.root.children = nodes ds := by rw [hr]; rfl
  have fin : ∀ {F : List Node → List Node → Prop} {pos : Pos} {root' : Node}, r.patch E p = (.ok true, edited r root') →
      ChildrenChanged F pos r.root root' → root'.children = nodes ds' →
      r.patch E p = (.ok true, edited r (Doc.root ds')) := by
    intro F pos root' h1 h2 h3
    rw [hr] at h2
    rw [h1, root_changed h2, h3]
    rfl
  have dig : ∀ {i : Str}, isDigitS i = true → ∀ c ∈ comps ++ [i], Component c := by
    intro i hi c h
    rcases List.mem_append.1 h with h | h
    · exact hc c h
    · simp only [List.mem_singleton] at h; subst h; exact isDigitS_component hi
  refine ⟨?_, ?_, ?_⟩
  · intro v w hp hv hsc hw
    obtain ⟨pos, m, cs, cs', h1, h2, h3, h4, h5, h6, h7, h8, _⟩ := within_exact hw r.root hs'
    have h8 := h8 (fun h => by rw [hk] at h; cases h)
    obtain rfl := h4
    have hbare : bareValue m = false := bare_key (h6 hne)
    have := C11_append E r p v comps pos m hc hp hv h1 h2 (Or.inl hk)
    rw [if_neg (by rw [hbare]; simp), newNodes_scalar hsc.primitive hsc.reads hsc.scalar hsc.notSchema hsc.oneLine] at this
    obtain ⟨root', g1, g2⟩ := this
    refine fin g1 g2 (h8 _ _ g2 ?_)
    rintro b rfl
    rw [asElement_primitive hsc.primitive, h3, nodes_append]
    rfl
  · intro i v w hi hp hv hsc hw
    obtain ⟨pos, m, cs, cs', h1, h2, h3, h4, h5, h6, h7, h8, _⟩ := within_exact hw r.root hs'
    have h8 := h8 (fun h => by rw [hk] at h; cases h)
    obtain ⟨pre, vt, ov, c, post, rfl, rfl, hov, hcount⟩ := h4
    rw [nodes_append, nodes] at h3
    have hidx := childIdx_number hi h3 ((showsL_count (shows_nodes pre)).trans hcount) (real_item hov).1 rfl
    have hloc : locate r.root (comps ++ [i]) = some (pos ++ [(nodes pre).length]) := by
      rw [locate_concat, h1, Option.bind_some, h2, Option.bind_some, hidx]; rfl
    have hat : nodeAt r.root (pos ++ [(nodes pre).length]) = some (item vt ov c).node := by
      rw [nodeAt_append, h2, Option.bind_some]
      simp [nodeAt, h3]
    have := C12_replace_element E r p v comps i pos (nodes pre).length _ (dig hi) hp hv hi hloc hat (real_item hov).2
    rw [newNodes_scalar hsc.primitive hsc.reads hsc.scalar hsc.notSchema hsc.oneLine] at this
    obtain ⟨root', g1, g2⟩ := this
    refine fin g1 g2 (h8 _ _ g2 ?_)
    rintro b ⟨x', md', y', q1, q2, rfl⟩
    rw [h3] at q1
    obtain ⟨rfl, rfl, rfl⟩ := split_eq q1 q2.symm
    rw [asElement_primitive hsc.primitive]
    simp only [List.append_assoc, List.singleton_append, List.map_cons, List.map_nil, nodes_append, nodes]
    rfl
  · intro i hi hp hw
    obtain ⟨pos, m, cs, cs', h1, h2, h3, h4, h5, h6, h7, h8, _⟩ := within_exact hw r.root hs'
    have h8 := h8 (fun h => by rw [hk] at h; cases h)
    obtain ⟨pre, vt, ov, c, post, rfl, rfl, hov, hcount⟩ := h4
    rw [nodes_append, nodes] at h3
    have hidx := childIdx_number hi h3 ((showsL_count (shows_nodes pre)).trans hcount) (real_item hov).1 rfl
    have hloc : locate r.root (comps ++ [i]) = some (pos ++ [(nodes pre).length]) := by
      rw [locate_concat, h1, Option.bind_some, h2, Option.bind_some, hidx]; rfl
    have hat : nodeAt r.root (pos ++ [(nodes pre).length]) = some (item vt ov c).node := by
      rw [nodeAt_append, h2, Option.bind_some]
      simp [nodeAt, h3]
    have := (C09_remove E r p comps i (dig hi) hp).2 pos (nodes pre).length _ hloc hat
    rw [if_neg (by simp [bareValue, node])] at this
    obtain ⟨root', g1, g2⟩ := this
    refine fin g1 g2 (h8 _ _ g2 ?_)
    rintro b ⟨x', md', y', q1, q2, rfl⟩
    rw [h3] at q1
    obtain ⟨rfl, rfl, rfl⟩ := split_eq q1 q2.symm
    simp [nodes_append]

end Crm
