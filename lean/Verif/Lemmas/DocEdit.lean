import Verif.Spec.DocEdit
import Verif.Lemmas.ShowsRender
import Verif.Lemmas.OneLine
import Verif.Lemmas.PatchValue
import Verif.Props.PatchEdit

/-! # Patches on a tree that shows a document -/

namespace Crm
open Spec Doc

theorem showsL_append {a b : List Doc} : ∀ {ns : List Node}, ShowsL (a ++ b) ns ↔ ∃ x y, ns = x ++ y ∧ ShowsL a x ∧ ShowsL b y := by
  induction a with
  | nil =>
    intro ns
    constructor
    · intro h; exact ⟨[], ns, rfl, rfl, h⟩
    · rintro ⟨x, y, rfl, rfl, h⟩; exact h
  | cons d a ih =>
    intro ns
    constructor
    · rintro ⟨m, ms, rfl, hm, hms⟩
      obtain ⟨x, y, rfl, hx, hy⟩ := ih.1 hms
      exact ⟨m :: x, y, rfl, ⟨m, x, rfl, hm, hx⟩, hy⟩
    · rintro ⟨x, y, rfl, ⟨m, ms, rfl, hm, hms⟩, hy⟩
      exact ⟨m, ms ++ y, rfl, hm, ih.2 ⟨ms, y, rfl, hms, hy⟩⟩

theorem showsL_split {a b : List Doc} {d : Doc} {ns : List Node} (h : ShowsL (a ++ d :: b) ns) :
    ∃ x m y, ns = x ++ m :: y ∧ ShowsL a x ∧ Shows d m ∧ ShowsL b y := by
  obtain ⟨x, y, rfl, hx, m, ms, rfl, hm, hms⟩ := showsL_append.1 h
  exact ⟨x, m, ms, rfl, hx, hm, hms⟩

theorem showsL_join {a b : List Doc} {d : Doc} {x y : List Node} {m : Node} (hx : ShowsL a x) (hm : Shows d m) (hy : ShowsL b y) :
    ShowsL (a ++ d :: b) (x ++ m :: y) := showsL_append.2 ⟨x, m :: y, rfl, hx, m, y, rfl, hm, hy⟩

theorem showsL_mem {ds : List Doc} : ∀ {ns : List Node}, ShowsL ds ns → ∀ n ∈ ns, ∃ d ∈ ds, Shows d n := by
  induction ds with
  | nil => intro ns h n hn; obtain rfl := h; cases hn
  | cons d ds ih =>
    rintro ns ⟨m, ms, rfl, hm, hms⟩ n hn
    rcases List.mem_cons.1 hn with rfl | hn
    · exact ⟨d, by simp, hm⟩
    · obtain ⟨d', hd', h⟩ := ih hms n hn
      exact ⟨d', by simp [hd'], h⟩

theorem showsL_count {ds : List Doc} : ∀ {ns : List Node}, ShowsL ds ns → ns.countP real = entryCount ds := by
  induction ds with
  | nil => intro ns h; obtain rfl := h; rfl
  | cons d ds ih =>
    rintro ns ⟨m, ms, rfl, hm, hms⟩
    simp only [entryCount, List.countP_cons, real, (shows_same hm).2.2.2.2.2.1]
    rw [← real] at *
    have := ih hms
    simp only [entryCount] at this
    simp only [real] at this ⊢
    rw [this]

theorem showsL_fresh {ds : List Doc} {ns : List Node} {k : Str} (h : ShowsL ds ns) (hk : Fresh k ds) : ∀ n ∈ ns, n.value ≠ .str k := by
  intro n hn
  obtain ⟨d, hd, hs⟩ := showsL_mem h n hn
  rw [(shows_same hs).1]
  exact hk d hd

/-- A key named by a path. -/
theorem childIdx_key {n m : Node} {k : Str} {x y : List Node} (hk : isDigitS k = false) (hc : n.children = x ++ m :: y)
    (hx : ∀ c ∈ x, c.value ≠ .str k) (hm : m.value = .str k) : childIdx n k = some x.length := by
  simp only [childIdx, hk, Bool.false_eq_true, if_false, hc]
  rw [List.findIdx?_append, List.findIdx?_eq_none_iff.2 (by simpa using hx)]
  simp [List.findIdx?_cons, hm]

/-- An element named by a path. -/
theorem childIdx_number {n m : Node} {i : Str} {x y : List Node} (hi : isDigitS i = true) (hc : n.children = x ++ m :: y)
    (hx : x.countP real = natOfStr i) (hm : real m = true) (hl : m.listMember = true) : childIdx n i = some x.length := by
  simp only [childIdx, hi, if_true, hc]
  rw [List.find?_range_eq_some]
  refine ⟨by simp [hx, hm, hl], by simp, ?_⟩
  intro j hj
  have hget : (x ++ m :: y)[j]? = some x[j] := by rw [List.getElem?_append_left hj, List.getElem?_eq_getElem hj]
  have ht : (x ++ m :: y).take j = x.take j := by rw [List.take_append_of_le_length (by omega)]
  rw [hget, ht]
  simp only [Bool.not_eq_true', Bool.and_eq_false_iff, decide_eq_false_iff_not]
  by_cases hr : real x[j] = true
  · right
    intro hcount
    have hsplit : x = x.take j ++ x[j] :: x.drop (j + 1) := by
      rw [List.getElem_cons_drop, List.take_append_drop]
    have : x.countP real = (x.take j).countP real + ((x.drop (j + 1)).countP real + 1) := by
      conv => lhs; rw [hsplit]
      rw [List.countP_append, List.countP_cons, if_pos hr]
    omega
  · left; left
    simpa using hr

theorem changed_fields {f : List Node → List Node → Prop} {pos : Pos} {n n' : Node} (h : ChildrenChanged f pos n n') :
    n' = { n with children := n'.children } := by
  cases h <;> rfl

theorem changed_here {f : List Node → List Node → Prop} {n n' : Node} (h : ChildrenChanged f [] n n') : f n.children n'.children := by
  cases h with
  | here _ cs hf => exact hf

theorem changed_there {f : List Node → List Node → Prop} {i : Nat} {p : Pos} {n n' : Node} (h : ChildrenChanged f (i :: p) n n') :
    ∃ pre c c' post, n.children = pre ++ c :: post ∧ pre.length = i ∧ ChildrenChanged f p c c' ∧ n'.children = pre ++ c' :: post := by
  cases h with
  | there _ pre c c' post _ h1 h2 => exact ⟨pre, c, c', post, h1, rfl, h2, rfl⟩

/-- A change below the last step of a place, seen from above. -/
theorem changed_concat {f : List Node → List Node → Prop} {i : Nat} : ∀ {pos : Pos} {n n' : Node},
    ChildrenChanged f (pos ++ [i]) n n' →
    ChildrenChanged (fun a b => ∃ pre x post cs, a = pre ++ x :: post ∧ pre.length = i ∧ f x.children cs ∧
      b = pre ++ { x with children := cs } :: post) pos n n' := by
  intro pos
  induction pos with
  | nil =>
    intro n n' h
    obtain ⟨pre, c, c', post, h1, h2, h3, h4⟩ := changed_there h
    have hf := changed_fields h
    rw [hf]
    refine .here n _ ⟨pre, c, post, c'.children, h1, h2, changed_here h3, ?_⟩
    rw [h4, ← changed_fields h3]
  | cons j pos ih =>
    intro n n' h
    obtain ⟨pre, c, c', post, h1, h2, h3, h4⟩ := changed_there h
    rw [changed_fields h, h4]
    subst h2
    exact .there n pre c c' post pos h1 (ih h3)

theorem split_eq {α} {a a' b b' : List α} {x x' : α} (h : a ++ x :: b = a' ++ x' :: b') (hl : a.length = a'.length) :
    a = a' ∧ x = x' ∧ b = b' := by
  obtain ⟨h1, h2⟩ := List.append_inj h hl
  injection h2 with h3 h4
  exact ⟨h1, h3, h4⟩

theorem shows_sec {k c : Str} {cs : List Doc} {n : Node} :
    Shows (sec k c cs) n ↔ ∃ ns, n = { value := .str k, comment := c, key := true, children := ns } ∧ ShowsL cs ns := by
  unfold sec
  by_cases h : cs = []
  · subst h
    rw [if_pos rfl]
    constructor
    · intro h; exact ⟨[], h, rfl⟩
    · rintro ⟨ns, rfl, rfl⟩; rfl
  · rw [if_neg h]; exact Iff.rfl

/-- The place a path names in a document, in a tree that shows it. -/
theorem within_place {R : List Doc → List Doc → Prop} {path : List Str} {ds ds' : List Doc} (h : Within R path ds ds') :
    ∀ n : Node, ShowsL ds n.children →
      ∃ pos m cs cs', locate n path = some pos ∧ nodeAt n pos = some m ∧ ShowsL cs m.children ∧ R cs cs' ∧
        (path = [] → m = n ∧ cs = ds) ∧ (path ≠ [] → m.key = true ∨ m.isCollectionElement = true) ∧
        (endsInNumber path = true → m.isCollectionElement = true) ∧
        ∀ (F : List Node → List Node → Prop) (n' : Node), ChildrenChanged F pos n n' →
          (∀ b, F m.children b → ShowsL cs' b) → ShowsL ds' n'.children := by
  induction h with
  | @here ds ds' hR =>
    intro n hn
    refine ⟨[], n, ds, ds', rfl, rfl, hn, hR, fun _ => ⟨rfl, rfl⟩, fun h => absurd rfl h, fun h => (by cases h), ?_⟩
    intro F n' hc hF
    exact hF _ (changed_here hc)
  | @key k c cs cs' pre post path hk hfresh hw ih =>
    intro n hn
    obtain ⟨x, m0, y, hch, hx, hm0, hy⟩ := showsL_split hn
    obtain ⟨ns, rfl, hns⟩ := shows_sec.1 hm0
    obtain ⟨pos, m, as, as', h1, h2, h3, h4, h5, h6, h7, h8⟩ := ih ⟨.str k, c, ns, false, .no, true⟩ hns
    have hidx := childIdx_key hk hch (showsL_fresh hx hfresh) rfl
    have hget : n.children[x.length]? = some { value := .str k, comment := c, key := true, children := ns } := by simp [hch]
    refine ⟨x.length :: pos, m, as, as', ?_, ?_, h3, h4, fun h => (by cases h), ?_, ?_, ?_⟩
    · simp only [locate, hidx, hget, h1, Option.map_some]
    · simp only [nodeAt, hget, h2]
    · intro _
      by_cases hp : path = []
      · left; rw [(h5 hp).1]
      · exact h6 hp
    · intro he
      cases path with
      | nil => simp [endsInNumber, hk] at he
      | cons q qs => exact h7 (by simpa [endsInNumber, List.getLast?_cons_cons] using he)
    · intro F n' hc hF
      obtain ⟨pre', c1, c1', post', e1, e2, e3, e4⟩ := changed_there hc
      rw [hch] at e1
      obtain ⟨rfl, rfl, rfl⟩ := split_eq e1 e2.symm
      rw [e4]
      refine showsL_join hx (shows_sec.2 ⟨c1'.children, changed_fields e3, h8 F c1' e3 hF⟩) hy
  | @element i first rest first' rest' pre post path hi hcount hw ih =>
    intro n hn
    obtain ⟨x, m0, y, hch, hx, hm0, hy⟩ := showsL_split hn
    obtain ⟨c', mf, ns, rfl, hmf, hns⟩ := hm0
    obtain ⟨pos, m, as, as', h1, h2, h3, h4, h5, h6, h7, h8⟩ := ih ⟨.sentinel, c', mf :: ns, true, .no, false⟩ ⟨mf, ns, rfl, hmf, hns⟩
    have hidx := childIdx_number hi hch ((showsL_count hx).trans hcount.symm) (by simp [real, Node.isComment]) rfl
    have hget : n.children[x.length]? = some ⟨.sentinel, c', mf :: ns, true, .no, false⟩ := by simp [hch]
    refine ⟨x.length :: pos, m, as, as', ?_, ?_, h3, h4, fun h => (by cases h), ?_, ?_, ?_⟩
    · simp only [locate, hidx, hget, h1, Option.map_some]
    · simp only [nodeAt, hget, h2]
    · intro _
      by_cases hp : path = []
      · right; rw [(h5 hp).1]; rfl
      · exact h6 hp
    · intro he
      cases path with
      | nil => rw [(h5 rfl).1]; rfl
      | cons q qs => exact h7 (by simpa [endsInNumber, List.getLast?_cons_cons] using he)
    · intro F n' hc hF
      obtain ⟨pre', c1, c1', post', e1, e2, e3, e4⟩ := changed_there hc
      rw [hch] at e1
      obtain ⟨rfl, rfl, rfl⟩ := split_eq e1 e2.symm
      rw [e4]
      obtain ⟨m', ms', hm', hs1, hs2⟩ := h8 F c1' e3 hF
      refine showsL_join hx ⟨c', m', ms', ?_, hs1, hs2⟩ hy
      rw [changed_fields e3, hm']


theorem keyOf_node {d : Doc} {k : Str} (h : d.keyOf = some k) : d.node.value = .str k ∧ d.node.key = true := by
  cases d <;> simp only [keyOf, Option.some.injEq, reduceCtorEq] at h <;> subst h <;> exact ⟨rfl, rfl⟩

theorem shows_key {d : Doc} {n : Node} {k : Str} (h : d.keyOf = some k) (hn : Shows d n) :
    n.value = .str k ∧ n.key = true ∧ n.listMember = false ∧ n.multiline = .no := by
  obtain ⟨h1, h2, h3, h4, _⟩ := shows_same hn
  obtain ⟨k1, k2⟩ := keyOf_node h
  refine ⟨h1.trans k1, h2.trans k2, ?_, ?_⟩
  · rw [h3]; cases d <;> first | rfl | cases h
  · rw [h4]; cases d <;> first | rfl | cases h

theorem bare_key {m : Node} (h : m.key = true ∨ m.isCollectionElement = true) : bareValue m = false := by
  rcases h with h | h
  · simp [bareValue, h]
  · simp only [Node.isCollectionElement, Bool.and_eq_true] at h
    simp [bareValue, h]

theorem endsInNumber_last {init : List Str} {k : Str} : endsInNumber (init ++ [k]) = isDigitS k := by
  simp [endsInNumber]

theorem number_not_dash {i : Str} (h : isDigitS i = true) : i ≠ §"-" := by rintro rfl; revert h; decide

/-- `replace` and `add` do the same to something that is there. -/
theorem put_existing {op k : Str} {comps : List Str} {pos : Pos} {m : Node} (E : Env) (r : Recipe) (p v : PyVal)
    (hop : op = §"replace" ∨ op = §"add" ∧ k ≠ §"-") (hne : comps ≠ []) (hc : ∀ c ∈ comps, Component c) (hp : IsPatch p op (absPath comps))
    (hv : field p §"value" = some v) (hlast : comps.getLast? = some k) (hl : locate r.root comps = some pos)
    (hm : nodeAt r.root pos = some m) (hplace : endsInNumber comps = false ∨ m.isCollectionElement = true) :
    if bareValue m then r.patch E p = (.ok false, r)
    else match newNodes E v with
      | .error e => r.patch E p = (.error e, r)
      | .ok new => ∃ root', r.patch E p = (.ok true, edited r root') ∧ ChildrenChanged (Becomes new) pos r.root root' := by
  rcases hop with rfl | ⟨rfl, hdash⟩
  · exact C12_replace E r p v comps pos m hne hc hp hv hl hm hplace
  · exact C10_existing E r p v comps pos m hne hc hp hv (by rw [hlast]; simpa using hdash) hl hm hplace

theorem real_item {vt : Str} {v : PyVal} {c : Str} (h : v ≠ .sentinel) :
    real (item vt v c).node = true ∧ (item vt v c).node.isCollectionElement = false := by
  have : (⟨v, c, [], true, .no, false⟩ : Node).isSentinel = false := by
    cases v <;> first | rfl | exact absurd rfl h
  simp [node, real, Node.isComment, Node.isCollectionElement, this]

theorem asElement_primitive {v : PyVal} (h : v.isPrimitive = true) (new : List Node) :
    asElement v new = new.map fun c => { c with listMember := true } := by
  cases v <;> first | rfl | cases h

theorem Spec.Doc.Collection.notPrimitive {E : Env} {v : PyVal} {new : List Doc} (h : Collection E v new) : v.isPrimitive = false := by
  rcases h.collection with ⟨xs, rfl⟩ | ⟨kvs, rfl⟩ <;> rfl

theorem asElement_collection {E : Env} {v : PyVal} {ds : List Doc} (h : Collection E v ds) (new : List Node) :
    asElement v new = [{ listMember := true, children := new }] := by
  rcases h.collection with ⟨xs, rfl⟩ | ⟨kvs, rfl⟩ <;> rfl

theorem bare_place {n m : Node} {path : List Str} {cs ds : List Doc} (h5 : path = [] → m = n ∧ cs = ds)
    (h6 : path ≠ [] → m.key = true ∨ m.isCollectionElement = true) (hne : ds ≠ []) (hs : ShowsL ds n.children) : bareValue m = false := by
  by_cases hp : path = []
  · rw [(h5 hp).1]
    cases ds with
    | nil => exact absurd rfl hne
    | cons d ds =>
      obtain ⟨x, xs, hx, _⟩ := hs
      simp [bareValue, Node.isLeaf, hx]
  · exact bare_key (h6 hp)

/-- What is kept of the root. -/
theorem root_changed {F : List Node → List Node → Prop} {pos : Pos} {ns : List Node} {root' : Node}
    (h : ChildrenChanged F pos { value := .str §"/", children := ns } root') :
    root' = { value := .str §"/", children := root'.children } := changed_fields h

/-- A patch that edits a document edits a tree that shows it. -/
theorem docEdit_patch {E : Env} {p : PyVal} {ds ds' : List Doc} (h : DocEdit E p ds ds') (r : Recipe) (ns : List Node)
    (hr : r.root = { value := .str §"/", children := ns }) (hs : ShowsL ds ns) :
    ∃ ns', r.patch E p = (.ok true, edited r { value := .str §"/", children := ns' }) ∧ ShowsL ds' ns' := by
  have hs' : ShowsL ds r.root.children := by rw [hr]; exact hs
  have fin : ∀ {F : List Node → List Node → Prop} {pos : Pos} {root' : Node}, r.patch E p = (.ok true, edited r root') →
      ChildrenChanged F pos r.root root' → ShowsL ds' root'.children →
      ∃ ns', r.patch E p = (.ok true, edited r { value := .str §"/", children := ns' }) ∧ ShowsL ds' ns' := by
    intro F pos root' h1 h2 h3
    rw [hr] at h2
    refine ⟨root'.children, ?_, h3⟩
    rw [h1, ← root_changed h2]
  cases h with
  | replaceKey init k v w hc hk hp hv hsc hw =>
    obtain ⟨pos, m, cs, cs', h1, h2, h3, h4, h5, h6, h7, h8⟩ := within_place hw r.root hs'
    obtain ⟨pre, d, post, rfl, rfl, hd, hf⟩ := h4
    obtain ⟨x, md, y, hch, hx, hmd, hy⟩ := showsL_split h3
    obtain ⟨e1, e2, e3, e4⟩ := shows_key hd hmd
    have hidx := childIdx_key hk hch (showsL_fresh hx hf) e1
    have hloc : locate r.root (init ++ [k]) = some (pos ++ [x.length]) := by
      rw [locate_concat, h1, Option.bind_some, h2, Option.bind_some, hidx]; rfl
    have hat : nodeAt r.root (pos ++ [x.length]) = some md := by
      rw [nodeAt_append, h2, Option.bind_some]
      simp [nodeAt, hch]
    have := C12_replace E r p v (init ++ [k]) _ md (by simp) hc hp hv hloc hat (Or.inl (by rw [endsInNumber_last, hk]))
    rw [if_neg (by rw [bare_key (Or.inl e2)]; simp), newNodes_scalar hsc.primitive hsc.reads hsc.scalar hsc.notSchema hsc.oneLine] at this
    obtain ⟨root', g1, g2⟩ := this
    refine fin g1 (changed_concat g2) (h8 _ _ (changed_concat g2) ?_)
    rintro b ⟨x', md', y', cs2, q1, q2, q3, rfl⟩
    rw [hch] at q1
    obtain ⟨rfl, rfl, rfl⟩ := split_eq q1 q2.symm
    simp only [List.append_assoc, List.singleton_append]
    refine showsL_join hx ⟨md.comment, ?_⟩ hy
    obtain rfl := q3
    cases md
    simp only at e1 e2 e3 e4
    subst e1 e2 e3 e4
    rfl
  | overwriteKey init k v w hc hk hdash hp hv hsc hw =>
    obtain ⟨pos, m, cs, cs', h1, h2, h3, h4, h5, h6, h7, h8⟩ := within_place hw r.root hs'
    obtain ⟨pre, d, post, rfl, rfl, hd, hf⟩ := h4
    obtain ⟨x, md, y, hch, hx, hmd, hy⟩ := showsL_split h3
    obtain ⟨e1, e2, e3, e4⟩ := shows_key hd hmd
    have hidx := childIdx_key hk hch (showsL_fresh hx hf) e1
    have hloc : locate r.root (init ++ [k]) = some (pos ++ [x.length]) := by
      rw [locate_concat, h1, Option.bind_some, h2, Option.bind_some, hidx]; rfl
    have hat : nodeAt r.root (pos ++ [x.length]) = some md := by
      rw [nodeAt_append, h2, Option.bind_some]
      simp [nodeAt, hch]
    have := C10_existing E r p v (init ++ [k]) _ md (by simp) hc hp hv (by simpa using hdash) hloc hat (Or.inl (by rw [endsInNumber_last, hk]))
    rw [if_neg (by rw [bare_key (Or.inl e2)]; simp), newNodes_scalar hsc.primitive hsc.reads hsc.scalar hsc.notSchema hsc.oneLine] at this
    obtain ⟨root', g1, g2⟩ := this
    refine fin g1 (changed_concat g2) (h8 _ _ (changed_concat g2) ?_)
    rintro b ⟨x', md', y', cs2, q1, q2, q3, rfl⟩
    rw [hch] at q1
    obtain ⟨rfl, rfl, rfl⟩ := split_eq q1 q2.symm
    simp only [List.append_assoc, List.singleton_append]
    refine showsL_join hx ⟨md.comment, ?_⟩ hy
    obtain rfl := q3
    cases md
    simp only at e1 e2 e3 e4
    subst e1 e2 e3 e4
    rfl
  | replaceSection op init k v new hc hk hop hp hv hcol hw =>
    obtain ⟨pos, m, cs, cs', h1, h2, h3, h4, h5, h6, h7, h8⟩ := within_place hw r.root hs'
    obtain ⟨pre, c, old, post, rfl, rfl, hf⟩ := h4
    obtain ⟨x, md, y, hch, hx, hmd, hy⟩ := showsL_split h3
    obtain ⟨os, rfl, hos⟩ := shows_sec.1 hmd
    have hidx := childIdx_key hk hch (showsL_fresh hx hf) rfl
    have hloc : locate r.root (init ++ [k]) = some (pos ++ [x.length]) := by
      rw [locate_concat, h1, Option.bind_some, h2, Option.bind_some, hidx]; rfl
    have hat : nodeAt r.root (pos ++ [x.length]) = some { value := .str k, comment := c, key := true, children := os } := by
      rw [nodeAt_append, h2, Option.bind_some]
      simp [nodeAt, hch]
    have := put_existing E r p v hop (by simp) hc hp hv (by simp) hloc hat (Or.inl (by rw [endsInNumber_last, hk]))
    rw [if_neg (by rw [bare_key (Or.inl rfl)]; simp),
      newNodes_document E v hcol.notPrimitive new hcol.wellFormed hcol.nonEmpty hcol.noText hcol.written hcol.notSchema] at this
    obtain ⟨root', g1, g2⟩ := this
    refine fin g1 (changed_concat g2) (h8 _ _ (changed_concat g2) ?_)
    rintro b ⟨x', md', y', cs2, q1, q2, q3, rfl⟩
    rw [hch] at q1
    obtain ⟨rfl, rfl, rfl⟩ := split_eq q1 q2.symm
    obtain rfl := q3
    exact showsL_join hx (shows_sec.2 ⟨_, rfl, shows_nodes new⟩) hy
  | replaceElem op init i v first' rest' hc hi hop hp hv hcol hw =>
    obtain ⟨pos, m, cs, cs', h1, h2, h3, h4, h5, h6, h7, h8⟩ := within_place hw r.root hs'
    obtain ⟨pre, first, rest, post, rfl, rfl, hcount⟩ := h4
    obtain ⟨x, md, y, hch, hx, hmd, hy⟩ := showsL_split h3
    obtain ⟨c', mf, ms, rfl, _, _⟩ := hmd
    have hidx := childIdx_number hi hch ((showsL_count hx).trans hcount) (by simp [real, Node.isComment]) rfl
    have hloc : locate r.root (init ++ [i]) = some (pos ++ [x.length]) := by
      rw [locate_concat, h1, Option.bind_some, h2, Option.bind_some, hidx]; rfl
    have hat : nodeAt r.root (pos ++ [x.length]) = some { comment := c', listMember := true, children := mf :: ms } := by
      rw [nodeAt_append, h2, Option.bind_some]
      simp [nodeAt, hch]
    have := put_existing E r p v (hop.imp id fun h => ⟨h, number_not_dash hi⟩) (by simp) hc hp hv (by simp) hloc hat (Or.inr rfl)
    rw [if_neg (by simp [bareValue]),
      newNodes_document E v hcol.notPrimitive (first' :: rest') hcol.wellFormed hcol.nonEmpty hcol.noText hcol.written hcol.notSchema] at this
    obtain ⟨root', g1, g2⟩ := this
    refine fin g1 (changed_concat g2) (h8 _ _ (changed_concat g2) ?_)
    rintro b ⟨x', md', y', cs2, q1, q2, q3, rfl⟩
    rw [hch] at q1
    obtain ⟨rfl, rfl, rfl⟩ := split_eq q1 q2.symm
    obtain rfl := q3
    exact showsL_join hx ⟨c', _, _, rfl, shows_node first', shows_nodes rest'⟩ hy
  | replaceItem init i v w hc hi hp hv hsc hw =>
    obtain ⟨pos, m, cs, cs', h1, h2, h3, h4, h5, h6, h7, h8⟩ := within_place hw r.root hs'
    obtain ⟨pre, vt, ov, c, post, rfl, rfl, hov, hcount⟩ := h4
    obtain ⟨x, md, y, hch, hx, rfl, hy⟩ := showsL_split h3
    have hidx := childIdx_number hi hch ((showsL_count hx).trans hcount) (real_item hov).1 rfl
    have hloc : locate r.root (init ++ [i]) = some (pos ++ [x.length]) := by
      rw [locate_concat, h1, Option.bind_some, h2, Option.bind_some, hidx]; rfl
    have hat : nodeAt r.root (pos ++ [x.length]) = some (item vt ov c).node := by
      rw [nodeAt_append, h2, Option.bind_some]
      simp [nodeAt, hch]
    have := C12_replace_element E r p v init i pos x.length _ hc hp hv hi hloc hat (real_item hov).2
    rw [newNodes_scalar hsc.primitive hsc.reads hsc.scalar hsc.notSchema hsc.oneLine] at this
    obtain ⟨root', g1, g2⟩ := this
    refine fin g1 g2 (h8 _ _ g2 ?_)
    rintro b ⟨x', md', y', q1, q2, rfl⟩
    rw [hch] at q1
    obtain ⟨rfl, rfl, rfl⟩ := split_eq q1 q2.symm
    rw [asElement_primitive hsc.primitive]
    simp only [List.append_assoc, List.singleton_append, List.map_cons, List.map_nil]
    exact showsL_join hx rfl hy
  | addKey init k v new hc hk hdash hp hv hcol hne hw =>
    obtain ⟨pos, m, cs, cs', h1, h2, h3, h4, h5, h6, h7, h8⟩ := within_place hw r.root hs'
    obtain ⟨hf, rfl⟩ := h4
    have hnone : childIdx m k = none := by
      simp only [childIdx, hk, Bool.false_eq_true, if_false]
      rw [List.findIdx?_eq_none_iff]
      intro n hn
      simpa using showsL_fresh h3 hf n hn
    have hloc : locate r.root (init ++ [k]) = none := by
      rw [locate_concat, h1, Option.bind_some, h2, Option.bind_some, hnone]; rfl
    have hbare : bareValue m = false := bare_place h5 h6 hne hs'
    have hplace : endsInNumber init = false ∨ m.isCollectionElement = true := by
      cases he : endsInNumber init with
      | false => exact Or.inl rfl
      | true => exact Or.inr (h7 he)
    have := C10_new_key E r p v init k pos m hc hp hv hk hdash hloc h1 h2 hplace hbare
    rw [newNodes_document E _ hcol.notPrimitive [new] hcol.wellFormed hcol.nonEmpty hcol.noText hcol.written hcol.notSchema] at this
    obtain ⟨root', g1, g2⟩ := this
    refine fin g1 g2 (h8 _ _ g2 ?_)
    rintro b rfl
    exact showsL_append.2 ⟨_, _, rfl, h3, shows_nodes [new]⟩
  | addItem init i v w hc hi hp hv hsc hw =>
    obtain ⟨pos, m, cs, cs', h1, h2, h3, h4, h5, h6, h7, h8⟩ := within_place hw r.root hs'
    obtain ⟨pre, vt, ov, c, post, rfl, rfl, hov, hcount⟩ := h4
    obtain ⟨x, md, y, hch, hx, rfl, hy⟩ := showsL_split h3
    have hidx := childIdx_number hi hch ((showsL_count hx).trans hcount) (real_item hov).1 rfl
    have hloc : locate r.root (init ++ [i]) = some (pos ++ [x.length]) := by
      rw [locate_concat, h1, Option.bind_some, h2, Option.bind_some, hidx]; rfl
    have hat : nodeAt r.root (pos ++ [x.length]) = some (item vt ov c).node := by
      rw [nodeAt_append, h2, Option.bind_some]
      simp [nodeAt, hch]
    have := C11_insert E r p v init i pos x.length _ hc hp hv hi hloc hat (real_item hov).2
    rw [newNodes_scalar hsc.primitive hsc.reads hsc.scalar hsc.notSchema hsc.oneLine] at this
    obtain ⟨root', g1, g2⟩ := this
    refine fin g1 g2 (h8 _ _ g2 ?_)
    rintro b ⟨x', y', q1, q2, rfl⟩
    rw [hch] at q1
    obtain ⟨rfl, rfl⟩ := List.append_inj q1 q2.symm
    rw [asElement_primitive hsc.primitive]
    simp only [List.append_assoc, List.singleton_append, List.map_cons, List.map_nil]
    exact showsL_join hx rfl ⟨_, _, rfl, rfl, hy⟩
  | itemToElem init i v first rest hc hi hp hv hcol hw =>
    obtain ⟨pos, m, cs, cs', h1, h2, h3, h4, h5, h6, h7, h8⟩ := within_place hw r.root hs'
    obtain ⟨pre, vt, ov, c, post, rfl, rfl, hov, hcount⟩ := h4
    obtain ⟨x, md, y, hch, hx, rfl, hy⟩ := showsL_split h3
    have hidx := childIdx_number hi hch ((showsL_count hx).trans hcount) (real_item hov).1 rfl
    have hloc : locate r.root (init ++ [i]) = some (pos ++ [x.length]) := by
      rw [locate_concat, h1, Option.bind_some, h2, Option.bind_some, hidx]; rfl
    have hat : nodeAt r.root (pos ++ [x.length]) = some (item vt ov c).node := by
      rw [nodeAt_append, h2, Option.bind_some]
      simp [nodeAt, hch]
    have := C12_replace_element E r p v init i pos x.length _ hc hp hv hi hloc hat (real_item hov).2
    rw [newNodes_document E v hcol.notPrimitive _ hcol.wellFormed hcol.nonEmpty hcol.noText hcol.written hcol.notSchema] at this
    obtain ⟨root', g1, g2⟩ := this
    refine fin g1 g2 (h8 _ _ g2 ?_)
    rintro b ⟨x', md', y', q1, q2, rfl⟩
    rw [hch] at q1
    obtain ⟨rfl, rfl, rfl⟩ := split_eq q1 q2.symm
    rw [asElement_collection hcol]
    simp only [List.append_assoc, List.singleton_append]
    exact showsL_join hx ⟨_, _, _, rfl, shows_node first, shows_nodes rest⟩ hy
  | addElem init i v first rest hc hi hp hv hcol hw =>
    obtain ⟨pos, m, cs, cs', h1, h2, h3, h4, h5, h6, h7, h8⟩ := within_place hw r.root hs'
    obtain ⟨pre, vt, ov, c, post, rfl, rfl, hov, hcount⟩ := h4
    obtain ⟨x, md, y, hch, hx, rfl, hy⟩ := showsL_split h3
    have hidx := childIdx_number hi hch ((showsL_count hx).trans hcount) (real_item hov).1 rfl
    have hloc : locate r.root (init ++ [i]) = some (pos ++ [x.length]) := by
      rw [locate_concat, h1, Option.bind_some, h2, Option.bind_some, hidx]; rfl
    have hat : nodeAt r.root (pos ++ [x.length]) = some (item vt ov c).node := by
      rw [nodeAt_append, h2, Option.bind_some]
      simp [nodeAt, hch]
    have := C11_insert E r p v init i pos x.length _ hc hp hv hi hloc hat (real_item hov).2
    rw [newNodes_document E v hcol.notPrimitive _ hcol.wellFormed hcol.nonEmpty hcol.noText hcol.written hcol.notSchema] at this
    obtain ⟨root', g1, g2⟩ := this
    refine fin g1 g2 (h8 _ _ g2 ?_)
    rintro b ⟨x', y', q1, q2, rfl⟩
    rw [hch] at q1
    obtain ⟨rfl, rfl⟩ := List.append_inj q1 q2.symm
    rw [asElement_collection hcol]
    simp only [List.append_assoc, List.singleton_append]
    exact showsL_join hx ⟨_, _, _, rfl, shows_node first, shows_nodes rest⟩ ⟨_, _, rfl, rfl, hy⟩
  | appendItem init v w hc hp hv hsc hne hw =>
    obtain ⟨pos, m, cs, cs', h1, h2, h3, h4, h5, h6, h7, h8⟩ := within_place hw r.root hs'
    obtain rfl := h4
    have hbare : bareValue m = false := bare_place h5 h6 hne hs'
    have hplace : endsInNumber init = false ∨ m.isCollectionElement = true := by
      cases he : endsInNumber init with
      | false => exact Or.inl rfl
      | true => exact Or.inr (h7 he)
    have := C11_append E r p v init pos m hc hp hv h1 h2 hplace
    rw [if_neg (by rw [hbare]; simp), newNodes_scalar hsc.primitive hsc.reads hsc.scalar hsc.notSchema hsc.oneLine] at this
    obtain ⟨root', g1, g2⟩ := this
    refine fin g1 g2 (h8 _ _ g2 ?_)
    rintro b rfl
    rw [asElement_primitive hsc.primitive]
    exact showsL_append.2 ⟨_, _, rfl, h3, _, _, rfl, rfl, rfl⟩
  | appendElem init v first rest hc hp hv hcol hne hw =>
    obtain ⟨pos, m, cs, cs', h1, h2, h3, h4, h5, h6, h7, h8⟩ := within_place hw r.root hs'
    obtain rfl := h4
    have hbare : bareValue m = false := bare_place h5 h6 hne hs'
    have hplace : endsInNumber init = false ∨ m.isCollectionElement = true := by
      cases he : endsInNumber init with
      | false => exact Or.inl rfl
      | true => exact Or.inr (h7 he)
    have := C11_append E r p v init pos m hc hp hv h1 h2 hplace
    rw [if_neg (by rw [hbare]; simp),
      newNodes_document E v hcol.notPrimitive _ hcol.wellFormed hcol.nonEmpty hcol.noText hcol.written hcol.notSchema] at this
    obtain ⟨root', g1, g2⟩ := this
    refine fin g1 g2 (h8 _ _ g2 ?_)
    rintro b rfl
    rw [asElement_collection hcol]
    exact showsL_append.2 ⟨_, _, rfl, h3, _, _, rfl, ⟨_, _, _, rfl, shows_node first, shows_nodes rest⟩, rfl⟩
  | removeKey init k hc hk hp hw =>
    obtain ⟨pos, m, cs, cs', h1, h2, h3, h4, h5, h6, h7, h8⟩ := within_place hw r.root hs'
    obtain ⟨pre, d, post, rfl, rfl, hd, hf⟩ := h4
    obtain ⟨x, md, y, hch, hx, hmd, hy⟩ := showsL_split h3
    obtain ⟨e1, e2, e3, e4⟩ := shows_key hd hmd
    have hidx := childIdx_key hk hch (showsL_fresh hx hf) e1
    have hloc : locate r.root (init ++ [k]) = some (pos ++ [x.length]) := by
      rw [locate_concat, h1, Option.bind_some, h2, Option.bind_some, hidx]; rfl
    have hat : nodeAt r.root (pos ++ [x.length]) = some md := by
      rw [nodeAt_append, h2, Option.bind_some]
      simp [nodeAt, hch]
    have := (C09_remove E r p init k hc hp).2 pos x.length md hloc hat
    rw [if_neg (by rw [bare_key (Or.inl e2)]; simp)] at this
    obtain ⟨root', g1, g2⟩ := this
    refine fin g1 g2 (h8 _ _ g2 ?_)
    rintro b ⟨x', md', y', q1, q2, rfl⟩
    rw [hch] at q1
    obtain ⟨rfl, rfl, rfl⟩ := split_eq q1 q2.symm
    rw [List.append_nil]
    exact showsL_append.2 ⟨_, _, rfl, hx, hy⟩
  | removeItem init i hc hi hp hw =>
    obtain ⟨pos, m, cs, cs', h1, h2, h3, h4, h5, h6, h7, h8⟩ := within_place hw r.root hs'
    obtain ⟨pre, vt, ov, c, post, rfl, rfl, hov, hcount⟩ := h4
    obtain ⟨x, md, y, hch, hx, rfl, hy⟩ := showsL_split h3
    have hidx := childIdx_number hi hch ((showsL_count hx).trans hcount) (real_item hov).1 rfl
    have hloc : locate r.root (init ++ [i]) = some (pos ++ [x.length]) := by
      rw [locate_concat, h1, Option.bind_some, h2, Option.bind_some, hidx]; rfl
    have hat : nodeAt r.root (pos ++ [x.length]) = some (item vt ov c).node := by
      rw [nodeAt_append, h2, Option.bind_some]
      simp [nodeAt, hch]
    have := (C09_remove E r p init i hc hp).2 pos x.length _ hloc hat
    rw [if_neg (by simp [bareValue, node])] at this
    obtain ⟨root', g1, g2⟩ := this
    refine fin g1 g2 (h8 _ _ g2 ?_)
    rintro b ⟨x', md', y', q1, q2, rfl⟩
    rw [hch] at q1
    obtain ⟨rfl, rfl, rfl⟩ := split_eq q1 q2.symm
    rw [List.append_nil]
    exact showsL_append.2 ⟨_, _, rfl, hx, hy⟩
  | removeElem init i hc hi hp hw =>
    obtain ⟨pos, m, cs, cs', h1, h2, h3, h4, h5, h6, h7, h8⟩ := within_place hw r.root hs'
    obtain ⟨pre, first, rest, post, rfl, rfl, hcount⟩ := h4
    obtain ⟨x, md, y, hch, hx, hmd, hy⟩ := showsL_split h3
    obtain ⟨c', mf, ms, rfl, _, _⟩ := hmd
    have hidx := childIdx_number hi hch ((showsL_count hx).trans hcount) (by simp [real, Node.isComment]) rfl
    have hloc : locate r.root (init ++ [i]) = some (pos ++ [x.length]) := by
      rw [locate_concat, h1, Option.bind_some, h2, Option.bind_some, hidx]; rfl
    have hat : nodeAt r.root (pos ++ [x.length]) = some { comment := c', listMember := true, children := mf :: ms } := by
      rw [nodeAt_append, h2, Option.bind_some]
      simp [nodeAt, hch]
    have := (C09_remove E r p init i hc hp).2 pos x.length _ hloc hat
    rw [if_neg (by simp [bareValue])] at this
    obtain ⟨root', g1, g2⟩ := this
    refine fin g1 g2 (h8 _ _ g2 ?_)
    rintro b ⟨x', md', y', q1, q2, rfl⟩
    rw [hch] at q1
    obtain ⟨rfl, rfl, rfl⟩ := split_eq q1 q2.symm
    exact showsL_append.2 ⟨_, _, rfl, hx, hy⟩

end Crm
