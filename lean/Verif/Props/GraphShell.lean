import Verif.Model.GraphShell
import Verif.Props.Graph

/-! # The `graph` command (C94) -/

namespace Crm

namespace Spec

/-- The word for a graph. -/
def graphWord : GraphType → Str
  | .build => §"build"
  | .test => §"test"

/-- The dependency sections of a graph: `build` and `host`, or `run` and `test`. -/
def sectionsOf : GraphType → DepSection → Prop
  | .build => inBuild
  | .test => inTest

/-- The package `a` depends on `b`; of packages with the same name the first one counts. -/
def Uses (ps : List Pkg) (t : GraphType) (a b : Str) : Prop :=
  ∃ q ∈ firsts ps, q.name = .str a ∧ dependsOn (sectionsOf t) q b

/-- From `a` one comes to `b` along `R`, in any number of steps. -/
inductive Reaches (R : Str → Str → Prop) : Str → Str → Prop
  | refl (a : Str) : Reaches R a a
  | step {a b c : Str} : Reaches R a b → R b c → Reaches R a c

/-- The arrows are a tree that begins at `p`, follows `R`, and shows exactly what can be reached from `p`. -/
structure TreeOf (R : Str → Str → Prop) (p : Str) (arrows : List (PyVal × PyVal)) : Prop where
  follows : ∀ e ∈ arrows, ∃ a b, e = (.str a, .str b) ∧ R a b
  shows : ∀ x, (x = p ∨ ∃ a, (a, .str x) ∈ arrows) ↔ Reaches R p x
  connected : ∀ e ∈ arrows, e.1 = .str p ∨ ∃ a, (a, e.1) ∈ arrows
  once : (arrows.map (·.2)).Nodup ∧ PyVal.str p ∉ arrows.map (·.2)

/-- The words of a line of input, in small letters. -/
def inputWords (line : Str) : List Str := splitWs (lowerS line)

end Spec
open Spec

/-! ## Breadth-first search -/

/-- How many of the nodes are not visited. -/
def unvisited (univ visited : List PyVal) : Nat := (univ.filter fun x => decide (x ∉ visited)).length

theorem unvisited_add (univ visited : List PyVal) (x : PyVal) (hx : x ∈ univ) (hv : x ∉ visited) :
    unvisited univ (visited ++ [x]) + 1 ≤ unvisited univ visited := by
  have hle : ∀ l : List PyVal, unvisited l (visited ++ [x]) ≤ unvisited l visited := by
    intro l
    induction l with
    | nil => simp [unvisited]
    | cons a as ih =>
      unfold unvisited at ih ⊢
      by_cases h : a ∈ visited
      · simp [h] at ih ⊢; omega
      · by_cases h2 : a = x
        · subst h2; simp [h] at ih ⊢; omega
        · simp [h, h2] at ih ⊢; omega
  induction univ with
  | nil => cases hx
  | cons a as ih =>
    by_cases ha : a = x
    · have := hle as
      unfold unvisited at this ⊢
      simp [ha, hv] at this ⊢
      omega
    · have hx : x ∈ as := by
        rcases List.mem_cons.1 hx with h | h
        · exact absurd h.symm ha
        · exact h
      have := ih hx
      unfold unvisited at this ⊢
      by_cases h : a ∈ visited <;> simp [h, ha] at this ⊢ <;> omega

theorem unvisited_append (univ : List PyVal) : ∀ (new visited : List PyVal), (∀ x ∈ new, x ∈ univ ∧ x ∉ visited) → new.Nodup →
    unvisited univ (visited ++ new) + new.length ≤ unvisited univ visited
  | [], visited, _, _ => by simp
  | x :: xs, visited, h, hn => by
    rw [List.nodup_cons] at hn
    have h1 := unvisited_add univ visited x (h x (by simp)).1 (h x (by simp)).2
    have h2 := unvisited_append univ xs (visited ++ [x]) (fun y hy => ⟨(h y (by simp [hy])).1, by
      intro hm
      rcases List.mem_append.1 hm with hm | hm
      · exact (h y (by simp [hy])).2 hm
      · rw [List.mem_singleton] at hm; rw [hm] at hy; exact hn.1 hy⟩) hn.2
    rw [List.append_assoc, List.singleton_append] at h2
    simp only [List.length_cons]
    omega

/-- All names are texts. -/
def TextEdges (es : Edges) : Prop := ∀ e ∈ es, ∃ s, e.1 = .str s

/-- All ends of edges. -/
def nodesOf (es : Edges) : List PyVal := es.flatMap fun e => [e.1, .str e.2]

theorem nodesOf_length (es : Edges) : (nodesOf es).length = 2 * es.length := by
  induction es with
  | nil => rfl
  | cons e es ih => simp only [nodesOf, List.flatMap_cons, List.length_append, List.length_cons, List.length_nil] at ih ⊢; omega

theorem mem_neighbours {es : Edges} {rev : Bool} {a : Str} {x : PyVal} :
    x ∈ neighbours es rev (.str a) ↔ if rev then (x, a) ∈ es else ∃ b, x = .str b ∧ (.str a, b) ∈ es := by
  cases rev with
  | false =>
    simp only [neighbours, Bool.false_eq_true, if_false, List.mem_map, List.mem_filter, pyEq_str]
    constructor
    · rintro ⟨e, ⟨he, h1⟩, h2⟩
      exact ⟨e.2, h2.symm, by rw [← h1]; exact he⟩
    · rintro ⟨b, rfl, hb⟩
      exact ⟨_, ⟨hb, rfl⟩, rfl⟩
  | true =>
    simp only [neighbours, if_true, List.mem_map, List.mem_filter, pyEq_str, PyVal.str.injEq]
    constructor
    · rintro ⟨e, ⟨he, h1⟩, h2⟩
      rw [← h1, ← h2]; exact he
    · intro h
      exact ⟨_, ⟨h, rfl⟩, rfl⟩

theorem neighbours_nodup {es : Edges} (hn : es.Nodup) (rev : Bool) (a : Str) : (neighbours es rev (.str a)).Nodup := by
  have gen : ∀ (f : PyVal × Str → Bool) (g : PyVal × Str → PyVal), (∀ x ∈ es, ∀ y ∈ es, f x = true → f y = true → g x = g y → x = y) →
      ((es.filter f).map g).Nodup := by
    intro f g hg
    rw [List.nodup_iff_pairwise_ne] at *
    rw [List.pairwise_map]
    have h1 : List.Pairwise (· ≠ ·) (es.filter f) := hn.sublist List.filter_sublist
    refine List.Pairwise.imp_of_mem ?_ h1
    intro x y hx hy hne heq
    obtain ⟨hx1, hx2⟩ := List.mem_filter.1 hx
    obtain ⟨hy1, hy2⟩ := List.mem_filter.1 hy
    exact hne (hg x hx1 y hy1 hx2 hy2 heq)
  cases rev with
  | false =>
    simp only [neighbours, Bool.false_eq_true, if_false]
    apply gen
    intro x _ y _ h1 h2 h3
    rw [pyEq_str] at h1 h2
    injection h3 with h3
    exact Prod.ext (h1.trans h2.symm) h3
  | true =>
    simp only [neighbours, if_true]
    apply gen
    intro x _ y _ h1 h2 h3
    rw [pyEq_str] at h1 h2
    injection h1 with h1
    injection h2 with h2
    exact Prod.ext h3 (h1.trans h2.symm)

theorem neighbours_mem {es : Edges} {rev : Bool} {a : Str} {x : PyVal} (h : x ∈ neighbours es rev (.str a)) : x ∈ nodesOf es := by
  rw [mem_neighbours] at h
  cases rev with
  | false =>
    obtain ⟨b, rfl, hb⟩ := h
    exact List.mem_flatMap.2 ⟨_, hb, by simp⟩
  | true => exact List.mem_flatMap.2 ⟨_, h, by simp⟩

theorem neighbours_text {es : Edges} (ht : TextEdges es) {rev : Bool} {a : Str} {x : PyVal} (h : x ∈ neighbours es rev (.str a)) :
    ∃ s, x = .str s := by
  rw [mem_neighbours] at h
  cases rev with
  | false => obtain ⟨b, rfl, _⟩ := h; exact ⟨b, rfl⟩
  | true => exact ht _ h

theorem bfs_spec (es : Edges) (hn : es.Nodup) (ht : TextEdges es) (rev : Bool) (P : PyVal → Prop)
    (hP : ∀ a b, P a → b ∈ neighbours es rev a → P b) :
    ∀ (fuel : Nat) (queue visited : List PyVal), (∀ v ∈ visited, ∃ s, v = .str s) → visited.Nodup → (∀ q ∈ queue, q ∈ visited) →
    (∀ v ∈ visited, v ∉ queue → ∀ c ∈ neighbours es rev v, c ∈ visited) → (∀ q ∈ queue, P q) →
    unvisited (nodesOf es) visited + queue.length ≤ fuel →
    let out := bfsLoop es rev fuel queue visited
    (visited ++ out.map (·.2)).Nodup ∧
      (∀ v ∈ visited ++ out.map (·.2), ∀ c ∈ neighbours es rev v, c ∈ visited ++ out.map (·.2)) ∧
      (∀ e ∈ out, e.2 ∈ neighbours es rev e.1 ∧ e.1 ∈ visited ++ out.map (·.2) ∧ (∃ a, e.1 = .str a) ∧ (∃ b, e.2 = .str b) ∧ P e.2) := by
  intro fuel
  induction fuel with
  | zero =>
    intro queue visited _ hnd hq hcl _ hf
    have : queue = [] := List.eq_nil_of_length_eq_zero (by omega)
    subst this
    simp only [bfsLoop, List.map_nil, List.append_nil]
    exact ⟨hnd, fun v hv c hc => hcl v hv (by simp) c hc, by simp⟩
  | succ fuel ih =>
    intro queue visited htext hnd hq hcl hp hf
    cases queue with
    | nil =>
      simp only [bfsLoop, List.map_nil, List.append_nil]
      exact ⟨hnd, fun v hv c hc => hcl v hv (by simp) c hc, by simp⟩
    | cons p queue =>
      obtain ⟨ps, hps⟩ := htext p (hq p (by simp))
      subst hps
      rw [bfsLoop]
      simp only
      obtain ⟨new, hnew⟩ : ∃ n, n = (neighbours es rev (.str ps)).filter fun c => !visited.any (pyEq · c) := ⟨_, rfl⟩
      rw [← hnew]
      have hmem : ∀ c, c ∈ new ↔ c ∈ neighbours es rev (.str ps) ∧ c ∉ visited := by
        intro c
        rw [hnew, List.mem_filter, Bool.not_eq_true', List.any_eq_false]
        constructor
        · rintro ⟨h1, h2⟩
          refine ⟨h1, fun hc => ?_⟩
          obtain ⟨s, rfl⟩ := neighbours_text ht h1
          exact h2 _ hc (pyEq_str.2 rfl)
        · rintro ⟨h1, h2⟩
          refine ⟨h1, fun x hx hxe => ?_⟩
          obtain ⟨s, rfl⟩ := neighbours_text ht h1
          rw [pyEq_str] at hxe
          exact h2 (hxe ▸ hx)
      have hnewnd : new.Nodup := by
        rw [hnew]
        exact (neighbours_nodup hn rev ps).sublist List.filter_sublist
      have hun := unvisited_append (nodesOf es) new visited
        (fun x hx => ⟨neighbours_mem ((hmem x).1 hx).1, ((hmem x).1 hx).2⟩) hnewnd
      have key := ih (queue ++ new) (visited ++ new)
        (fun v hv => by
          rcases List.mem_append.1 hv with h | h
          · exact htext v h
          · exact neighbours_text ht ((hmem v).1 h).1)
        (by
          rw [List.nodup_append]
          exact ⟨hnd, hnewnd, fun a ha b hb hab => ((hmem b).1 hb).2 (hab ▸ ha)⟩)
        (fun q hqm => by
          rcases List.mem_append.1 hqm with h | h
          · exact List.mem_append_left _ (hq q (by simp [h]))
          · exact List.mem_append_right _ h)
        (fun v hv hvq c hc => by
          simp only [List.mem_append, not_or] at hvq
          rcases List.mem_append.1 hv with h | h
          · by_cases hvp : v = .str ps
            · subst hvp
              by_cases hcv : c ∈ visited
              · exact List.mem_append_left _ hcv
              · exact List.mem_append_right _ ((hmem c).2 ⟨hc, hcv⟩)
            · exact List.mem_append_left _ (hcl v h (by simp [hvp, hvq.1]) c hc)
          · exact absurd h hvq.2)
        (fun q hqm => by
          rcases List.mem_append.1 hqm with h | h
          · exact hp q (by simp [h])
          · exact hP _ _ (hp _ (by simp)) ((hmem q).1 h).1)
        (by simp only [List.length_append, List.length_cons] at hf ⊢; omega)
      simp only at key
      obtain ⟨k1, k2, k3⟩ := key
      have hmap : (new.map (fun c => (PyVal.str ps, c)) ++ bfsLoop es rev fuel (queue ++ new) (visited ++ new)).map (·.2) =
          new ++ (bfsLoop es rev fuel (queue ++ new) (visited ++ new)).map (·.2) := by
        rw [List.map_append, List.map_map]
        congr 1
        conv => rhs; rw [← List.map_id new]
        rfl
      rw [hmap, ← List.append_assoc]
      refine ⟨k1, k2, ?_⟩
      intro e he
      rcases List.mem_append.1 he with he | he
      · obtain ⟨c, hc, rfl⟩ := List.mem_map.1 he
        have hc' := (hmem c).1 hc
        exact ⟨hc'.1, List.mem_append_left _ (List.mem_append_left _ (hq _ (by simp))), ⟨ps, rfl⟩, neighbours_text ht hc'.1,
          hP _ _ (hp _ (by simp)) hc'.1⟩
      · exact k3 e he

/-- The arrows of a graph in a direction. -/
def arrowIn (es : Edges) (rev : Bool) (a b : Str) : Prop := if rev then (PyVal.str b, a) ∈ es else (PyVal.str a, b) ∈ es

theorem bfsTree_spec (es : Edges) (hn : es.Nodup) (ht : TextEdges es) (rev : Bool) (p : Str) :
    (hasNode es (.str p) = false ∧ bfsTree es rev (.str p) = none) ∨
    (hasNode es (.str p) = true ∧ ∃ arrows, bfsTree es rev (.str p) = some arrows ∧ TreeOf (arrowIn es rev) p arrows) := by
  cases hh : hasNode es (.str p) with
  | false => exact .inl ⟨rfl, by simp [bfsTree, hh]⟩
  | true =>
    refine .inr ⟨rfl, _, by rw [bfsTree, if_pos hh], ?_⟩
    have hnb : ∀ a x, x ∈ neighbours es rev (.str a) ↔ ∃ b, x = .str b ∧ arrowIn es rev a b := by
      intro a x
      rw [mem_neighbours]
      cases rev with
      | false => simp [arrowIn]
      | true =>
        simp only [arrowIn, if_true]
        constructor
        · intro h
          obtain ⟨s, hs⟩ := ht _ h
          simp only at hs
          exact ⟨s, hs, hs ▸ h⟩
        · rintro ⟨b, rfl, h⟩; exact h
    have hsp := bfs_spec es hn ht rev (fun v => ∃ s, v = .str s ∧ Reaches (arrowIn es rev) p s)
      (fun a b ⟨s, hs, hr⟩ hb => by
        subst hs
        obtain ⟨c, rfl, hc⟩ := (hnb s b).1 hb
        exact ⟨c, rfl, .step hr hc⟩)
      (2 * es.length + 1) [.str p] [.str p] (by simp) (by simp) (by simp) (by simp) (by simp; exact .refl p)
      (by
        have : unvisited (nodesOf es) [.str p] ≤ (nodesOf es).length := List.length_filter_le _ _
        rw [nodesOf_length] at this
        simp only [List.length_cons, List.length_nil]
        omega)
    simp only at hsp
    obtain ⟨h1, h2, h3⟩ := hsp
    have hcl : ∀ x, Reaches (arrowIn es rev) p x → PyVal.str x ∈ [PyVal.str p] ++ (bfsLoop es rev (2 * es.length + 1) [.str p] [.str p]).map (·.2) := by
      intro x hx
      induction hx with
      | refl => simp
      | step _ hr ih => exact h2 _ ih _ ((hnb _ _).2 ⟨_, rfl, hr⟩)
    refine ⟨?_, ?_, ?_, ?_⟩
    · intro e he
      obtain ⟨g1, -, ⟨a, ha⟩, ⟨b, hb⟩, -⟩ := h3 e he
      refine ⟨a, b, Prod.ext ha hb, ?_⟩
      rw [ha] at g1
      obtain ⟨b', hb', hr⟩ := (hnb a _).1 g1
      rw [hb] at hb'
      injection hb' with hb'
      rw [hb']; exact hr
    · intro x
      constructor
      · rintro (rfl | ⟨a, ha⟩)
        · exact .refl _
        · obtain ⟨-, -, -, -, s, hs, hr⟩ := h3 _ ha
          injection hs with hs
          rw [hs]; exact hr
      · intro hx
        rcases List.mem_append.1 (hcl x hx) with h | h
        · rw [List.mem_singleton] at h
          injection h with h
          exact .inl h
        · obtain ⟨e, he, heq⟩ := List.mem_map.1 h
          exact .inr ⟨e.1, by rw [← heq]; exact he⟩
    · intro e he
      rcases List.mem_append.1 (h3 e he).2.1 with h | h
      · exact .inl (by simpa using h)
      · obtain ⟨e', he', heq⟩ := List.mem_map.1 h
        exact .inr ⟨e'.1, by rw [← heq]; exact he'⟩
    · rw [List.singleton_append, List.nodup_cons] at h1
      exact ⟨h1.2, h1.1⟩

/-! ## C94 -/

theorem uses_edges {ps : List Pkg} {g : Graph} (hg : GraphOf ps g) (t : GraphType) (a b : Str) :
    (PyVal.str a, b) ∈ g.ofType t ↔ Uses ps t a b := by
  cases t with
  | build => exact hg.build.2 _ _
  | test => exact hg.test.2 _ _

theorem edges_text {ps : List Pkg} {g : Graph} (hg : GraphOf ps g) (ht : textNames ps) (t : GraphType) : TextEdges (g.ofType t) := by
  intro e he
  have : ∃ q ∈ firsts ps, q.name = e.1 := by
    cases t with
    | build => obtain ⟨q, hq, hn, _⟩ := (hg.build.2 e.1 e.2).1 he; exact ⟨q, hq, hn⟩
    | test => obtain ⟨q, hq, hn, _⟩ := (hg.test.2 e.1 e.2).1 he; exact ⟨q, hq, hn⟩
  obtain ⟨q, hq, hn⟩ := this
  rw [← hn]
  exact ht q (firsts_sub ps q hq)

theorem edges_nodup {ps : List Pkg} {g : Graph} (hg : GraphOf ps g) (t : GraphType) : (g.ofType t).Nodup := by
  cases t with
  | build => exact hg.build.1
  | test => exact hg.test.1

theorem hasNode_iff {ps : List Pkg} {g : Graph} (hg : GraphOf ps g) (ht : textNames ps) (t : GraphType) (p : Str) :
    hasNode (g.ofType t) (.str p) = true ↔ ∃ b, Uses ps t p b ∨ Uses ps t b p := by
  simp only [hasNode, List.any_eq_true, Bool.or_eq_true, pyEq_str, PyVal.str.injEq]
  constructor
  · rintro ⟨e, he, h | h⟩
    · exact ⟨e.2, .inl ((uses_edges hg t p e.2).1 (h ▸ he))⟩
    · obtain ⟨s, hs⟩ := edges_text hg ht t e he
      refine ⟨s, .inr ((uses_edges hg t s p).1 ?_)⟩
      rw [← hs, ← h]; exact he
  · rintro ⟨b, h | h⟩
    · exact ⟨_, (uses_edges hg t p b).2 h, .inl rfl⟩
    · exact ⟨_, (uses_edges hg t b p).2 h, .inr rfl⟩

theorem plot_spec {ps : List Pkg} {g : Graph} (hg : GraphOf ps g) (ht : textNames ps) (t : GraphType) (d : GraphDirection) (p : Str) :
    ((¬ ∃ b, Uses ps t p b ∨ Uses ps t b p) → g.plot t d (some p) = .noNode) ∧
    ((∃ b, Uses ps t p b ∨ Uses ps t b p) → ∃ arrows, g.plot t d (some p) = .draw t d p arrows ∧
      TreeOf (match d with | .dependsOn => Uses ps t | .neededBy => fun a b => Uses ps t b a) p arrows) := by
  rw [← hasNode_iff hg ht t p]
  have hR : arrowIn (g.ofType t) (reverseFlag d) = match d with | .dependsOn => Uses ps t | .neededBy => fun a b => Uses ps t b a := by
    cases d with
    | dependsOn => funext a b; exact propext (uses_edges hg t a b)
    | neededBy => funext a b; exact propext (uses_edges hg t b a)
  rcases bfsTree_spec (g.ofType t) (edges_nodup hg t) (edges_text hg ht t) (reverseFlag d) p with ⟨h1, h2⟩ | ⟨h1, arrows, h2, h3⟩
  · exact ⟨fun _ => by simp [Graph.plot, h2], fun h => by rw [h1] at h; cases h⟩
  · refine ⟨fun h => absurd h1 h, fun _ => ⟨arrows, by simp [Graph.plot, h2], ?_⟩⟩
    rw [← hR]; exact h3

theorem shellLine_plot (g : Graph) (t : GraphType) (dir : Str) (line p : Str) (hl : inputWords line = [§"plot", graphWord t, dir, p]) :
    shellLine true g line =
      if dir = §"depends" then (if g.containsPackage p then g.plot t .dependsOn (some p) else .unknownPackage p)
      else if dir = §"needed-by" then (if g.containsPackage p then g.plot t .neededBy (some p) else .unknownPackage p)
      else .unknownDirection := by
  unfold inputWords at hl
  unfold shellLine
  rw [hl]
  have : graphTypeOf (graphWord t) = some t := by cases t <;> rfl
  simp only [if_true, Bool.not_true, Bool.false_eq_true, if_false, this]

theorem contains_iff {ps : List Pkg} {g : Graph} (hg : GraphOf ps g) (s : Str) :
    g.containsPackage s = true ↔ ∃ p ∈ ps, p.name = .str s := by
  unfold Graph.containsPackage
  rw [hg.names, List.any_eq_true]
  constructor
  · rintro ⟨e, he, h⟩
    obtain ⟨q, hq, rfl⟩ := List.mem_map.1 he
    exact ⟨q, firsts_sub ps q hq, pyEq_str.1 h⟩
  · rintro ⟨q, hq, h⟩
    obtain ⟨q', hq', hn⟩ := firsts_name ps q hq
    exact ⟨_, List.mem_map.2 ⟨q', hq', rfl⟩, pyEq_str.2 (hn.trans h)⟩

/-- C94: `plot <graph> depends <package>` draws a tree of exactly the packages that the package depends on, directly or through
others; `needed-by` the packages that depend on it.  The package is one of the recipes, and something is known about it. -/
theorem C94_plot_partial (E : Env) (M : Str → Option Str) (cache : List (Str × Recipe)) (failed : List Str)
    (hk : (cache.map (·.1)).Nodup) (ht : textNames (packages E M cache)) :
    ∃ g, Graph.ofCache E M cache failed = .ok g ∧ ∀ (t : GraphType) (line p : Str),
      (∃ q ∈ packages E M cache, q.name = .str p) → (∃ b, Uses (packages E M cache) t p b ∨ Uses (packages E M cache) t b p) →
      (inputWords line = [§"plot", graphWord t, §"depends", p] →
        ∃ arrows, shellLine true g line = .draw t .dependsOn p arrows ∧ TreeOf (Uses (packages E M cache) t) p arrows) ∧
      (inputWords line = [§"plot", graphWord t, §"needed-by", p] →
        ∃ arrows, shellLine true g line = .draw t .neededBy p arrows ∧ TreeOf (fun a b => Uses (packages E M cache) t b a) p arrows) := by
  obtain ⟨g, h, hg, _⟩ := ofCache_spec E M cache failed hk ht.plain
  refine ⟨g, h, fun t line p hp hu => ⟨fun hl => ?_, fun hl => ?_⟩⟩
  · rw [shellLine_plot g t _ line p hl, if_pos rfl, if_pos ((contains_iff hg p).2 hp)]
    exact (plot_spec hg ht t .dependsOn p).2 hu
  · rw [shellLine_plot g t _ line p hl, if_neg (by decide), if_pos rfl, if_pos ((contains_iff hg p).2 hp)]
    exact (plot_spec hg ht t .neededBy p).2 hu

/-- `plot <graph> all` draws every dependency. -/
theorem C94_plot_all (E : Env) (M : Str → Option Str) (cache : List (Str × Recipe)) (failed : List Str)
    (hk : (cache.map (·.1)).Nodup) (ht : textNames (packages E M cache)) :
    ∃ g, Graph.ofCache E M cache failed = .ok g ∧ ∀ (t : GraphType) (line : Str), inputWords line = [§"plot", graphWord t, §"all"] →
      ∃ arrows, shellLine true g line = .drawAll t arrows ∧ arrows.Nodup ∧ (∀ e ∈ arrows, ∃ a, e.1 = .str a) ∧
        ∀ a b, (.str a, b) ∈ arrows ↔ Uses (packages E M cache) t a b := by
  obtain ⟨g, h, hg, _⟩ := ofCache_spec E M cache failed hk ht.plain
  refine ⟨g, h, fun t line hl => ⟨g.ofType t, ?_, edges_nodup hg t, edges_text hg ht t, uses_edges hg t⟩⟩
  unfold inputWords at hl
  unfold shellLine
  rw [hl]
  have : graphTypeOf (graphWord t) = some t := by cases t <;> rfl
  simp [this, Graph.plot]

/-- The other answers.  What a line means depends on its words alone; a name that is not known is answered with a message. -/
theorem C94_answers (g : Graph) (line : Str) :
    (inputWords line ∈ [[§"help"], [§"h"]] → shellLine true g line = .help) ∧
    (inputWords line ∈ [[§"stats"], [§"statistics"]] → shellLine true g line = .stats g) ∧
    (shellLine true g line = .closing ↔ inputWords line ∈ [[§"exit"], [§"esc"], [§"quit"], [§"q"]]) ∧
    (∀ t p d, inputWords line = [§"plot", t, d, p] ∨ inputWords line = [§"plot", t, §"all"] → t ∉ [§"build", §"test"] →
      shellLine true g line = .unknownType t) ∧
    (∀ t d p, inputWords line = [§"plot", t, d, p] → t ∈ [§"build", §"test"] → d ∉ [§"depends", §"needed-by"] →
      shellLine true g line = .unknownDirection) ∧
    (∀ t d p, inputWords line = [§"plot", t, d, p] → t ∈ [§"build", §"test"] → d ∈ [§"depends", §"needed-by"] →
      (g.containsPackage p = false ↔ shellLine true g line = .unknownPackage p)) ∧
    (shellLine true g line = .invalid ↔
      inputWords line ∉ [[§"help"], [§"h"], [§"stats"], [§"statistics"], [§"exit"], [§"esc"], [§"quit"], [§"q"]] ∧
        (∀ t, inputWords line ≠ [§"plot", t, §"all"]) ∧ ∀ t d p, inputWords line ≠ [§"plot", t, d, p]) ∧
    shellLine true g line ≠ .typeError := by
  unfold inputWords shellLine
  have plot_ne : ∀ t d p, g.plot t d p ≠ .closing ∧ g.plot t d p ≠ .invalid ∧ g.plot t d p ≠ .typeError ∧ ∀ x, g.plot t d p ≠ .unknownPackage x := by
    intro t d p
    cases p with
    | none => simp [Graph.plot]
    | some p =>
      simp only [Graph.plot]
      cases bfsTree (g.ofType t) (reverseFlag d) (.str p) <;> simp
  generalize splitWs (lowerS line) = ws
  match ws with
  | [] => simp
  | [c] =>
    by_cases h1 : c = §"help" ∨ c = §"h"
    · rcases h1 with rfl | rfl <;> simp
    · by_cases h2 : c = §"stats" ∨ c = §"statistics"
      · rcases h2 with rfl | rfl <;> simp
      · by_cases h3 : c = §"exit" ∨ c = §"esc" ∨ c = §"quit" ∨ c = §"q"
        · rcases h3 with rfl | rfl | rfl | rfl <;> simp
        · simp only [if_neg h1, if_neg h2, if_neg h3]
          simp only [not_or] at h1 h2 h3
          simp [h1, h2, h3]
  | [c, t] => simp
  | [c, t, a] =>
    by_cases h1 : c = §"plot" ∧ a = §"all"
    · obtain ⟨rfl, rfl⟩ := h1
      unfold graphTypeOf
      by_cases ht : t = §"build"
      · subst ht; simp [plot_ne]
      · by_cases ht2 : t = §"test"
        · subst ht2; simp [plot_ne]
        · simp [ht, ht2]
    · simp only [if_neg h1]
      simp only [not_and] at h1
      simp
      exact ⟨fun hc ha => absurd ha (h1 hc), h1⟩
  | [c, t, d, p] =>
    by_cases h1 : c = §"plot"
    · subst h1
      unfold graphTypeOf
      by_cases ht : t = §"build" ∨ t = §"test"
      · have hT : ∃ T : GraphType, (if t = §"build" then some GraphType.build else if t = §"test" then some .test else none) = some T := by
          rcases ht with rfl | rfl <;> simp
        obtain ⟨T, hT⟩ := hT
        by_cases hd : d = §"depends"
        · subst hd
          cases hc : g.containsPackage p <;> simp [hT, hc, plot_ne] <;>
            (intro a; first | exact ht.resolve_left a | (intro b; exact absurd (ht.resolve_left a) b))
        · by_cases hd2 : d = §"needed-by"
          · subst hd2
            cases hc : g.containsPackage p <;> simp [hT, hc, plot_ne] <;>
            (intro a; first | exact ht.resolve_left a | (intro b; exact absurd (ht.resolve_left a) b))
          · simp [hT, hd, hd2]; intros; simp_all
      · simp only [not_or] at ht
        simp [ht]
    · simp [h1]
  | a :: b :: c :: d :: e :: f => simp

/-- A session: the lines are answered one after the other up to the first one that closes it; the command then succeeds.  Lines after
it are not read. -/
theorem C94_session (g : Graph) (hg : g.truthy = true) (before after : List Str) (bye : Str)
    (hb : ∀ l ∈ before, inputWords l ∉ [[§"exit"], [§"esc"], [§"quit"], [§"q"]] ∧ shellLine true g l ≠ .noNode)
    (hbye : inputWords bye ∈ [[§"exit"], [§"esc"], [§"quit"], [§"q"]]) :
    graphCommand true g (before ++ bye :: after) = (before.map (shellLine true g) ++ [.closing], .exit 0) := by
  rw [graphCommand, if_neg (by simp [hg])]
  induction before with
  | nil =>
    have := (C94_answers g bye).2.2.1.2 hbye
    simp [shellLoop, this]
  | cons l ls ih =>
    have h1 := hb l (by simp)
    have hc : shellLine true g l ≠ .closing := fun h => h1.1 ((C94_answers g l).2.2.1.1 h)
    have ht := (C94_answers g l).2.2.2.2.2.2.2
    have ih := ih fun x hx => hb x (by simp [hx])
    rw [List.cons_append, shellLoop]
    have hn := h1.2
    cases h : shellLine true g l <;> first | exact absurd h hc | exact absurd h hn | exact absurd h ht | simp [ih, h]

/-- Without a recipe that can be read there is no session. -/
theorem C94_no_recipes (E : Env) (M : Str → Option Str) (cache : List (Str × Recipe)) (failed : List Str)
    (hk : (cache.map (·.1)).Nodup) (ht : textNames (packages E M cache)) :
    ∃ g, Graph.ofCache E M cache failed = .ok g ∧ (cache = [] → ∀ input, graphCommand true g input = ([], .exit 2)) ∧
      (cache ≠ [] → g.truthy = true) := by
  obtain ⟨g, h, hg, h1, _⟩ := ofCache_spec E M cache failed hk ht.plain
  refine ⟨g, h, ?_, ?_⟩
  · rintro rfl input
    simp [graphCommand, Graph.truthy, h1]
  · intro hc
    simp [Graph.truthy, h1, hc]

/-! ## A session with three recipes -/

def shellGraph : Graph :=
  match Graph.ofCache Toy.env exGraphMatch [(§"1", exGraphA), (§"2", exGraphB), (§"3", Toy.recipe "package:
  name: c
")] [] with
  | .ok g => g
  | .error _ => {}

example : textNames (packages Toy.env exGraphMatch [(§"1", exGraphA), (§"2", exGraphB), (§"3", Toy.recipe "package:
  name: c
")]) := by
  have : ∀ v ∈ (packages Toy.env exGraphMatch [(§"1", exGraphA), (§"2", exGraphB), (§"3", Toy.recipe "package:
  name: c
")]).map (·.name),
      v ∈ [PyVal.str §"a", .str §"b", .str §"c"] := by decide +kernel
  intro p hp
  have := this p.name (List.mem_map.2 ⟨p, hp, rfl⟩)
  simp only [List.mem_cons, List.not_mem_nil, or_false] at this
  rcases this with h | h | h <;> exact ⟨_, h⟩

example : inputWords §" Plot  BUILD depends a" = [§"plot", graphWord .build, §"depends", §"a"] := by decide

example : (match shellLine true shellGraph §"plot test needed-by b" with
    | .draw .test .neededBy p arrows => decide (p = §"b" ∧ arrows = [(.str §"b", .str §"a")])
    | _ => false) = true := by decide +kernel

example : (bfsTree [(.str §"a", §"b"), (.str §"a", §"c"), (.str §"b", §"d"), (.str §"c", §"d"), (.str §"d", §"a"), (.str §"x", §"a")] false
    (.str §"a")) = some [(.str §"a", .str §"b"), (.str §"a", .str §"c"), (.str §"b", .str §"d")] := by decide

/-! ## Where the full statement fails -/

/-- A package without dependencies that no other package needs is known, but asking for it ends the command with a traceback. -/
theorem C94_lonely_package_violation (E : Env) (M : Str → Option Str) (cache : List (Str × Recipe)) (failed : List Str)
    (hk : (cache.map (·.1)).Nodup) (ht : textNames (packages E M cache)) (t : GraphType) (p dir line : Str)
    (hp : ∃ q ∈ packages E M cache, q.name = .str p) (hu : ¬ ∃ b, Uses (packages E M cache) t p b ∨ Uses (packages E M cache) t b p)
    (hd : dir = §"depends" ∨ dir = §"needed-by") (hl : inputWords line = [§"plot", graphWord t, dir, p]) :
    ∃ g, Graph.ofCache E M cache failed = .ok g ∧ g.containsPackage p = true ∧
      ∀ rest, graphCommand true g (line :: rest) = ([.noNode], .traceback) := by
  obtain ⟨g, h, hg, h1, _⟩ := ofCache_spec E M cache failed hk ht.plain
  have hc := (contains_iff hg p).2 hp
  have hs : shellLine true g line = .noNode := by
    rw [shellLine_plot g t _ line p hl]
    rcases hd with rfl | rfl
    · rw [if_pos rfl, if_pos hc]; exact (plot_spec hg ht t .dependsOn p).1 hu
    · rw [if_neg (by decide), if_pos rfl, if_pos hc]; exact (plot_spec hg ht t .neededBy p).1 hu
  refine ⟨g, h, hc, fun rest => ?_⟩
  have hne : cache ≠ [] := by
    rintro rfl
    obtain ⟨q, hq, _⟩ := hp
    simp [packages] at hq
  have : g.truthy = true := by simp [Graph.truthy, h1, hne]
  rw [graphCommand, if_neg (by simp [this])]
  simp [shellLoop, hs]

example : (match (graphCommand true shellGraph [§"plot build depends c", §"q"]).2 with | .traceback => true | _ => false) = true := by
  decide +kernel

theorem splitWsGo_chars : ∀ (s acc : Str), ∀ w ∈ splitWsGo acc s, ∀ c ∈ w, c ∈ acc ∨ c ∈ s
  | [], acc, w, hw, c, hc => by
    unfold splitWsGo at hw
    split at hw
    · cases hw
    · rw [List.mem_singleton] at hw; subst hw; exact .inl (by simpa using hc)
  | x :: xs, acc, w, hw, c, hc => by
    unfold splitWsGo at hw
    split at hw
    · split at hw
      · rcases splitWsGo_chars xs [] w hw c hc with h | h
        · cases h
        · exact .inr (by simp [h])
      · rcases List.mem_cons.1 hw with rfl | hw
        · exact .inl (by simpa using hc)
        · rcases splitWsGo_chars xs [] w hw c hc with h | h
          · cases h
          · exact .inr (by simp [h])
    · rcases splitWsGo_chars xs (x :: acc) w hw c hc with h | h
      · rcases List.mem_cons.1 h with rfl | h
        · exact .inr (by simp)
        · exact .inl h
      · exact .inr (by simp [h])

theorem toLower_not_upper (c : Char) : c.toLower.isUpper = false := by
  unfold Char.toLower
  split
  · rename_i h
    simp only [Char.isUpper, decide_eq_false_iff_not] at h ⊢
    simp [UInt32.le_iff_toNat_le, UInt32.toNat_add] at h ⊢
    omega
  · rename_i h
    simp only [Char.isUpper]
    simp [UInt32.le_iff_toNat_le] at h ⊢
    omega

/-- A package with a capital letter in its name is never drawn, whatever is typed. -/
theorem C94_capital_letter_violation (g : Graph) (line p : Str) (c : Char) (hc : c ∈ p) (hu : c.isUpper = true) (t : GraphType)
    (d : GraphDirection) (arrows : List (PyVal × PyVal)) : shellLine true g line ≠ .draw t d p arrows := by
  intro h
  have hp : p ∈ inputWords line := by
    unfold shellLine at h
    unfold inputWords
    have hplot : ∀ t' d' p', g.plot t' d' p' = .draw t d p arrows → p' = some p := by
      intro t' d' p' hh
      cases p' with
      | none => simp [Graph.plot] at hh
      | some p' =>
        simp only [Graph.plot] at hh
        cases hb : bfsTree (g.ofType t') (reverseFlag d') (.str p') with
        | none => rw [hb] at hh; cases hh
        | some x => rw [hb] at hh; simp only [ShellAnswer.draw.injEq] at hh; rw [hh.2.2.1]
    generalize splitWs (lowerS line) = ws at h
    split at h
    · split at h <;> (try cases h); split at h <;> (try cases h); split at h <;> cases h
    · split at h
      · simp only [Bool.not_true, Bool.false_eq_true, if_false] at h
        split at h
        · cases h
        · exact absurd (hplot _ _ _ h) (by simp)
      · cases h
    · split at h
      · simp only [Bool.not_true, Bool.false_eq_true, if_false] at h
        split at h
        · cases h
        · split at h
          · split at h
            · have := hplot _ _ _ h; simp_all
            · cases h
          · split at h
            · split at h
              · have := hplot _ _ _ h; simp_all
              · cases h
            · cases h
      · cases h
    · cases h
  rcases splitWsGo_chars _ _ p hp c hc with h' | h'
  · cases h'
  · obtain ⟨x, _, rfl⟩ := List.mem_map.1 h'
    rw [toLower_not_upper] at hu
    cases hu

/-- Before Python 3.12, which the project supports, every `plot` ends with a traceback. -/
theorem C94_python_3_11_violation (g : Graph) (line : Str) :
    (∀ t, inputWords line = [§"plot", t, §"all"] → shellLine false g line = .typeError) ∧
    ∀ t d p, inputWords line = [§"plot", t, d, p] → shellLine false g line = .typeError := by
  unfold inputWords shellLine
  constructor
  · intro t h; rw [h]; simp
  · intro t d p h; rw [h]; simp

/-- The help text offers a direction in front of `all`; with one, `all` is taken for a package. -/
theorem C94_all_with_direction_violation (g : Graph) (hg : g.containsPackage §"all" = false) :
    shellLine true g §"plot build depends all" = .unknownPackage §"all" := by
  rw [shellLine_plot g .build §"depends" _ §"all" (by decide)]
  simp [hg]

end Crm
