import Verif.Lemmas.GetValue
import Verif.Examples.ToyYaml

/-!
# Looking values up (C03, C04, C61, C62)
-/

namespace Crm
open Spec

/-- The tree used in the examples below:
```
a:
  - x
  # note
  - k: 1  # c
```
-/
def exTree : Node :=
  { value := .str §"/", children := [{ value := .str §"a", key := true, children :=
    [{ value := .str §"x", listMember := true }, { comment := §"# note" },
     { listMember := true, comment := §"# c", children :=
        [{ value := .str §"k", key := true, comment := §"# c", children := [{ value := .int 1, comment := §"# c" }] }] }] }] }

/-- The same tree without the comment line. -/
def exTree' : Node :=
  { value := .str §"/", children := [{ value := .str §"a", key := true, children :=
    [{ value := .str §"x", listMember := true },
     { listMember := true, comment := §"# c", children :=
        [{ value := .str §"k", key := true, comment := §"# c", children := [{ value := .int 1, comment := §"# c" }] }] }] }] }

/-! ## C03 -/

/-- C03: what a path resolves to.  Each component picks a child: a number picks the list element with that many
non-comment children in front of it, any other text the first child of that name. -/
theorem C03_path_semantics (root : Node) (comps : List Str) (hc : ∀ c ∈ comps, Component c) (hne : comps ≠ []) :
    (strToStack (absPath comps)).map (fun st => (traverse root st).bind (nodeAt root)) = .ok (lookup root comps) := by
  rw [strToStack_absPath comps hne hc]
  exact congrArg Except.ok (traverse_lookup root comps)

example : lookup exTree [§"a", §"1", §"k"] =
    some { value := .str §"k", key := true, comment := §"# c", children := [{ value := .int 1, comment := §"# c" }] } := by
  decide

/-- C03: comment lines do not matter.  Two recipes that differ only in comment lines resolve every path alike: the same
paths exist, and they lead to subtrees that again differ only in comment lines. -/
theorem C03_comments_invisible (t t' : Node) (ht : commentsProper t = true) (ht' : commentsProper t' = true)
    (heq : stripComments t = stripComments t') (st : List Str) :
    ((traverse t st).bind (nodeAt t)).map stripComments = ((traverse t' st).bind (nodeAt t')).map stripComments := by
  cases st with
  | nil => rfl
  | cons c comps =>
    cases comps with
    | nil =>
      simp only [traverse]
      split
      · simpa [nodeAt] using heq
      · rfl
    | cons d ds =>
      simp only [traverse_cons]
      show (resolve t (d :: ds)).map _ = (resolve t' (d :: ds)).map _
      rw [← resolve_strip ht, ← resolve_strip ht', heq]

/-- C03: in particular, inserting or removing comment lines never changes `contains_value`. -/
theorem C03_contains_value_ignores_comments (r r' : Recipe) (ht : commentsProper r.root = true)
    (ht' : commentsProper r'.root = true) (heq : stripComments r.root = stripComments r'.root) (path : Str) :
    r.containsValue path = r'.containsValue path := by
  unfold Recipe.containsValue
  cases hs : strToStack path with
  | error e => rfl
  | ok st =>
    simp only [bind, Except.bind]
    rw [traverse_isSome_iff, traverse_isSome_iff]
    have := congrArg Option.isSome (C03_comments_invisible r.root r'.root ht ht' heq st)
    simp only [Option.isSome_map] at this
    rw [this]

example : commentsProper exTree = true ∧ commentsProper exTree' = true ∧ exTree ≠ exTree' ∧
    stripComments exTree = stripComments exTree' := by decide

/-- C03: one comment line inserted among the children of any node leaves the stripped tree alone (so the two theorems
above apply to it), wherever in the tree that node is. -/
theorem C03_insert_comment (root : Node) (pos : Pos) (i : Nat) (line : Node) (hl : line.isComment = true)
    (hp : ∀ n, nodeAt root pos = some n → n.isComment = false)
    (hup : ∀ q m, q ≠ pos → q <+: pos → nodeAt root q = some m → m.isComment = false) :
    stripComments (updateAt (fun n => { n with children := insertAll n.children i [line] }) pos root) =
      stripComments root := by
  induction pos generalizing root with
  | nil =>
    cases root with
    | mk v c cs l m k =>
      simp only [updateAt, stripComments, stripCommentsL_eq, insertAll]
      congr 2
      have hr : real line = false := by simp [Spec.real, hl]
      simp only [List.filter_append, List.filter_cons, hr, Bool.false_eq_true, if_false, List.filter_nil,
        List.append_nil]
      rw [← List.filter_append, List.take_append_drop]
  | cons j pos ih =>
    cases root with
    | mk v c cs l m k =>
      simp only [updateAt, stripComments, stripCommentsL_eq]
      congr 1
      by_cases hj : j < cs.length
      · have hc : cs[j]? = some cs[j] := List.getElem?_eq_getElem hj
        have hnc : cs[j].isComment = false := by
          by_cases hpos : pos = []
          · subst hpos
            exact hp cs[j] (by simp [nodeAt, hc])
          · exact hup [j] cs[j] (by simp [Ne.symm hpos]) (by simp) (by simp [nodeAt, hc])
        have h1 := ih cs[j]
          (fun n hn => hp n (by simpa [nodeAt, hc] using hn))
          (fun q m hq hpre hm => hup (j :: q) m (by simpa using hq) (by simpa using hpre) (by simpa [nodeAt, hc] using hm))
        have h2 : (updateAt (fun n => { n with children := insertAll n.children i [line] }) pos cs[j]).isComment
            = false := by
          cases pos with
          | nil =>
            simp only [updateAt, Node.isComment, insertAll, Bool.and_eq_false_iff]
            right; simp
          | cons j' pos' =>
            have := hnc
            simp only [updateAt, Node.isComment, Node.isSentinel, Bool.and_eq_false_iff] at this ⊢
            rcases this with h | h
            · left; exact h
            · right; cases hch : cs[j].children with
              | nil => rw [hch] at h; simp at h
              | cons x xs => cases j' <;> simp
        have hsplit : cs = cs.take j ++ cs[j] :: cs.drop (j + 1) := by
          rw [← List.drop_eq_getElem_cons hj, List.take_append_drop]
        have hmod : cs.modify j (updateAt (fun n => { n with children := insertAll n.children i [line] }) pos) =
            cs.take j ++ updateAt (fun n => { n with children := insertAll n.children i [line] }) pos cs[j]
              :: cs.drop (j + 1) := by
          rw [List.modify_eq_take_cons_drop hj]
        have e : (cs.filter real).map stripComments =
            ((cs.take j ++ cs[j] :: cs.drop (j + 1)).filter real).map stripComments := by rw [← hsplit]
        rw [hmod, e]
        simp only [List.filter_append, List.filter_cons, Spec.real, h2, hnc, List.map_append, Bool.not_false, if_true,
          List.map_cons, h1]
      · rw [List.modify_eq_self (by omega)]

example : (nodeAt exTree [0]).isSome ∧ ({ comment := §"# new" } : Node).isComment = true := by decide

/-- C03: the two index tables are mutually inverse on non-comment children, and comments are not counted. -/
theorem C03_index_tables (cs : List Node) :
    (physToVirt cs).length = cs.length ∧
    (∀ i p : Nat, (virtToPhys cs)[i]? = some p ↔ (∃ c, cs[p]? = some c ∧ real c = true) ∧ (physToVirt cs)[p]? = some i) ∧
    (∀ (p : Nat) (c : Node), cs[p]? = some c → real c = true → (physToVirt cs)[p]? = some ((cs.take p).countP real)) := by
  have h3 : ∀ (p : Nat) (c : Node), cs[p]? = some c → real c = true → (physToVirt cs)[p]? = some ((cs.take p).countP real) := by
    intro p c hc hr
    obtain ⟨hp, rfl⟩ := List.getElem?_eq_some_iff.1 hc
    rw [physToVirt_getElem? cs p hp, if_pos hr]
  refine ⟨physToVirt_length cs, fun i p => ?_, h3⟩
  rw [virtToPhys_getElem?]
  constructor
  · rintro ⟨⟨c, hc, hr⟩, hi⟩
    exact ⟨⟨c, hc, hr⟩, by rw [h3 p c hc hr, hi]⟩
  · rintro ⟨⟨c, hc, hr⟩, hi⟩
    refine ⟨⟨c, hc, hr⟩, ?_⟩
    rw [h3 p c hc hr] at hi
    exact Option.some.inj hi

/-- Without the side condition the claim is false: a list element that has lost its last key (`- k: 1  # c` after
`remove /a/1/k`) but kept its comment counts as a comment line, so the elements behind it move up. -/
theorem C03_emptied_element_becomes_comment :
    ∃ t', patchRemove exTree [§"/", §"a", §"1", §"k"] = some t' ∧
      (lookup exTree [§"a", §"1"]).isSome ∧ lookup t' [§"a", §"1"] = none := by
  refine ⟨_, rfl, ?_, ?_⟩ <;> decide

/-! ## C04 -/

/-- C04: `get_value(path)` raises `KeyError` exactly when `contains_value(path)` is false.  The YAML loader is assumed
not to raise `KeyError` itself. -/
theorem C04_keyError_iff (E : Env) (hE : ∀ s, E.load s ≠ .error .keyError) (r : Recipe) (path : Str) (sub : Bool) :
    r.getValue E path none sub = .error .keyError ↔ r.containsValue path = .ok false := by
  unfold Recipe.getValue Recipe.containsValue
  cases hs : strToStack path with
  | error e =>
    have : e = .indexError := by
      unfold strToStack at hs; split at hs
      · injection hs with hs; exact hs.symm
      · cases hs
    subst this
    simp [getValueIn, hs, bind, Except.bind]
  | ok st =>
    simp only [bind, Except.bind]
    cases ht : traverse r.root st with
    | none => simp [getValueIn_missing hs ht]
    | some p =>
      constructor
      · intro h; exact absurd h (getValueIn_found_no_keyError hE hs ht _ _)
      · intro h; simp at h

/-- C04: with a default, a missing path gives the default. -/
theorem C04_default_missing (E : Env) (r : Recipe) (path : Str) (d : PyVal) (sub : Bool)
    (h : r.containsValue path = .ok false) : r.getValue E path (some d) sub = .ok d := by
  unfold Recipe.getValue Recipe.containsValue at *
  cases hs : strToStack path with
  | error e => rw [hs] at h; cases h
  | ok st =>
    rw [hs] at h
    simp only [bind, Except.bind] at h
    cases ht : traverse r.root st with
    | none => exact getValueIn_missing hs ht (some d) _
    | some p => rw [ht] at h; simp at h

/-- C04: for an existing path the default is irrelevant. -/
theorem C04_default_existing (E : Env) (r : Recipe) (path : Str) (d : PyVal) (sub : Bool)
    (h : r.containsValue path = .ok true) : r.getValue E path (some d) sub = r.getValue E path none sub := by
  unfold Recipe.getValue Recipe.containsValue at *
  cases hs : strToStack path with
  | error e => rw [hs] at h; cases h
  | ok st =>
    rw [hs] at h
    simp only [bind, Except.bind] at h
    cases ht : traverse r.root st with
    | none => rw [ht] at h; simp at h
    | some p => exact getValueIn_found_default hs ht _ _ _

/-- C04: both calls reject the empty path with `IndexError`, and only that path. -/
theorem C04_contains_total (r : Recipe) (path : Str) :
    (path = [] ∧ r.containsValue path = .error .indexError) ∨ (path ≠ [] ∧ ∃ b, r.containsValue path = .ok b) := by
  unfold Recipe.containsValue
  by_cases h : path = []
  · left; subst h; exact ⟨rfl, rfl⟩
  · right; refine ⟨h, ?_⟩
    have : ∃ st, strToStack path = .ok st := by simp [strToStack, h]
    obtain ⟨st, hst⟩ := this
    exact ⟨_, by rw [hst]; rfl⟩

/-- The path `/a/b` exists exactly when the components lead somewhere. -/
theorem C04_contains_iff_lookup (r : Recipe) (comps : List Str) (hc : ∀ c ∈ comps, Component c) (hne : comps ≠ []) :
    r.containsValue (absPath comps) = .ok (lookup r.root comps).isSome := by
  unfold Recipe.containsValue
  rw [strToStack_absPath comps hne hc]
  simp only [bind, Except.bind]
  rw [traverse_isSome_iff, traverse_lookup]

example : (Toy.recipe "a:\n  - x\n").containsValue §"/a/0" = .ok true ∧
    (Toy.recipe "a:\n  - x\n").containsValue §"/a/1" = .ok false ∧
    (Toy.recipe "a:\n  - x\n").getValue Toy.env §"/a/1" = .error .keyError ∧
    (Toy.recipe "a:\n  - x\n").getValue Toy.env §"/a/1" (some (.int 7)) = .ok (.int 7) ∧
    (Toy.recipe "a:\n  - x\n").getValue Toy.env §"/a/0" (some (.int 7)) = .ok (.str §"x") := by decide +kernel

end Crm
