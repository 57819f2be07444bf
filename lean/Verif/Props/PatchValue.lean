import Verif.Lemmas.PatchValue
import Verif.Props.Jinja
import Verif.Examples.DocCheck

/-!
# C76: values of several lines in a patch

Patches may carry texts of several lines, lists and mappings.  What is said here about `add` and `replace` concerns keys that are
there already; `C10_new_key`, `C11_append` and `C12_replace_element` reduce the other places to the same new entries.
-/

namespace Crm
open Spec Spec.Doc

namespace Spec

/-- `add` or `replace` as a JSON patch. -/
def setPatch (op : Str) (comps : List Str) (v : PyVal) : PyVal :=
  .dict [(§"op", .str op), (§"path", .str (absPath comps)), (§"value", v)]

/-- The components lead to a key of a mapping. -/
structure IsKey (root : Node) (comps : List Str) : Prop where
  path : comps ≠ [] ∧ ∀ c ∈ comps, Component c
  name : comps.getLast? ≠ some §"-" ∧ endsInNumber comps = false
  node : ∃ m k, lookup root comps = some m ∧ m.key = true ∧ m.value = .str k ∧ k ≠ §"/"

/-- A YAML block text (`|`) with these lines. -/
def blockText (lines : List Str) : Str := §"|" ++ lines.flatMap fun l => §"\n  " ++ l

end Spec

theorem splitlinesGo_ne_nil (acc s : Str) (h : acc ≠ [] ∨ s ≠ []) : splitlinesGo acc s ≠ [] := by
  fun_induction splitlinesGo acc s <;> simp_all

theorem key_content {E : Env} {r r' : Recipe} {op : Str} {v : PyVal} {new : List Node} {comps : List Str}
    (hop : op = §"add" ∨ op = §"replace") (hk : IsKey r.root comps) (hvs : v ≠ .sentinel) (hg : newNodes E v = .ok new) (hnew : new ≠ [])
    (h : r.patch E (setPatch op comps v) = (.ok true, r')) :
    ∃ (m : Node) (k : Str), lookup r'.root comps = some { m with children := new } ∧ m.key = true ∧ m.value = .str k ∧ k ≠ §"/" := by
  obtain ⟨m, k, hm, hkey, hv, hr⟩ := hk.node
  rw [← locate_lookup] at hm
  cases hl : locate r.root comps with
  | none => rw [hl] at hm; cases hm
  | some pos =>
    rw [hl] at hm
    exact ⟨m, k, patch_key_content E r r' op v new comps pos m hk.path.1 hk.path.2 hop hk.name.1 hk.name.2 hl hm hkey hvs hg hnew h,
      hkey, hv, hr⟩

/-- C76: a text of several lines put below a key is read back by showing the loader a block text with the same lines. -/
theorem C76_text_of_several_lines (E : Env) (r r' : Recipe) (op s : Str) (comps : List Str) (hop : op = §"add" ∨ op = §"replace")
    (hk : IsKey r.root comps) (hs : '\n' ∈ s) (h : r.patch E (setPatch op comps (.str s)) = (.ok true, r')) (d : Option PyVal) :
    r'.getValue E (absPath comps) d = E.load (blockText (splitlines s)) := by
  have hg : newNodes E (.str s) = .ok [{ value := .list ((splitlines s).map .str), multiline := .pipe }] := by
    simp [newNodes, hs]
  obtain ⟨m, k, hm, hkey, hv, hr⟩ := key_content hop hk (by simp) hg (by simp) h
  have hne : splitlines s ≠ [] := splitlinesGo_ne_nil [] s (Or.inr (by rintro rfl; cases hs))
  have hb : blockAt r'.root comps = some (blockText (splitlines s)) := by
    unfold blockAt
    rw [hm]
    simp only [hv, PyVal.str.injEq, hr, if_false, hkey]
    cases hsp : splitlines s with
    | nil => exact absurd hsp hne
    | cons l ls =>
      simp only [List.map_cons]
      simp [blockText, Multiline.text, pyStr, List.flatMap_map]
  exact getValueIn_block E r'.root comps hk.path.2 hk.path.1 _ hb d none

/-- C76: a list or mapping put below a key becomes the entries its YAML text shows, and reading the key shows the loader these
entries: what it makes of them is the value. -/
theorem C76_structured_value (E : Env) (r r' : Recipe) (op : Str) (v : PyVal) (comps : List Str) (ds : List Doc)
    (hop : op = §"add" ∨ op = §"replace") (hk : IsKey r.root comps) (hv : (∃ xs, v = .list xs) ∨ ∃ kvs, v = .dict kvs)
    (hds : OkL E ds) (hne : ds ≠ []) (ht : endsInTextL false ds = false)
    (hdump : E.dump v = joinStr §"\n" (linesL 0 ds) ++ §"\n") (hsch : ∀ d ∈ ds, d.node.value ≠ .str §"schema_version")
    (h : r.patch E (setPatch op comps v) = (.ok true, r')) :
    (∃ m, lookup r'.root comps = some m ∧ m.children = nodes ds) ∧
    ((∀ d, ds = [d] → d.isEmpty = false) → (∀ vt x c, ds ≠ [.item vt x c]) →
      ∀ w, E.load (text ds) = .ok w → (∀ first rest, ds = [.elem first rest] → ∃ xs, w = .list xs) →
      ∀ d, r'.getValue E (absPath comps) d = .ok w) := by
  have hprim : v.isPrimitive = false := by rcases hv with ⟨_, rfl⟩ | ⟨_, rfl⟩ <;> rfl
  have hg := newNodes_document E v hprim ds hds hne ht hdump hsch
  have hnn : nodes ds ≠ [] := by
    cases ds with
    | nil => exact absurd rfl hne
    | cons d ds => simp [nodes]
  obtain ⟨m, k, hm, hkey, hmv, hr⟩ := key_content hop hk (by rcases hv with ⟨_, rfl⟩ | ⟨_, rfl⟩ <;> simp) hg hnn h
  refine ⟨⟨_, hm, rfl⟩, fun he hi w hw hlist d => ?_⟩
  obtain ⟨v', c, cs, l, ml, ky⟩ := m
  simp only at hkey hmv hm
  subst hkey hmv
  have hsingle : (⟨.str k, c, nodes ds, l, ml, true⟩ : Node).isSingleKey = false := by
    have := block_single he hds k c
    simp only [node] at this
    cases hx : (⟨.str k, c, nodes ds, l, ml, true⟩ : Node).isSingleKey with
    | false => rfl
    | true =>
      obtain ⟨vt, x, c', rfl⟩ := this.1 hx
      exact absurd rfl (hi vt x c')
  have hleaf : (⟨.str k, c, nodes ds, l, ml, true⟩ : Node).isLeaf = false := by
    cases hx : nodes ds with
    | nil => exact absurd hx hnn
    | cons a l => rfl
  have hrender : renderTree (-1) none ⟨.str k, c, nodes ds, l, ml, true⟩ = documentLines ds := by
    rw [renderTree_not_single _ _ _ _ _ _ _ _ hsingle]
    simp only [show decide ((-1 : Int) > -1) = false by decide, Bool.false_and, Bool.false_eq_true, if_false, List.nil_append]
    rw [show (-1 : Int) + 1 = 0 by omega]
    exact render_documentLines E ds hds _ (by simp [Node.isCollectionElement, Node.isSentinel])
  unfold Recipe.getValue getValueIn
  simp only [strToStack_absPath _ hk.path.1 hk.path.2, bind, Except.bind, traverse_lookup, hm, hsingle, Bool.false_and,
    Bool.false_eq_true, if_false, hleaf, hrender]
  rw [show joinStr §"\n" (documentLines ds) = text ds from rfl, parseYaml_ok hw]
  by_cases hwl : ∃ xs, w = .list xs
  · obtain ⟨xs, rfl⟩ := hwl
    rfl
  · have hwrap : (match nodes ds with | [c] => c.listMember | _ => false) = false := by
      match ds, hi, hlist with
      | [], _, _ => rfl
      | [d], hi, hlist =>
        cases d with
        | item vt x c' => exact absurd rfl (hi vt x c')
        | elem first rest => exact absurd (hlist first rest rfl) hwl
        | _ => rfl
      | _ :: _ :: _, _, _ => rfl
    refine if_neg fun hx => ?_
    rw [Bool.and_eq_true] at hx
    exact Bool.noConfusion (hx.2.symm.trans hwrap)

/-- The lines of the examples. -/
def exValue : Recipe := Toy.recipe "a:\n  x: 1\n\nl:\n  - p\n  - q\n"

def exValueDoc : List Doc :=
  [.block §"run" [] [.item §"python" (.str §"python") [], .item §"pip" (.str §"pip") []], .scalar §"n" §"3" (.int 3) []]

theorem isKey_of {root : Node} {comps : List Str} {k : Str} (hp : comps ≠ [] ∧ ∀ c ∈ comps, Component c)
    (hn : comps.getLast? ≠ some §"-" ∧ endsInNumber comps = false)
    (h : (lookup root comps).map (fun m => (m.key, m.value)) = some (true, .str k)) (hk : k ≠ §"/") : IsKey root comps := by
  refine ⟨hp, hn, ?_⟩
  cases hm : lookup root comps with
  | none => rw [hm] at h; cases h
  | some m =>
    rw [hm] at h
    simp only [Option.map_some, Option.some.injEq, Prod.mk.injEq] at h
    exact ⟨m, k, rfl, h.1, h.2, hk⟩

example : IsKey exValue.root [§"a", §"x"] :=
  isKey_of (k := §"x") ⟨by decide, by decide⟩ ⟨by decide, by decide⟩ (by decide +kernel) (by decide)

example : ((exValue.patch Toy.env (setPatch §"replace" [§"a", §"x"] (.str §"u\nv"))).1 matches .ok true) = true ∧
    (exValue.patch Toy.env (setPatch §"replace" [§"a", §"x"] (.str §"u\nv"))).2.render =
      §"a:\n  x: |\n    u\n    v\n\nl:\n  - p\n  - q\n" := by decide +kernel

example : let v := PyVal.dict [(§"run", .list [.str §"python", .str §"pip"]), (§"n", .int 3)]
    OkL Toy.env exValueDoc ∧ endsInTextL false exValueDoc = false ∧
    Toy.env.dump v = joinStr §"\n" (linesL 0 exValueDoc) ++ §"\n" ∧ Toy.env.load (text exValueDoc) = .ok v ∧
    ((exValue.patch Toy.env (setPatch §"replace" [§"a", §"x"] v)).1 matches .ok true) = true :=
  ⟨okLB_sound _ _ (by decide +kernel), by decide, by decide +kernel, by decide +kernel, by decide +kernel⟩

/-- C76 fails in a list: a text of several lines becomes a list of its lines, and is written as one. -/
theorem C76_text_in_a_list_becomes_a_list :
    let out := exValue.patch Toy.env (setPatch §"add" [§"l", §"-"] (.str §"u\nv"))
    out.1 = .ok true ∧ out.2.getValue Toy.env §"/l/2" = .ok (.list [.str §"u", .str §"v"]) ∧
      out.2.render = §"a:\n  x: 1\n\nl:\n  - p\n  - q\n  - ['u', 'v']\n" := by decide +kernel

/-- C76: whether the text ended in a line break is not kept. -/
theorem C76_final_line_break_is_lost :
    (exValue.patch Toy.env (setPatch §"replace" [§"a", §"x"] (.str §"u\nv"))).2 =
      (exValue.patch Toy.env (setPatch §"replace" [§"a", §"x"] (.str §"u\nv\n"))).2 := by decide +kernel

end Crm
