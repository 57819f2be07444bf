import Verif.Lemmas.Section
import Verif.Lemmas.DocText
import Verif.Lemmas.DocRender
import Verif.Lemmas.DocVars

/-! # New contents of a key -/

namespace Crm
open Spec Spec.Doc

/-- A patch that puts new content below a key leaves the key itself as it is. -/
theorem patch_key_content (E : Env) (r r' : Recipe) (op : Str) (v : PyVal) (new : List Node) (comps : List Str) (pos : Pos) (m : Node)
    (hne : comps ≠ []) (hc : ∀ c ∈ comps, Component c) (hop : op = §"add" ∨ op = §"replace")
    (hdash : comps.getLast? ≠ some §"-") (hnum : endsInNumber comps = false)
    (hl : locate r.root comps = some pos) (hm : nodeAt r.root pos = some m) (hkey : m.key = true)
    (hvs : v ≠ .sentinel) (hg : newNodes E v = .ok new) (hnew : new ≠ [])
    (h : r.patch E (.dict [(§"op", .str op), (§"path", .str (absPath comps)), (§"value", v)]) = (.ok true, r')) :
    lookup r'.root comps = some { m with children := new } := by
  have hp := isPatch_mk op (absPath comps) v hop (by cases comps <;> simp_all [absPath]) hvs
  have hvl : field (.dict [(§"op", PyVal.str op), (§"path", .str (absPath comps)), (§"value", v)]) §"value" = some v := by
    simp [field, lookupD]
  have hbare : bareValue m = false := by simp [bareValue, hkey]
  have hch : ∃ root', r' = edited r root' ∧ ChildrenChanged (Becomes new) pos r.root root' := by
    rcases hop with rfl | rfl
    · have := C10_existing E r _ v comps pos m hne hc hp hvl hdash hl hm (Or.inl hnum)
      rw [hbare, hg] at this
      obtain ⟨root', he, hch⟩ := this
      rw [h] at he; injection he with _ he
      exact ⟨root', he, hch⟩
    · have := C12_replace E r _ v comps pos m hne hc hp hvl hl hm (Or.inl hnum)
      rw [hbare, hg] at this
      obtain ⟨root', he, hch⟩ := this
      rw [h] at he; injection he with _ he
      exact ⟨root', he, hch⟩
  obtain ⟨root', rfl, hch⟩ := hch
  have hmc : m.isComment = false := locate_real hne hl hm
  have hcom : ∀ m m', nodeAt r.root pos = some m → nodeAt root' pos = some m' → m'.isComment = m.isComment := by
    intro m1 m2 h1 h2
    rw [hm] at h1; injection h1 with h1; subst h1
    obtain ⟨m3, b, h3, h4, h5⟩ := changed_node hch
    rw [hm] at h3; injection h3 with h3; subst h3
    rw [h4] at h2; injection h2 with h2; subst h2
    simp only [Becomes] at h5
    subst h5
    rw [hmc]
    cases b with
    | nil => exact absurd rfl hnew
    | cons a l => simp [Node.isComment]
  obtain ⟨m2, b, hl1, hl2, hw2⟩ := lookup_changed_below hch hcom hl
  have hmm : m2 = m := by
    rw [← locate_lookup, hl] at hl1; simp only [Option.bind_some, hm] at hl1; injection hl1 with h; exact h.symm
  subst hmm
  simp only [Becomes] at hw2
  subst hw2
  exact hl2

/-- The tree of a text without empty lines between the entries (as the YAML library writes it). -/
theorem parseTree_compact (E : Env) (ds : List Doc) (h : OkL E ds) (hne : ds ≠ []) (ht : endsInTextL false ds = false) :
    parseTree E (joinStr §"\n" (linesL 0 ds) ++ §"\n") = .ok (Doc.root ds) := by
  have hl : ∀ l ∈ linesL 0 ds, TextLine l := textLine_linesL E ds 0 h
  have hne' : linesL 0 ds ≠ [] := by
    cases ds with
    | nil => exact absurd rfl hne
    | cons d ds => simp [linesL_cons, lines]
  have hs := splitlines_join_nl (linesL 0 ds) (fun l hm => (hl l hm).1) hne'
  have hj : ∀ d, d ≠ '\n' → (∀ l ∈ linesL 0 ds, inStr ['{', d] l = false) →
      inStr ['{', d] (joinStr §"\n" (linesL 0 ds) ++ §"\n") = false := fun d hd hx =>
    inStr_append_nl hd (inStr_join hd _ hx) (inStr_nil d)
  have h0 : At (⟨{ value := .str rootValue }, [[]], 0, []⟩ : Build) [[]] := ⟨rfl, List.suffix_refl _⟩
  obtain ⟨b', f', _, he, hb'⟩ := read_docs E ds h ⟨{ value := .str rootValue }, [[]], 0, []⟩ [] [] { value := .str rootValue } []
    h0.ready rfl (fun hx => by rw [ht] at hx; cases hx) (linesL 0 ds).length (by simp)
  have hsub := sub_defs [] (by simp) (joinStr §"\n" (linesL 0 ds) ++ §"\n")
    ⟨hj '%' (by decide) (fun l hm => (hl l hm).2.1), hj '#' (by decide) (fun l hm => (hl l hm).2.2)⟩
  have hsub' : Regex.jinjaV0Line.sub (fun _ => []) (joinStr §"\n" (linesL 0 ds) ++ §"\n") = joinStr §"\n" (linesL 0 ds) ++ §"\n" := hsub
  unfold parseTree
  rw [hsub', hs]
  rw [List.append_nil] at he
  simp only [List.length_nil] at he
  have hstop : buildLoop E f' [] b' = .ok b' := by cases f' <;> rfl
  simp only [he, hstop, bind, Except.bind, hb'.1]
  simp [updateAt, addKids, Doc.root, rootValue]

theorem locate_missing {ds : List Doc} {k : Str} (hk : isDigitS k = false) (h : ∀ d ∈ ds, d.node.value ≠ .str k) :
    locate (Doc.root ds) [k] = none := by
  rw [locate_single, childIdx_name hk]
  have : (Doc.root ds).children.findIdx? (fun c => pyEq c.value (.str k)) = none := by
    rw [List.findIdx?_eq_none_iff]
    intro c hc
    simp only [Doc.root, nodes_map, List.mem_map] at hc
    obtain ⟨d, hd, rfl⟩ := hc
    cases hp : pyEq d.node.value (.str k) with
    | false => rfl
    | true => exact absurd (pyEq_str.1 hp) (h d hd)
  rw [this]
  rfl

/-- What a value becomes whose YAML text is laid out like a document. -/
theorem newNodes_document (E : Env) (v : PyVal) (hv : v.isPrimitive = false) (ds : List Doc) (h : OkL E ds) (hne : ds ≠ [])
    (ht : endsInTextL false ds = false) (hd : E.dump v = joinStr §"\n" (linesL 0 ds) ++ §"\n")
    (hs : ∀ d ∈ ds, d.node.value ≠ .str §"schema_version") : newNodes E v = .ok (nodes ds) := by
  have hst : strToStack §"/schema_version" = .ok [rootValue, §"schema_version"] := by decide
  have hg : getValueIn E (Doc.root ds) §"/schema_version" (some (.int 0)) = .ok (.int 0) := by
    unfold getValueIn
    simp only [hst, bind, Except.bind, traverse_locate, locate_missing (by decide) hs, Option.bind_none]
  have hread : (Recipe.ofString E (E.dump v)).map (fun r => r.root.children) = .ok (nodes ds) := by
    rw [hd]
    unfold Recipe.ofString
    simp only [parseTree_compact E ds h hne ht, bind, Except.bind, hg, schemaOf, Except.map]
    rfl
  cases v with
  | list xs => exact hread
  | dict kvs => exact hread
  | sentinel => exact hread
  | _ => cases hv

end Crm
