import Verif.Spec.ConvEnd
import Verif.Lemmas.ConvSelectors
import Verif.Props.Convert

/-!
# Converting a recipe: the comments that are lost (C89), the order of the sections
-/

namespace Crm
open Spec Act

theorem insertD_keys_append {α : Type} (k : Str) (v : α) (t : List (Str × α)) :
    (insertD k v t).map (·.1) = if k ∈ t.map (·.1) then t.map (·.1) else t.map (·.1) ++ [k] := by
  induction t with
  | nil => simp [insertD]
  | cons e t ih =>
    obtain ⟨k', v'⟩ := e
    simp only [insertD]
    by_cases h : k' = k
    · simp [h]
    · have h' : ¬ k = k' := fun e => h e.symm
      rw [if_neg h]
      simp only [List.map_cons, ih, List.mem_cons, h', false_or]
      split <;> simp

theorem foldl_insertD_firsts {α : Type} (l : List (Str × α)) (init : List (Str × α)) :
    (l.foldl (fun t kv => insertD kv.1 kv.2 t) init).map (·.1) =
      (l.map (·.1)).foldl (fun acc x => if x ∈ acc then acc else acc ++ [x]) (init.map (·.1)) := by
  induction l generalizing init with
  | nil => rfl
  | cons e es ih =>
    rw [List.foldl_cons, ih, insertD_keys_append]
    rfl

theorem lookupD_of_mem {α : Type} {t : List (Str × α)} (hn : (t.map (·.1)).Nodup) {e : Str × α} (he : e ∈ t) :
    lookupD e.1 t = some e.2 := by
  induction t with
  | nil => cases he
  | cons x t ih =>
    obtain ⟨k, v⟩ := x
    simp only [List.map_cons, List.nodup_cons] at hn
    simp only [lookupD]
    rcases List.mem_cons.1 he with rfl | he
    · simp
    · have : k ≠ e.1 := fun h => hn.1 (h ▸ List.mem_map.2 ⟨e, he, rfl⟩)
      rw [if_neg this]
      exact ih hn.2 he

/-- The table is the only one that is made from the lines. -/
theorem tableOf_comments {r : Recipe} {tbl : List (Str × Str)} (h : TableOf (noted r.root) tbl) : r.getCommentsTable = tbl := by
  have hk : r.getCommentsTable.map (·.1) = tbl.map (·.1) := by
    rw [commentsTable_eq, foldl_insertD_firsts, C57_dedupe_unique _ _ h.1.1 h.1.2.2]
    unfold dedupe
    refine congrArg (fun f => List.foldl f [] _) ?_
    funext acc x
    by_cases hx : x ∈ acc <;> simp [hx]
  have hl : ∀ k, lookupD k r.getCommentsTable = lookupD k tbl := by
    intro k
    rw [(C74_table r k).1]
    by_cases hm : k ∈ tbl.map (·.1)
    · obtain ⟨e, he, rfl⟩ := List.mem_map.1 hm
      rw [h.2 e he]
      exact (lookupD_of_mem h.1.2.1 he).symm
    · rw [(lookupD_none k tbl).2 hm]
      have : k ∉ (noted r.root).map (·.1) := fun hx => hm ((h.1.1 k).2 hx)
      rw [List.find?_eq_none.2]
      · rfl
      · intro x hx he
        apply this
        rw [List.mem_reverse] at hx
        simp only [decide_eq_true_eq] at he
        exact he ▸ List.mem_map.2 ⟨x, hx, rfl⟩
  have hn := (C74_table r []).2
  rw [table_of_lookups r.getCommentsTable [] hn, table_of_lookups tbl [] (hk ▸ hn), hk]
  simp only [hl]

/-! ## The report -/

theorem containsValue_path {r : Recipe} {comps : List Str} (hne : comps ≠ []) (hc : ∀ x ∈ comps, Component x) :
    r.containsValue (absPath comps) = .ok (lookup r.root comps).isSome := by
  unfold Recipe.containsValue
  simp only [strToStack_absPath comps hne hc, Bind.bind, Except.bind, traverse_locate]
  rw [← locate_lookup]
  cases hl : locate r.root comps with
  | none => rfl
  | some p => obtain ⟨m, hm⟩ := locate_valid hl; simp [hm]

theorem comments_isNone (r : Recipe) (path : Str) :
    (lookupD path r.getCommentsTable).isNone = (noted r.root).all fun x => x.1 ≠ path := by
  rw [(C74_table r path).1, Option.isNone_map, Bool.eq_iff_iff]
  simp [List.find?_eq_none]

/-- C89, the report itself: it names exactly the comments whose lines are gone, and changes nothing else. -/
theorem C89_report (c : Conv) (old : List (List Str × Str)) (hp : ∀ e ∈ old, e.1 ≠ [] ∧ ∀ x ∈ e.1, Component x) :
    reportComments (old.map fun e => (absPath e.1, e.2)) c = (.ok (), { c with
      msgs := (old.filter fun e => lineGone c.v1.root e.1).foldl
        (fun t e => t.add .warning (§"Could not relocate comment: " ++ e.2)) c.msgs }) := by
  have hloop : ∀ (l : List (List Str × Str)) (c : Conv), (∀ e ∈ l, e.1 ≠ [] ∧ ∀ x ∈ e.1, Component x) →
      each (fun (e : Str × Str) => do
        if !(← hasPath e.1) then say .warning (§"Could not relocate comment: " ++ e.2)) (l.map fun e => (absPath e.1, e.2)) c =
      (.ok (), { c with
        msgs := (l.filter fun e => (lookup c.v1.root e.1).isNone).foldl
          (fun t e => t.add .warning (§"Could not relocate comment: " ++ e.2)) c.msgs }) := by
    intro l
    induction l with
    | nil => intro c _; rfl
    | cons e l ih =>
      intro c hl
      obtain ⟨h1, h2⟩ := hl e (by simp)
      have hrest : ∀ e ∈ l, e.1 ≠ [] ∧ ∀ x ∈ e.1, Component x := fun x hx => hl x (by simp [hx])
      simp only [List.map_cons, each, Bind.bind, Act.bind, hasPath, ask, containsValue_path h1 h2]
      have := fun c => ih c hrest
      simp only [Bind.bind, hasPath] at this
      cases hx : (lookup c.v1.root e.1) with
      | none =>
        simp only [Option.isSome_none, Bool.not_false, if_true, say, this]
        rw [List.filter_cons_of_pos (by simp [hx])]
        rfl
      | some m =>
        simp only [Option.isSome_some, Bool.not_true, Bool.false_eq_true, if_false, act_pure, this]
        rw [List.filter_cons_of_neg (by simp [hx])]
  have hf : ((old.map fun e => (absPath e.1, e.2)).filter fun e => (lookupD e.1 c.v1.getCommentsTable).isNone) =
      (old.filter fun e => (noted c.v1.root).all fun x => x.1 ≠ absPath e.1).map fun e => (absPath e.1, e.2) := by
    rw [List.filter_map]
    congr 1
    apply List.filter_congr
    intro e _
    simp only [Function.comp_apply, comments_isNone]
  unfold reportComments
  show each _ ((old.map fun e => (absPath e.1, e.2)).filter fun e => (lookupD e.1 c.v1.getCommentsTable).isNone) c = _
  rw [hf]
  have := hloop (old.filter fun e => (noted c.v1.root).all fun x => x.1 ≠ absPath e.1) c (fun e he => hp e (List.mem_filter.1 he).1)
  rw [this, List.filter_filter]
  rfl

/-! ## The last steps -/

theorem finish_parts {E : Env} {c c' : Conv} (h : finishV1 E c = (.ok (), c')) :
    c'.msgs = c.msgs ∧ c'.self = c.self ∧ ∃ ks, c'.v1.root = { c.v1.root with children := ks } ∧ Ordered topSections c.v1.root.children ks := by
  unfold finishV1 at h
  obtain ⟨_, c1, h1, h⟩ := Act.bind_ok h
  obtain ⟨_, c2, h2, h⟩ := Act.bind_ok h
  obtain ⟨_, c3, h3, h⟩ := Act.bind_ok h
  have e1 : c1 = { c with v1 := { c.v1 with vars := [] } } := by
    simp only [edit] at h1
    injection h1 with _ h1
    exact h1.symm
  have hs : c1.v1.sortSubtreeKeys §"/" topLevelOrder = .ok { c1.v1 with
      root := { c1.v1.root with children := sortByKey (sortKey topLevelOrder) c1.v1.root.children } } := by
    unfold Recipe.sortSubtreeKeys
    rfl
  have e2 : c2 = { c1 with
      v1 := { c1.v1 with root := { c1.v1.root with children := sortByKey (sortKey topLevelOrder) c1.v1.root.children } } } := by
    simp only [sortKeys, edit, hs] at h2
    injection h2 with _ h2
    exact h2.symm
  have e3 : c3 = { c2 with v1 := { c2.v1 with schema := .v1 } } := by
    simp only [edit] at h3
    injection h3 with _ h3
    exact h3.symm
  have e4 : c'.msgs = c3.msgs ∧ c'.self = c3.self ∧ c'.v1.root = c3.v1.root := by
    simp only [edit, Recipe.initVarsV1] at h
    rcases hg : c3.v1.getValue E §"/context" (some (.dict [])) with e | v
    · rw [hg] at h; cases h
    · rw [hg] at h
      cases v <;> (injection h with _ h; rw [← h]; exact ⟨rfl, rfl, rfl⟩)
  obtain ⟨k1, k2, k3⟩ := e4
  refine ⟨by rw [k1, e3, e2, e1], by rw [k2, e3, e2, e1], sortByKey (sortKey topLevelOrder) c.v1.root.children, by rw [k3, e3, e2, e1], ?_⟩
  obtain ⟨hsmall, _, hinc⟩ := C32_tables_small topLevelOrder (by simp)
  have hn : topLevelOrder.map (·.1) = topSections := by decide
  have := C32_stable_sort (sortKey topLevelOrder) c.v1.root.children
  exact this.of_same_order fun a b => by rw [← hn]; exact sortKey_order hsmall hinc a b

theorem conversion_end {E : Env} {W : ConvWorld} {c c' : Conv} {text : Str} {msgs : MsgTable}
    (h : renderToV1 E W c = (.ok (text, msgs), c')) : ∃ c1 c2, reportComments c.v1.getCommentsTable c1 = (.ok (), c2) ∧
      finishV1 E c2 = (.ok (), c') ∧ msgs = c'.msgs := by
  obtain ⟨_, c1, h1, h2⟩ := Act.bind_ok h
  injection h2 with h2 h3
  injection h2 with h2
  injection h2 with _ h2
  subst h3
  unfold convertSteps at h1
  obtain ⟨old, c0, h0, h1⟩ := Act.bind_ok h1
  injection h0 with h0 _
  injection h0 with h0
  subst h0
  iterate 10
    obtain ⟨_, c0, _, h1⟩ := Act.bind_ok h1
  obtain ⟨_, ce, he, h1⟩ := Act.bind_ok h1
  exact ⟨_, ce, he, h1, h2.symm⟩

/-- C79: the sections of a converted recipe stand in the order of the format, comment lines first and unknown sections
last. -/
theorem C79_sections_ordered (E : Env) (W : ConvWorld) (c c' : Conv) (text : Str) (msgs : MsgTable)
    (h : renderToV1 E W c = (.ok (text, msgs), c')) :
    c'.v1.root.children.Pairwise fun a b => placeIn topSections a ≤ placeIn topSections b := by
  obtain ⟨_, _, _, h2, _⟩ := conversion_end h
  obtain ⟨_, _, ks, h3, h4⟩ := finish_parts h2
  rw [h3]
  exact h4.sorted

/-- C89: of the comments in the table, a conversion reports exactly those whose line is gone when all sections have been
converted; these reports are its last messages.  `last` is the tree at this time: the result is `last` with its sections
put into order. -/
theorem C89_gone_lines_partial (E : Env) (W : ConvWorld) (c c' : Conv) (text : Str) (msgs : MsgTable)
    (h : renderToV1 E W c = (.ok (text, msgs), c')) (old : List (List Str × Str))
    (hold : TableOf (noted c.v1.root) (old.map fun e => (absPath e.1, e.2)))
    (hp : ∀ e ∈ old, e.1 ≠ [] ∧ ∀ x ∈ e.1, Component x) :
    ∃ (last : Node) (before : MsgTable),
      (∃ ks, c'.v1.root = { last with children := ks } ∧ Ordered topSections last.children ks) ∧
      msgs = (old.filter fun e => lineGone last e.1).foldl
        (fun t e => t.add .warning (§"Could not relocate comment: " ++ e.2)) before := by
  obtain ⟨c1, c2, h1, h2, h3⟩ := conversion_end h
  rw [tableOf_comments hold, C89_report c1 old hp] at h1
  injection h1 with _ h1
  obtain ⟨g1, _, ks, g2, g3⟩ := finish_parts h2
  subst h1
  exact ⟨c1.v1.root, c1.msgs, ⟨ks, g2, g3⟩, by rw [h3, g1]⟩

/-! A recipe with two comments: one line is renamed, the other stays. -/

private def eText : Str := §"about:\n  home: x  # gone\n  license: MIT  # stays\n"

example : ∃ c c' text msgs, newConv Toy.env eText = .ok c ∧ renderToV1 Toy.env exWorld c = (.ok (text, msgs), c') ∧
    msgs.get .warning = [§"Could not relocate comment: # gone"] ∧
    ∃ (last : Node) (before : MsgTable),
      (∃ ks, c'.v1.root = { last with children := ks } ∧ Ordered topSections last.children ks) ∧
      msgs = (([([§"about", §"home"], §"# gone"), ([§"about", §"license"], §"# stays")] : List (List Str × Str)).filter
        fun e => lineGone last e.1).foldl (fun t e => t.add .warning (§"Could not relocate comment: " ++ e.2)) before := by
  have hroot : (newConv Toy.env eText).map (fun c => noted c.v1.root) =
      .ok [(§"/about/home", §"# gone"), (§"/about/home", §"# gone"), (§"/about/license", §"# stays"), (§"/about/license", §"# stays")] := by
    decide +kernel
  have hrun : (newConv Toy.env eText).bind (fun c => (renderToV1 Toy.env exWorld c).1.map fun x => x.2.get .warning) =
      .ok [§"Could not relocate comment: # gone"] := by decide +kernel
  cases hc : newConv Toy.env eText with
  | error e => rw [hc] at hroot; cases hroot
  | ok c =>
    rw [hc] at hroot hrun
    injection hroot with hroot
    simp only [Except.bind] at hrun
    rcases hr : renderToV1 Toy.env exWorld c with ⟨o, c'⟩
    rw [hr] at hrun
    cases o with
    | error e => cases hrun
    | ok x =>
      obtain ⟨text, msgs⟩ := x
      injection hrun with hrun
      refine ⟨c, c', text, msgs, rfl, hr, hrun, ?_⟩
      refine C89_gone_lines_partial Toy.env exWorld c c' text msgs hr
        [([§"about", §"home"], §"# gone"), ([§"about", §"license"], §"# stays")] ?_ (by decide)
      dsimp only at hroot
      rw [hroot]
      refine ⟨⟨?_, by decide, by decide⟩, by decide⟩
      intro x
      have h1 : (absPath [§"about", §"home"]) = §"/about/home" := by decide
      have h2 : (absPath [§"about", §"license"]) = §"/about/license" := by decide
      simp only [List.map_cons, List.map_nil, List.mem_cons, List.not_mem_nil, or_false, h1, h2]
      constructor
      · rintro (h | h) <;> simp [h]
      · rintro (h | h | h | h) <;> simp [h]

/-- C89 is violated: a value with a substitution loses the comment behind it, and nothing is said about it. -/
theorem C89_substitution_violation :
    converted Toy.env exWorld §"{% set name = \"foo\" %}\nreqs:\n  - {{ name }}  # keep\n" =
      .ok (§"schema_version: 1\n\ncontext:\n  name: foo\n\nreqs:\n  - ${{ name }}\n", []) := by decide +kernel

/-- C89 is violated: a list element with a selector loses the rest of its comment, and nothing is said about it. -/
theorem C89_selector_violation :
    converted Toy.env exWorld §"reqs:\n  - a  # [win] keep this\n" =
      .ok (§"schema_version: 1\n\nreqs:\n  - if: win\n    then: a\n", []) := by decide +kernel

end Crm
