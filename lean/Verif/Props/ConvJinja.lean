import Verif.Lemmas.ConvJinja
import Verif.Props.ConvPackage

/-!
# Converting a recipe: variables and substitutions (C83)
-/

namespace Crm
open Spec Act

/-- C83: what becomes of the variables is defined for every list of variables, and in only one way. -/
theorem C83_context_unique (vars : List (Str × PyVal)) :
    ∃ ctx bad, ContextOf vars ctx bad ∧ ∀ ctx' bad', ContextOf vars ctx' bad' → ctx' = ctx ∧ bad' = bad := by
  induction vars with
  | nil => exact ⟨[], [], .nil, fun _ _ h => by cases h; exact ⟨rfl, rfl⟩⟩
  | cons nv vars ih =>
    obtain ⟨ctx, bad, h, hu⟩ := ih
    obtain ⟨name, v⟩ := nv
    cases v with
    | str s =>
      by_cases hs : UsesFunction s
      · refine ⟨_, _, .expression hs h, fun _ _ h' => ?_⟩
        cases h' with
        | expression _ h' => obtain ⟨rfl, rfl⟩ := hu _ _ h'; exact ⟨rfl, rfl⟩
        | text hn _ => exact absurd hs hn
        | unsupported hv _ => simp at hv
      · refine ⟨_, _, .text hs h, fun _ _ h' => ?_⟩
        cases h' with
        | expression hn _ => exact absurd hn hs
        | text _ h' => obtain ⟨rfl, rfl⟩ := hu _ _ h'; exact ⟨rfl, rfl⟩
        | unsupported hv _ => simp at hv
    | int i =>
      refine ⟨_, _, .int h, fun _ _ h' => ?_⟩
      cases h' with
      | int h' => obtain ⟨rfl, rfl⟩ := hu _ _ h'; exact ⟨rfl, rfl⟩
      | unsupported hv _ => simp at hv
    | flt i =>
      refine ⟨_, _, .flt h, fun _ _ h' => ?_⟩
      cases h' with
      | flt h' => obtain ⟨rfl, rfl⟩ := hu _ _ h'; exact ⟨rfl, rfl⟩
      | unsupported hv _ => simp at hv
    | bool i =>
      refine ⟨_, _, .bool h, fun _ _ h' => ?_⟩
      cases h' with
      | bool h' => obtain ⟨rfl, rfl⟩ := hu _ _ h'; exact ⟨rfl, rfl⟩
      | unsupported hv _ => simp at hv
    | none | sentinel | list l | dict d =>
      refine ⟨_, _, .unsupported (by simp) h, fun _ _ h' => ?_⟩
      cases h' with
      | unsupported _ h' => obtain ⟨rfl, rfl⟩ := hu _ _ h'; exact ⟨rfl, rfl⟩

/-- C83: the variables of a V0 recipe become the `context` section, the version of the format is added, and in every value
that holds a substitution each `{{` gets its `$`; nothing else in the tree changes, and no message is given but those
about the variables.  This holds in whatever order the substitutions are visited.  Missing: a variable that is defined by
the name of another one keeps its meaning, see the last theorem. -/
theorem C83_jinja_partial {E : Env} {W : ConvWorld} (hW : ∀ l, (W.order l).Perm l) {c : Conv} {n : Node} {ks ks' : List Node}
    (h : Section c [] [] n ks) (hne : ks ≠ []) (hn : n.value ≠ .sentinel) (hvars : (c.v1.vars.map (·.1)).Nodup)
    {ctx : List (Str × PyVal)} {bad : List Str} (hctx : ContextOf c.v1.vars ctx bad) (hput : HeadPut E ctx ks ks')
    {es : List NodeEdit} (hes : SubstitutionEdits E { c.v1 with root := { n with children := ks' } } es) :
    ∃ c', upgradeJinja E W c = (.ok (), c') ∧ c'.self = c.self ∧ c'.v1.root = putNodes es { n with children := ks' } ∧
      c'.v1.init = c.v1.init ∧ c'.v1.schema = c.v1.schema ∧ c'.v1.vars = c.v1.vars ∧
      c'.msgs = (contextMessages ctx bad).foldl (fun t m => t.add m.1 m.2) c.msgs := by
  have hloop := contextLoop_says (comps := []) (pos := []) (n := n) (ks := ks) hctx [] hvars (by simp)
  rw [List.nil_append] at hloop
  obtain ⟨ks1, hp1, hp2⟩ : ∃ ks1, (if ctx = [] then ks1 = ks else Put E §"context" (.dict ctx) ks ks1) ∧
      Put E §"schema_version" (.int 1) ks1 ks' := by
    cases hput with
    | without hc hp => exact ⟨ks, by rw [if_pos hc], hp⟩
    | «with» hc h1 h2 => exact ⟨_, by rw [if_neg hc]; exact h1, h2⟩
  have hne1 : ks1 ≠ [] := by
    split at hp1
    · exact hp1 ▸ hne
    · exact hp1.ne_nil hne
  obtain ⟨c1, e1, b1, s1⟩ := hloop c h
  obtain ⟨c2, e2, b2, s2⟩ := addContext_says hn hne hp1 c1 s1
  obtain ⟨c3, e3, b3, s3⟩ := put_at_top (E := E) hn hne1 (x := §"schema_version") (by decide) (by simp) hp2 c2 s2
  have hroot : c3.v1.root = { n with children := ks' } := by simpa [nodeAt] using s3.node
  have hes3 : SubstitutionEdits E c3.v1 es := by
    refine ⟨by rw [hroot]; exact hes.places, hes.apart, ?_, ?_⟩
    · intro path; rw [hes.all path, hroot, Recipe.listValuePaths, Recipe.listValuePaths, hroot]
    · intro e he
      obtain ⟨s, h1, h2⟩ := hes.texts e he
      refine ⟨s, ?_, h2⟩
      rw [← h1, Recipe.getValue, Recipe.getValue, hroot]
      rfl
  obtain ⟨c4, e4, o4, r4, i4, sc4, v4, m4⟩ := substitutions_run hW hes3
  have hb := (b1.trans b2).trans b3
  refine ⟨c4, ?_, o4.trans hb.original, by rw [r4, hroot], i4.trans hb.rest.1, sc4.trans hb.rest.2.1, v4.trans hb.rest.2.2, ?_⟩
  · unfold upgradeJinja
    simp only [Bind.bind, Act.bind, ask]
    rw [e1]
    simp only
    rw [e2]
    simp only
    rw [show addOp §"/schema_version" (.int 1) = addOp (absPath [§"schema_version"]) (.int 1) from rfl, e3]
    exact e4
  · rw [m4, hb.messages]
    congr 1
    simp [contextMessages]

/-- Substitution edits, from a list of the paths. -/
theorem substitutionEdits_of {E : Env} {r : Recipe} {es : List NodeEdit} (h1 : ∀ e ∈ es, e.At r.root) (h2 : Independent es)
    (h3 : r.search Regex.jinjaV0Sub.test = es.map fun e => absPath e.comps)
    (h4 : ∀ e ∈ es, ∃ s, r.getValue E (absPath e.comps) = .ok (.str s) ∧ Overwrites E (.str (dollared false s)) e) :
    SubstitutionEdits E r es := by
  refine ⟨h1, h2, fun path => ?_, h4⟩
  rw [← h3, C64_search, pathsOf]
  simp only [List.mem_map, List.mem_filter, substitution_iff]
  constructor
  · rintro ⟨⟨n, p⟩, ⟨h1, h2⟩, rfl⟩; exact ⟨n, h1, h2⟩
  · rintro ⟨n, h1, h2⟩; exact ⟨(n, path), ⟨h1, h2⟩, rfl⟩

/-! A recipe with two variables, one of which is an expression, and two substitutions; the expression becomes a third. -/

private def exJ : Conv :=
  ⟨Toy.recipe "{% set name = \"Foo\" %}\n{% set low = name | lower %}\npackage:\n  name: {{ name }}\nreqs:\n  - {{ name }}-x\n",
   Toy.recipe "{% set name = \"Foo\" %}\n{% set low = name | lower %}\npackage:\n  name: {{ name }}\nreqs:\n  - {{ name }}-x\n", []⟩

private def topN : Node := ⟨.str §"/", [], [], false, .no, false⟩
private def jk : List Node :=
  [kN §"package" [kN §"name" [vN (.str §"{{ name }}")]], kN §"reqs" [lN (.str §"{{ name }}-x")]]
private def jc : List (Str × PyVal) := [(§"name", .str §"Foo"), (§"low", .str §"{{name | lower}}")]
private def jk' : List Node := (jk ++ [kN §"context" [kN §"name" [vN (.str §"Foo")], kN §"low" [vN (.str §"{{name | lower}}")]]]) ++
  [kN §"schema_version" [vN (.int 1)]]
private def je : List NodeEdit :=
  [⟨[§"package", §"name"], [0, 0], kN §"name" [vN (.str §"{{ name }}")], kN §"name" [vN (.str §"${{ name }}")]⟩,
   ⟨[§"reqs", §"0"], [1, 0], lN (.str §"{{ name }}-x"), lN (.str §"${{ name }}-x")⟩,
   ⟨[§"context", §"low"], [2, 1], kN §"low" [vN (.str §"{{name | lower}}")], kN §"low" [vN (.str §"${{name | lower}}")]⟩]

example : ∃ c', upgradeJinja Toy.env exWorld exJ = (.ok (), c') ∧ c'.self = exJ.self ∧
    c'.v1.root = putNodes je { topN with children := jk' } ∧
    c'.v1.init = exJ.v1.init ∧ c'.v1.schema = exJ.v1.schema ∧ c'.v1.vars = exJ.v1.vars ∧
    c'.msgs = (contextMessages jc []).foldl (fun t m => t.add m.1 m.2) exJ.msgs := by
  have hv : exJ.v1.vars = [(§"name", .str §"Foo"), (§"low", .str §"name | lower")] := by decide +kernel
  refine C83_jinja_partial (n := topN) (ks := jk) (ks' := jk') (by intro l; exact .refl l) (by constructor <;> decide +kernel) (by decide) (by decide)
    (by rw [hv]; decide) (by
      rw [hv]
      refine .text (fun h => ?_) (.expression ?_ .nil)
      · rw [← functions_iff] at h; revert h; decide
      · rw [← functions_iff]; decide)
    (.with (by decide) (.append (by decide) (by decide +kernel)) (.append (by decide) (by decide +kernel))) ?_
  refine substitutionEdits_of (by decide +kernel) (by decide) (by decide +kernel) ?_
  intro e he
  simp only [je, List.mem_cons, List.not_mem_nil, or_false] at he
  rcases he with rfl | rfl | rfl
  · exact ⟨§"{{ name }}", by decide +kernel, .value (ns := [vN (.str §"${{ name }}")]) (by decide) (by decide) (by decide +kernel) rfl⟩
  · exact ⟨§"{{ name }}-x", by decide +kernel, .element (ns := [vN (.str §"${{ name }}-x")]) (by decide) (by decide) (by decide +kernel) rfl⟩
  · exact ⟨§"{{name | lower}}", by decide +kernel,
      .value (ns := [vN (.str §"${{name | lower}}")]) (by decide) (by decide) (by decide +kernel) rfl⟩

/-- The tree of the example afterwards. -/
example : putNodes je { topN with children := jk' } = { topN with children :=
    [kN §"package" [kN §"name" [vN (.str §"${{ name }}")]], kN §"reqs" [lN (.str §"${{ name }}-x")],
     kN §"context" [kN §"name" [vN (.str §"Foo")], kN §"low" [vN (.str §"${{name | lower}}")]],
     kN §"schema_version" [vN (.int 1)]] } := by decide

/-- C83 is violated: a variable that names another variable becomes a text, the name of that variable, and nothing is
said about it. -/
theorem C83_reference_violation :
    converted Toy.env exWorld §"{% set name = \"foo\" %}\n{% set n2 = name %}\npackage:\n  name: {{ n2 }}\n" =
      .ok (§"schema_version: 1\n\ncontext:\n  name: foo\n  n2: name\n\npackage:\n  name: ${{ n2 }}\n", []) := by decide +kernel

end Crm
