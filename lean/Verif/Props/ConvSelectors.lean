import Verif.Lemmas.ConvSelectors
import Verif.Props.ConvPackage
import Verif.Props.Open

/-!
# Converting a recipe: selectors (C82)
-/

namespace Crm
open Spec Act

/-- C82: the lines that carry selectors are taken up selector by selector, in the order in which the selectors first
appear, and for one selector from the top of the recipe to its end.  A list element becomes an `if` with its `then`; a
truth value becomes the condition, and what else its comment said is kept; a key with something below it is passed over;
every other line is reported.  Nothing else in the tree changes, and nothing else is said.  Missing: lines inside one
another, equal keys, and comments of other shapes; the theorems at the end show that the claim fails for some of them. -/
theorem C82_selectors_partial {E : Env} {text : Str} {c : Conv} (h : newConv E text = .ok c) (h1 : oneLineComments c.v1.root)
    {order : List Str} (ho : FirstOccurrences (selectorsOf c.v1.root) order) {es : List NodeEdit} {says : List (Category × Str)}
    (hs : SelectorSteps E (linesWith c.v1.root order) es says) (ha : ∀ e ∈ es, e.At c.v1.root) (hi : Independent es) :
    ∃ c', upgradeSelectors E c = (.ok (), c') ∧ c'.self = c.self ∧ c'.v1.root = putNodes es c.v1.root ∧
      c'.v1.init = c.v1.init ∧ c'.v1.schema = c.v1.schema ∧ c'.v1.vars = c.v1.vars ∧
      c'.msgs = says.foldl (fun t m => t.add m.1 m.2) c.msgs := by
  have htbl : c.v1.selTbl = rebuildSelectors c.v1.root := by
    unfold newConv at h
    cases hr : Recipe.ofString E text with
    | error e => rw [hr] at h; cases h
    | ok r =>
      rw [hr] at h
      simp only [Bind.bind, Except.bind] at h
      cases hv : Recipe.ofString E r.render with
      | error e => rw [hv] at h; cases h
      | ok v =>
        rw [hv] at h
        injection h with h
        obtain ⟨_, _, _, _, _, hroot, _, _, hsel, _⟩ := ofString_parts hv
        rw [← h, hroot]
        exact hsel
  rw [← selTable_lines h1 ho, ← htbl] at hs
  have hl : c.v1.selTbl.flatMap (fun entry => entry.2.map fun i => (entry.1, i.node, stackToStr i.path)) =
      (c.v1.selTbl.flatMap fun entry => entry.2.map fun i => (entry.1, i)).map fun si => (si.1, si.2.node, stackToStr si.2.path) := by
    rw [List.map_flatMap]
    simp only [List.map_map]
    rfl
  rw [hl] at hs
  obtain ⟨c', g1, g⟩ := selectors_loop _ es says c hs ha hi
  refine ⟨c', ?_, g⟩
  rw [← each_flatten] at g1
  exact g1

/-! A recipe with a switch, a line that is reported, a key that is passed over and two list elements. -/

private def sText : Str :=
  §"build:\n  skip: true  # [py27] no\n  number: 0  # [osx]\n  script:  # [unix]\n    - a\n    - b\nreqs:\n  - x  # [py27]\n  - y  # [unix]\n"
private def cc (c : Str) (n : Node) : Node := { n with comment := c }
private def sRoot : Node := ⟨.str §"/", [], [
  kN §"build" [cc §"# [py27] no" (kN §"skip" [cc §"# [py27] no" (vN (.bool true))]),
    cc §"# [osx]" (kN §"number" [cc §"# [osx]" (vN (.int 0))]),
    cc §"# [unix]" (kN §"script" [lN (.str §"a"), lN (.str §"b")])],
  kN §"reqs" [cc §"# [py27]" (lN (.str §"x")), cc §"# [unix]" (lN (.str §"y"))]], false, .no, false⟩
private def py27 : Str := §"match(python, \"==2.7\")"
private def ifThen (c t : Str) : Node := ⟨.sentinel, [], [kN §"if" [vN (.str c)], kN §"then" [vN (.str t)]], true, .no, false⟩
private def sEdits : List NodeEdit :=
  [⟨[§"build", §"skip"], [0, 0], cc §"# [py27] no" (kN §"skip" [cc §"# [py27] no" (vN (.bool true))]),
      cc §"# no" (kN §"skip" [cc §"# no" (vN (.str py27))])⟩,
   ⟨[§"reqs", §"0"], [1, 0], cc §"# [py27]" (lN (.str §"x")), ifThen py27 §"x"⟩,
   ⟨[§"reqs", §"1"], [1, 1], cc §"# [unix]" (lN (.str §"y")), ifThen §"unix" §"y"⟩]

example : ∃ c c', newConv Toy.env sText = .ok c ∧ upgradeSelectors Toy.env c = (.ok (), c') ∧
    c'.v1.root = putNodes sEdits sRoot ∧
    c'.msgs = MsgTable.add [] .warning §"A non-list item had a selector at: /build/number" := by
  have hroot : (newConv Toy.env sText).map (fun c => (c.v1.root, c.msgs)) = .ok (sRoot, []) := by decide +kernel
  cases hc : newConv Toy.env sText with
  | error e => rw [hc] at hroot; cases hroot
  | ok c =>
    rw [hc] at hroot
    injection hroot with hroot
    injection hroot with hroot hm
    have h27 : SelectorExpr §"py27" py27 := (C88_selector_text _ _).1 (by decide +kernel)
    have hu : SelectorExpr §"unix" §"unix" := (C88_selector_text _ _).1 (by decide +kernel)
    have hsteps : SelectorSteps Toy.env (linesWith sRoot [§"[py27]", §"[osx]", §"[unix]"]) sEdits
        [(.warning, §"A non-list item had a selector at: /build/number")] := by
      rw [show linesWith sRoot [§"[py27]", §"[osx]", §"[unix]"] =
        [(§"[py27]", cc §"# [py27] no" (kN §"skip" [cc §"# [py27] no" (vN (.bool true))]), §"/build/skip"),
         (§"[py27]", cc §"# [py27] no" (vN (.bool true)), §"/build/skip"),
         (§"[py27]", cc §"# [py27]" (lN (.str §"x")), §"/reqs/0"),
         (§"[osx]", cc §"# [osx]" (kN §"number" [cc §"# [osx]" (vN (.int 0))]), §"/build/number"),
         (§"[osx]", cc §"# [osx]" (vN (.int 0)), §"/build/number"),
         (§"[unix]", cc §"# [unix]" (kN §"script" [lN (.str §"a"), lN (.str §"b")]), §"/build/script"),
         (§"[unix]", cc §"# [unix]" (lN (.str §"y")), §"/reqs/1")] by decide +kernel]
      refine .inner (by decide) (.changed (body := §"py27") (by decide) (by decide)
        (.switch (b := true) (rest := §"# no") (x := vN (.str py27)) rfl (by decide) h27 (by decide) (by decide) (by decide +kernel)
          (by decide) (.text (t := §"no") (by decide) (by decide) (by decide)) (by decide) (by decide)) ?_)
      refine .changed (body := §"py27") (by decide) (by decide) (.element rfl (by decide) h27 (by decide)
        (.element (ns := [kN §"if" [vN (.str py27)], kN §"then" [vN (.str §"x")]]) (by decide) (by decide) (by decide +kernel) rfl) rfl) ?_
      refine .inner (by decide) (.reported (by decide) (by intro b; exact nofun) (by decide) (.inner (by decide) ?_))
      exact .changed (body := §"unix") (by decide) (by decide) (.element rfl (by decide) hu (by decide)
        (.element (ns := [kN §"if" [vN (.str §"unix")], kN §"then" [vN (.str §"y")]]) (by decide) (by decide) (by decide +kernel) rfl) rfl) .nil
    obtain ⟨c', e1, _, e2, _, _, _, e3⟩ := C82_selectors_partial (order := [§"[py27]", §"[osx]", §"[unix]"]) hc
      (by rw [hroot]; intro np hnp; revert np; decide +kernel) (by rw [hroot]; exact ⟨by
        intro x
        rw [show selectorsOf sRoot = [§"[py27]", §"[py27]", §"[osx]", §"[osx]", §"[unix]", §"[py27]", §"[unix]"] by decide +kernel]
        simp only [List.mem_cons, List.not_mem_nil, or_false]
        constructor
        · rintro (h | h | h) <;> simp [h]
        · rintro (h | h | h | h | h | h | h) <;> simp [h], by decide, by decide +kernel⟩) (by rw [hroot]; exact hsteps)
      (by rw [hroot]; decide +kernel) (by decide)
    exact ⟨c, c', rfl, e1, by rw [e2, hroot], by rw [e3, hm]; rfl⟩

/-- What the example looks like afterwards. -/
example : putNodes sEdits sRoot = ⟨.str §"/", [], [
  kN §"build" [cc §"# no" (kN §"skip" [cc §"# no" (vN (.str py27))]),
    cc §"# [osx]" (kN §"number" [cc §"# [osx]" (vN (.int 0))]),
    cc §"# [unix]" (kN §"script" [lN (.str §"a"), lN (.str §"b")])],
  kN §"reqs" [ifThen py27 §"x", ifThen §"unix" §"y"]], false, .no, false⟩ := by decide

/-- C82 is violated: the selector of a key with a list below it stays where it is, and nothing is said about it. -/
theorem C82_list_selector_violation : converted Toy.env exWorld §"build:\n  script:  # [unix]\n    - a\n    - b\n" =
    .ok (§"schema_version: 1\n\nbuild:\n  script:  # [unix]\n    - a\n    - b\n", []) := by decide +kernel

/-- C82 is violated: of two switches with the same key, the first gets the condition of the second, and the second keeps
its selector; nothing is said about it. -/
theorem C82_two_switches_violation : converted Toy.env exWorld §"build:\n  skip: true  # [win]\n  skip: true  # [osx]\n" =
    .ok (§"schema_version: 1\n\nbuild:\n  skip: osx\n  skip: true  # [osx]\n", []) := by decide +kernel

end Crm
