import Verif.Spec.Scan
import Verif.Lemmas.Str
import Verif.Props.Utils

/-!
# C54 and C55: scanning a project for dependencies
-/

namespace Crm
open Spec

section
variable {same : DepData → DepData → Bool}

theorem has_depSetHas (s : List ProjDep) (x : ProjDep) : depSetHas same s x = true ↔ Has same s x := by
  simp [depSetHas, Has, ProjDep.eq, List.any_eq_true]

theorem has_depSetAdd (hs : Equivalence fun a b => same a b = true) (s : List ProjDep) (x y : ProjDep) :
    Has same (depSetAdd same s y) x ↔ Has same s x ∨ (same x.data y.data = true ∧ x.type = y.type) := by
  unfold depSetAdd
  by_cases h : depSetHas same s y = true
  · rw [if_pos h]
    constructor
    · exact Or.inl
    · rintro (h' | ⟨h1, h2⟩)
      · exact h'
      · obtain ⟨z, hz, h3, h4⟩ := (has_depSetHas s y).1 h
        exact ⟨z, hz, hs.trans h1 h3, h2.trans h4⟩
  · rw [if_neg h]
    constructor
    · rintro ⟨z, hz, h1⟩
      rcases List.mem_append.1 hz with hz | hz
      · exact Or.inl ⟨z, hz, h1⟩
      · rw [List.mem_singleton] at hz; subst hz; exact Or.inr h1
    · rintro (⟨z, hz, h1⟩ | h1)
      · exact ⟨z, List.mem_append_left _ hz, h1⟩
      · exact ⟨y, by simp, h1⟩

/-- No two elements are equal. -/
def Once (same : DepData → DepData → Bool) (s : List ProjDep) : Prop :=
  s.Pairwise fun x y => ¬ (same x.data y.data = true ∧ x.type = y.type)

theorem once_depSetAdd (hs : Equivalence fun a b => same a b = true) {s : List ProjDep} (x : ProjDep) (h : Once same s) :
    Once same (depSetAdd same s x) := by
  unfold depSetAdd
  by_cases hx : depSetHas same s x = true
  · rw [if_pos hx]; exact h
  · rw [if_neg hx]
    refine List.pairwise_append.2 ⟨h, List.pairwise_singleton _ _, ?_⟩
    rintro y hy z hz ⟨h1, h2⟩
    rw [List.mem_singleton] at hz
    subst hz
    exact hx ((has_depSetHas s z).2 ⟨y, hy, hs.symm h1, h2.symm⟩)

theorem once_depSetUnion (hs : Equivalence fun a b => same a b = true) {s : List ProjDep} (t : List ProjDep) (h : Once same s) :
    Once same (depSetUnion same s t) := by
  unfold depSetUnion
  induction t generalizing s with
  | nil => exact h
  | cons x t ih => exact ih (once_depSetAdd hs x h)

theorem has_depSetUnion (hs : Equivalence fun a b => same a b = true) (s t : List ProjDep) (x : ProjDep) :
    Has same (depSetUnion same s t) x ↔ Has same s x ∨ Has same t x := by
  unfold depSetUnion
  induction t generalizing s with
  | nil => simp [Has]
  | cons y t ih =>
    rw [List.foldl_cons, ih, has_depSetAdd hs]
    simp [Has, or_assoc]

end

theorem topModule_iff (s m : Str) : topModule s = m ↔ Within s m := by
  unfold topModule Within
  constructor
  · rintro rfl
    cases h : splitChar '.' s with
    | nil => exact absurd h (splitChar_ne_nil _ _)
    | cons p ps =>
      refine ⟨splitChar_no_sep '.' s p (by rw [h]; simp), ?_⟩
      have hj := join_splitChar '.' s
      rw [h] at hj
      cases ps with
      | nil => exact Or.inl hj.symm
      | cons q qs => exact Or.inr ⟨joinStr ['.'] (q :: qs), by rw [← hj]; simp [joinStr]⟩
  · rintro ⟨hm, rfl | ⟨rest, rfl⟩⟩
    · rw [splitChar_of_not_mem _ _ hm]; rfl
    · rw [splitChar_append_sep _ _ hm]; rfl

theorem moduleNames_iff (n : AstNode) (m : Str) : m ∈ moduleNames n ↔ Imports n m := by
  cases n with
  | imp names => simp [moduleNames, Imports, topModule_iff]
  | impFrom f l =>
    cases f with
    | none => simp [moduleNames, Imports]
    | some f => simp [moduleNames, Imports, ← topModule_iff, eq_comm]
  | other => simp [moduleNames, Imports]

theorem correctModule_eq (m : Str) : correctModule m = packageOf m := by
  unfold correctModule packageOf importTable
  simp only [lookupD, eq_comm (b := m)]
  repeat' split
  all_goals first | rfl | (rename_i h; simp_all; done) | simp_all

theorem lower_prefix (s p : Str) : startsWith (lowerS s) p = true ↔ ∃ a b, s = a ++ b ∧ a.map Char.toLower = p := by
  unfold startsWith lowerS
  rw [List.isPrefixOf_iff_prefix]
  constructor
  · rintro ⟨q, hq⟩
    obtain ⟨a, b, h1, h2, _⟩ := List.map_eq_append_iff.1 hq.symm
    exact ⟨a, b, h1, h2⟩
  · rintro ⟨a, b, rfl, h⟩
    exact ⟨b.map Char.toLower, by rw [← h, List.map_append]⟩

theorem lower_suffix (s p : Str) : endsWith (lowerS s) p = true ↔ ∃ a b, s = a ++ b ∧ b.map Char.toLower = p := by
  unfold endsWith lowerS
  rw [List.isPrefixOf_iff_prefix, List.reverse_prefix]
  constructor
  · rintro ⟨q, hq⟩
    obtain ⟨a, b, h1, _, h2⟩ := List.map_eq_append_iff.1 hq.symm
    exact ⟨a, b, h1, h2⟩
  · rintro ⟨a, b, rfl, h⟩
    exact ⟨a.map Char.toLower, by rw [← h, List.map_append]⟩

theorem isTestFile_iff (name : Str) : isTestFile name = true ↔ HoldsTests name := by
  unfold isTestFile HoldsTests
  rw [Bool.or_eq_true, lower_prefix, lower_suffix]

/-- The part of `Needs` about one file. -/
def NeedsIn (S : ScanEnv) (name : Str) (nodes : List AstNode) (x : ProjDep) : Prop :=
  ∃ n ∈ nodes, ∃ m, Imports n m ∧ m ≠ [] ∧ m ∉ S.std ∧ m ∉ S.own ∧
    S.same x.data (depDataFromStr S.M (packageOf m)) = true ∧
    (HoldsTests name ∧ x.type = .tests ∨ ¬ HoldsTests name ∧ x.type = .run)

theorem has_scanModules (S : ScanEnv) (hs : Equivalence fun a b => S.same a b = true) (name : Str) (deps : List ProjDep)
    (modules : List Str) (x : ProjDep) :
    Has S.same (scanModules S name deps modules) x ↔ Has S.same deps x ∨
      ∃ m ∈ modules, m ≠ [] ∧ m ∉ S.std ∧ m ∉ S.own ∧ S.same x.data (depDataFromStr S.M (packageOf m)) = true ∧
        (HoldsTests name ∧ x.type = .tests ∨ ¬ HoldsTests name ∧ x.type = .run) := by
  unfold scanModules
  induction modules generalizing deps with
  | nil => simp
  | cons m ms ih =>
    rw [List.foldl_cons, ih]
    have htype : (x.type = if isTestFile name then DepSection.tests else .run) ↔
        (HoldsTests name ∧ x.type = .tests ∨ ¬ HoldsTests name ∧ x.type = .run) := by
      rw [← isTestFile_iff]
      cases isTestFile name <;> simp
    have hstep : Has S.same (if m = [] ∨ m ∈ S.std ∨ m ∈ S.own then deps
        else depSetAdd S.same deps (newProjDep S.M (correctModule m) (if isTestFile name then .tests else .run))) x ↔
        Has S.same deps x ∨ (m ≠ [] ∧ m ∉ S.std ∧ m ∉ S.own ∧ S.same x.data (depDataFromStr S.M (packageOf m)) = true ∧
          (HoldsTests name ∧ x.type = .tests ∨ ¬ HoldsTests name ∧ x.type = .run)) := by
      by_cases h : m = [] ∨ m ∈ S.std ∨ m ∈ S.own
      · rw [if_pos h]
        constructor
        · exact Or.inl
        · rintro (h' | ⟨h1, h2, h3, _⟩)
          · exact h'
          · rcases h with h | h | h
            · exact absurd h h1
            · exact absurd h h2
            · exact absurd h h3
      · rw [if_neg h, has_depSetAdd hs, correctModule_eq, ← htype]
        simp only [not_or] at h
        simp [newProjDep, h.1, h.2.1, h.2.2]
    rw [hstep]
    simp [or_assoc]

theorem has_scanNodes_from (S : ScanEnv) (hs : Equivalence fun a b => S.same a b = true) (name : Str) (deps : List ProjDep)
    (nodes : List AstNode) (x : ProjDep) :
    Has S.same (nodes.foldl (fun deps n => scanModules S name deps (moduleNames n)) deps) x ↔
      Has S.same deps x ∨ NeedsIn S name nodes x := by
  induction nodes generalizing deps with
  | nil => simp [NeedsIn]
  | cons n ns ih =>
    rw [List.foldl_cons, ih, has_scanModules S hs]
    simp only [moduleNames_iff, NeedsIn, List.mem_cons, exists_eq_or_imp, or_assoc]

theorem has_scanNodes (S : ScanEnv) (hs : Equivalence fun a b => S.same a b = true) (name : Str)
    (nodes : List AstNode) (x : ProjDep) : Has S.same (scanNodes S name nodes) x ↔ NeedsIn S name nodes x := by
  unfold scanNodes
  rw [has_scanNodes_from S hs]
  simp [Has]

theorem has_scanFiles (S : ScanEnv) (hs : Equivalence fun a b => S.same a b = true) (files : List SourceFile)
    (acc : List ProjDep) (tbl : MsgTable) (x : ProjDep) :
    Has S.same (scanFiles S files acc tbl).1 x ↔ Has S.same acc x ∨ Needs S files x.data x.type := by
  unfold scanFiles
  induction files generalizing acc tbl with
  | nil => simp [Needs]
  | cons f fs ih =>
    rw [List.foldl_cons]
    cases hf : f.parsed with
    | error e =>
      simp only
      rw [ih]
      simp [Needs, hf]
    | ok nodes =>
      simp only
      rw [ih, has_depSetUnion hs, has_scanNodes S hs]
      simp only [Needs, List.mem_cons, exists_eq_or_imp, hf, Except.ok.injEq, exists_eq_left', or_assoc]
      rfl

theorem once_scanFiles (S : ScanEnv) (hs : Equivalence fun a b => S.same a b = true) (files : List SourceFile)
    (acc : List ProjDep) (tbl : MsgTable) (h : Once S.same acc) : Once S.same (scanFiles S files acc tbl).1 := by
  unfold scanFiles
  induction files generalizing acc tbl with
  | nil => exact h
  | cons f fs ih =>
    rw [List.foldl_cons]
    cases hf : f.parsed with
    | error e => exact ih _ _ h
    | ok nodes => exact ih _ _ (once_depSetUnion hs _ h)

theorem needs_same (S : ScanEnv) (hs : Equivalence fun a b => S.same a b = true) (files : List SourceFile) {d d' : DepData}
    (t : DepSection) (h : S.same d d' = true) (hn : Needs S files d t) : Needs S files d' t := by
  obtain ⟨f, hf, nodes, hp, n, hm, m, h1, h2, h3, h4, h5, h6⟩ := hn
  exact ⟨f, hf, nodes, hp, n, hm, m, h1, h2, h3, h4, hs.trans (hs.symm h) h5, h6⟩

/-- C54: what a scan reports, for every project and surroundings: exactly `python`, for host and run, and the packages
that are needed, those for tests unless they are needed at run time. -/
theorem C54_reported (S : ScanEnv) (hs : Equivalence fun a b => S.same a b = true) (files : List SourceFile)
    (tbl : MsgTable) (x : ProjDep) : Has S.same (scanPython S files tbl).1 x ↔ Reported S files x := by
  unfold scanPython Reported
  simp only
  rw [has_depSetAdd hs, has_depSetAdd hs]
  have hall : ∀ y, Has S.same (scanFiles S files [] tbl).1 y ↔ Needs S files y.data y.type := by
    intro y; rw [has_scanFiles S hs]; simp [Has]
  have hkept : Has S.same ((scanFiles S files [] tbl).1.filter fun d =>
      !(d.type == .tests && depSetHas S.same (scanFiles S files [] tbl).1 ⟨d.data, .run⟩)) x ↔
      Needs S files x.data x.type ∧ ¬ (x.type = .tests ∧ Needs S files x.data .run) := by
    constructor
    · rintro ⟨y, hy, h1, h2⟩
      obtain ⟨hy, hk⟩ := List.mem_filter.1 hy
      refine ⟨(hall x).1 ⟨y, hy, h1, h2⟩, ?_⟩
      rintro ⟨ht, hr⟩
      have : depSetHas S.same (scanFiles S files [] tbl).1 ⟨y.data, .run⟩ = true :=
        (has_depSetHas _ _).2 ((hall ⟨y.data, .run⟩).2 (needs_same S hs files _ h1 hr))
      rw [this] at hk
      rw [← h2, ht] at hk
      exact absurd hk (by decide)
    · rintro ⟨hn, hk⟩
      obtain ⟨y, hy, h1, h2⟩ := (hall x).2 hn
      refine ⟨y, List.mem_filter.2 ⟨hy, ?_⟩, h1, h2⟩
      cases hc : (y.type == DepSection.tests && depSetHas S.same (scanFiles S files [] tbl).1 ⟨y.data, .run⟩) with
      | false => rfl
      | true =>
        rw [Bool.and_eq_true] at hc
        refine absurd ⟨?_, ?_⟩ hk
        · rw [h2]; exact beq_iff_eq.1 hc.1
        · exact needs_same S hs files _ (hs.symm h1) ((hall ⟨y.data, .run⟩).1 ((has_depSetHas _ _).1 hc.2))
  rw [hkept]
  simp only [newProjDep]
  constructor
  · rintro ((h | ⟨h1, h2⟩) | ⟨h1, h2⟩)
    · exact Or.inr h
    · exact Or.inl ⟨h1, Or.inl h2⟩
    · exact Or.inl ⟨h1, Or.inr h2⟩
  · rintro (⟨h1, h2 | h2⟩ | h)
    · exact Or.inl (Or.inr ⟨h1, h2⟩)
    · exact Or.inr ⟨h1, h2⟩
    · exact Or.inl (Or.inl h)

/-- C54: no dependency is reported twice for the same section. -/
theorem C54_once (S : ScanEnv) (hs : Equivalence fun a b => S.same a b = true) (files : List SourceFile) (tbl : MsgTable) :
    (scanPython S files tbl).1.Pairwise fun x y => ¬ (S.same x.data y.data = true ∧ x.type = y.type) := by
  unfold scanPython
  exact once_depSetAdd hs _ (once_depSetAdd hs _ (List.Pairwise.filter _ (once_scanFiles S hs files [] tbl List.Pairwise.nil)))

/-- C54: the order of the files has no influence on what is reported. -/
theorem C54_order (S : ScanEnv) (hs : Equivalence fun a b => S.same a b = true) (files files' : List SourceFile)
    (tbl tbl' : MsgTable) (h : files.Perm files') (x : ProjDep) :
    Has S.same (scanPython S files tbl).1 x ↔ Has S.same (scanPython S files' tbl').1 x := by
  rw [C54_reported S hs, C54_reported S hs]
  have : ∀ d t, Needs S files d t ↔ Needs S files' d t := by
    intro d t
    unfold Needs
    simp only [h.mem_iff]
  unfold Reported
  rw [this, this]

/-- C54: Python is reported, for host and run, whatever there is in the project. -/
theorem C54_python (S : ScanEnv) (hs : Equivalence fun a b => S.same a b = true) (files : List SourceFile) (tbl : MsgTable) :
    Has S.same (scanPython S files tbl).1 ⟨depDataFromStr S.M §"python", .host⟩ ∧
    Has S.same (scanPython S files tbl).1 ⟨depDataFromStr S.M §"python", .run⟩ :=
  ⟨(C54_reported S hs files tbl _).2 (Or.inl ⟨hs.refl _, Or.inl rfl⟩),
    (C54_reported S hs files tbl _).2 (Or.inl ⟨hs.refl _, Or.inr rfl⟩)⟩

/-- C54: nothing but Python is reported both for run time and for tests.  (The full statement, without `hd`, is false:
`C54_python_for_tests_violation`.) -/
theorem C54_not_also_for_tests_partial (S : ScanEnv) (hs : Equivalence fun a b => S.same a b = true) (files : List SourceFile)
    (tbl : MsgTable) (d : DepData) (hd : S.same d (depDataFromStr S.M §"python") = false)
    (hr : Has S.same (scanPython S files tbl).1 ⟨d, .run⟩) : ¬ Has S.same (scanPython S files tbl).1 ⟨d, .tests⟩ := by
  rw [C54_reported S hs] at hr ⊢
  rcases hr with ⟨h, _⟩ | ⟨hr, _⟩
  · rw [hd] at h; cases h
  · rintro (⟨h, _⟩ | ⟨_, h⟩)
    · rw [hd] at h; cases h
    · exact h ⟨rfl, hr⟩

/-- C54: only host, run and test dependencies are reported. -/
theorem C54_sections (S : ScanEnv) (hs : Equivalence fun a b => S.same a b = true) (files : List SourceFile)
    (tbl : MsgTable) (x : ProjDep) (h : x ∈ (scanPython S files tbl).1) :
    x.type = .run ∨ x.type = .tests ∨ (x.type = .host ∧ S.same x.data (depDataFromStr S.M §"python") = true) := by
  rcases (C54_reported S hs files tbl x).1 ⟨x, h, hs.refl _, rfl⟩ with ⟨h1, h2 | h2⟩ | ⟨⟨_, _, _, _, _, _, _, _, _, _, _, _, h2 | h2⟩, _⟩
  · exact Or.inr (Or.inr ⟨h2, h1⟩)
  · exact Or.inl h2
  · exact Or.inr (Or.inl h2.2)
  · exact Or.inl h2.2

/-- C54: each file that cannot be read or parsed gives one message, and no other message is added or lost. -/
theorem C54_messages (S : ScanEnv) (files : List SourceFile) (tbl : MsgTable) (c : Category) :
    (scanPython S files tbl).2.get c = tbl.get c ++ (if c = .exception then scanMessages files else []) := by
  show (scanFiles S files [] tbl).2.get c = _
  unfold scanFiles
  generalize ([] : List ProjDep) = acc
  induction files generalizing acc tbl with
  | nil => simp [scanMessages]
  | cons f fs ih =>
    rw [List.foldl_cons]
    cases hf : f.parsed with
    | ok nodes =>
      simp only
      rw [ih]
      simp [scanMessages, hf]
    | error e =>
      simp only
      rw [ih]
      have hadd : ∀ m, (tbl.add .exception m).get c = tbl.get c ++ if c = .exception then [m] else [] := by
        intro m
        unfold MsgTable.get
        rw [find_add]
        by_cases hc : c = .exception
        · subst hc
          cases tbl.find .exception <;> simp
        · simp [hc]
      rw [hadd]
      by_cases hc : c = .exception
      · subst hc; simp [scanMessages, hf]
      · simp [hc]

/-- The surroundings of the examples: every text is a package of that name, `os` is part of Python, `app` of the project. -/
def scanEnv : ScanEnv := ⟨fun s => some s, fun a b => decide (a = b), [§"os", §"sys"], [§"app"]⟩

theorem scanEnv_equiv : Equivalence fun a b => scanEnv.same a b = true :=
  ⟨fun _ => decide_eq_true rfl, fun h => decide_eq_true (of_decide_eq_true h).symm,
    fun h h' => decide_eq_true ((of_decide_eq_true h).trans (of_decide_eq_true h'))⟩

/-- C54 (violation): a test file that imports a module called `python` makes Python a test dependency, beside being one
at run time. -/
theorem C54_python_for_tests_violation :
    let r := (scanPython scanEnv [⟨§"src/test_a.py", §"test_a.py", .ok [.imp [§"python"]]⟩] []).1
    Has scanEnv.same r ⟨depDataFromStr scanEnv.M §"python", .run⟩ ∧ Has scanEnv.same r ⟨depDataFromStr scanEnv.M §"python", .tests⟩ := by
  refine ⟨(has_depSetHas _ _).1 ?_, (has_depSetHas _ _).1 ?_⟩ <;> decide +kernel

/-- C54 (violation): a module of the project that is imported relatively is taken for a package. -/
theorem C54_relative_import_violation :
    Has scanEnv.same (scanPython scanEnv [⟨§"src/app/a.py", §"a.py", .ok [.impFrom (some §"helpers") 1]⟩] []).1
      ⟨depDataFromStr scanEnv.M §"helpers", .run⟩ := by
  refine (has_depSetHas _ _).1 ?_
  decide +kernel

example : (scanPython scanEnv
    [⟨§"src/a.py", §"a.py", .ok [.imp [§"os.path", §"yaml"], .other, .impFrom (some §"app.core") 0, .impFrom none 1]⟩,
     ⟨§"src/bad.py", §"bad.py", .error §"invalid syntax"⟩,
     ⟨§"src/Test_a.py", §"Test_a.py", .ok [.imp [§"yaml.nodes", §"pytest"]]⟩] []) =
    ([⟨.spec §"pyyaml" §"pyyaml", .run⟩, ⟨.spec §"pytest" §"pytest", .tests⟩, ⟨.spec §"python" §"python", .host⟩,
      ⟨.spec §"python" §"python", .run⟩],
     [(.exception, [§"Exception encountered while scanning `src/bad.py`: invalid syntax"])]) := by decide +kernel
example : scanEnv.same (depDataFromStr scanEnv.M §"yaml") (depDataFromStr scanEnv.M §"python") = false := by decide +kernel

/-! ## `pyproject.toml` -/

theorem addAll_strs (M : Str → Option Str) {same : DepData → DepData → Bool} (hs : Equivalence fun a b => same a b = true)
    (t : DepSection) (deps : List ProjDep) (xs : List Str) :
    ∃ r, addAll M same t deps (xs.map .str) = .ok r ∧ (Once same deps → Once same r) ∧
      ∀ x, Has same r x ↔ Has same deps x ∨ (∃ s ∈ xs, same x.data (depDataFromStr M s) = true ∧ x.type = t) := by
  induction xs generalizing deps with
  | nil => exact ⟨deps, rfl, id, by simp⟩
  | cons s xs ih =>
    obtain ⟨r, h1, h2, h3⟩ := ih (depSetAdd same deps (newProjDep M s t))
    refine ⟨r, h1, fun h => h2 (once_depSetAdd hs _ h), fun x => ?_⟩
    rw [h3, has_depSetAdd hs]
    simp [newProjDep, or_assoc]

theorem addGroups_strs (M : Str → Option Str) {same : DepData → DepData → Bool} (hs : Equivalence fun a b => same a b = true)
    (deps : List ProjDep) (groups : List (Str × List Str)) :
    ∃ r, addGroups M same deps (groups.map fun g => .list (g.2.map .str)) = .ok r ∧ (Once same deps → Once same r) ∧
      ∀ x, Has same r x ↔ Has same deps x ∨
        (∃ g ∈ groups, ∃ s ∈ g.2, same x.data (depDataFromStr M s) = true ∧ x.type = .runConstraints) := by
  induction groups generalizing deps with
  | nil => exact ⟨deps, rfl, id, by simp⟩
  | cons g gs ih =>
    obtain ⟨r1, h1, h2, h3⟩ := addAll_strs M hs .runConstraints deps g.2
    obtain ⟨r, h4, h5, h6⟩ := ih r1
    refine ⟨r, ?_, fun h => h5 (h2 h), fun x => ?_⟩
    · show (do
        let xs ← pyIter (.list (g.2.map .str))
        let deps ← addAll M same .runConstraints deps xs
        addGroups M same deps (gs.map fun (g : Str × List Str) => .list (g.2.map .str))) = _
      simp only [pyIter, bind, Except.bind, h1]
      exact h4
    · rw [h6, h3]
      simp [or_assoc]

/-- C55: the dependencies of a project file are reported for run time, the optional ones as constraints at run time, and
nothing else is reported; no message is added. -/
theorem C55_reported_partial (M : Str → Option Str) (same : DepData → DepData → Bool) (hs : Equivalence fun a b => same a b = true)
    (fn : Str) (kvs : List (Str × PyVal)) (project : List (Str × PyVal)) (deps : List Str) (groups : List (Str × List Str))
    (tbl : MsgTable) (hp : lookupD §"project" kvs = some (.dict project)) (hl : Lists project deps groups) :
    ∃ r, scanPyProject M same fn (.data kvs) tbl = (.ok r, tbl) ∧
      (r.Pairwise fun x y => ¬ (same x.data y.data = true ∧ x.type = y.type)) ∧
      ∀ x, Has same r x ↔
        (∃ s ∈ deps, same x.data (depDataFromStr M s) = true ∧ x.type = .run) ∨
        (∃ g ∈ groups, ∃ s ∈ g.2, same x.data (depDataFromStr M s) = true ∧ x.type = .runConstraints) := by
  obtain ⟨r1, h1, h2, h3⟩ := addAll_strs M hs .run [] deps
  obtain ⟨r, h4, h5, h6⟩ := addGroups_strs M hs r1 groups
  refine ⟨r, ?_, h5 (h2 List.Pairwise.nil), fun x => ?_⟩
  · unfold scanPyProject
    simp only [hp]
    have hd : tableGet (.dict project) §"dependencies" (.list []) = .ok (.list (deps.map .str)) := by
      rcases hl.1 with h | ⟨h, rfl⟩ <;> simp [tableGet, h]
    have ho : tableGet (.dict project) §"optional-dependencies" (.dict []) =
        .ok (.dict (groups.map fun g => (g.1, .list (g.2.map .str)))) := by
      rcases hl.2 with h | ⟨h, rfl⟩ <;> simp [tableGet, h]
    simp only [hd, ho, bind, Except.bind, pyIter, h1, List.map_map, Function.comp_def, h4]
  · rw [h6, h3]
    simp [Has]

theorem get_add (tbl : MsgTable) (c c' : Category) (m : Str) :
    (tbl.add c m).get c' = tbl.get c' ++ if c' = c then [m] else [] := by
  unfold MsgTable.get
  rw [find_add]
  by_cases hc : c' = c
  · subst hc
    cases tbl.find c' <;> simp
  · simp [hc]

/-- C55: a missing or unreadable file and one without a project table give no dependencies and exactly one message. -/
theorem C55_no_project (M : Str → Option Str) (same : DepData → DepData → Bool) (fn : Str) (f : TomlFile) (tbl : MsgTable)
    (hf : ∀ kvs, f = .data kvs → lookupD §"project" kvs = none) :
    ∃ c m, (scanPyProject M same fn f tbl).1 = .ok [] ∧
      (∀ c', (scanPyProject M same fn f tbl).2.get c' = tbl.get c' ++ if c' = c then [m] else []) ∧
      (f = .missing ∧ c = .exception ∧ m = §"`" ++ fn ++ §"` file not found." ∨
       f = .invalid ∧ c = .exception ∧ m = §"Could not parse `" ++ fn ++ §"` file." ∨
       (∃ kvs, f = .data kvs) ∧ c = .error ∧ m = §"`" ++ fn ++ §"` file is missing a `project` section.") := by
  cases f with
  | missing => exact ⟨.exception, _, rfl, fun c' => get_add _ _ _ _, Or.inl ⟨rfl, rfl, rfl⟩⟩
  | invalid => exact ⟨.exception, _, rfl, fun c' => get_add _ _ _ _, Or.inr (Or.inl ⟨rfl, rfl, rfl⟩)⟩
  | data kvs =>
    refine ⟨.error, _, ?_, ?_, Or.inr (Or.inr ⟨⟨kvs, rfl⟩, rfl, rfl⟩)⟩
    · simp only [scanPyProject, hf kvs rfl]
    · intro c'
      simp only [scanPyProject, hf kvs rfl]
      exact get_add _ _ _ _

/-- C55 (violation): a text where the list of dependencies belongs is reported letter by letter, without a message. -/
theorem C55_text_violation :
    let r := scanPyProject (fun s => some s) (fun a b => decide (a = b)) §"pyproject.toml"
      (.data [(§"project", .dict [(§"dependencies", .str §"pip")])]) []
    r.1.toOption = some [⟨.spec §"p" §"p", .run⟩, ⟨.spec §"i" §"i", .run⟩] ∧ r.2 = [] := by decide +kernel

/-- C55 (violation): what is not a list of texts ends the scan with an exception instead of a message. -/
theorem C55_exception_violation :
    (let r := scanPyProject (fun s => some s) (fun a b => decide (a = b)) §"pyproject.toml"
      (.data [(§"project", .dict [(§"dependencies", .list [.int 1])])]) []
    r.1.toOption = none ∧ r.2 = []) ∧
    (let r := scanPyProject (fun s => some s) (fun a b => decide (a = b)) §"pyproject.toml" (.data [(§"project", .int 1)]) []
    r.1.toOption = none ∧ r.2 = []) := by decide +kernel

example : Lists [(§"name", .str §"x"), (§"dependencies", .list [.str §"numpy >=1", .str §"click"]),
    (§"optional-dependencies", .dict [(§"dev", .list [.str §"pytest"])])] [§"numpy >=1", §"click"] [(§"dev", [§"pytest"])] :=
  ⟨Or.inl rfl, Or.inl rfl⟩
example : Lists [(§"name", .str §"x")] [] [] := ⟨Or.inr ⟨rfl, rfl⟩, Or.inr ⟨rfl, rfl⟩⟩
example : ((scanPyProject (fun s => some s) (fun a b => decide (a = b)) §"pyproject.toml"
    (.data [(§"project", .dict [(§"dependencies", .list [.str §"click"]), (§"optional-dependencies", .dict [(§"dev", .list [.str §"click"])])])]) []).1.toOption)
    = some [⟨.spec §"click" §"click", .run⟩, ⟨.spec §"click" §"click", .runConstraints⟩] := by decide +kernel

end Crm
