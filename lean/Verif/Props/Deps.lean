import Verif.Spec.Deps
import Verif.Props.Queries
import Verif.Lemmas.Edit

/-!
# Reading dependencies (C34, C35, C36, C66)
-/

namespace Crm
open Spec

/-! ## C34 -/

/-- C34: the name of a section, in either schema, converts back to the section. -/
theorem C34_round_trip (s : DepSection) (schema : Schema) : strToDepSection (depSectionToStr s schema) = some s := by
  cases s <;> cases schema <;> decide

/-- C34: a text converts to a section exactly when it is, up to case and surrounding white space, the name of that
section in one of the schemas. -/
theorem C34_converts_iff (t : Str) (s : DepSection) :
    strToDepSection t = some s ↔ ∃ schema, lowerS (strip t) = depSectionToStr s schema := by
  unfold strToDepSection
  generalize lowerS (strip t) = u
  constructor
  · intro h
    simp only [depSectionCases, lookupD] at h
    repeat' split at h
    all_goals first
      | (injection h with h; subst h; rename_i hu; first | exact ⟨.v0, hu.symm⟩ | exact ⟨.v1, hu.symm⟩)
      | cases h
  · rintro ⟨schema, rfl⟩
    cases s <;> cases schema <;> decide

/-- C34: every other text gives `None`. -/
theorem C34_unknown (t : Str) : strToDepSection t = none ↔ ∀ s schema, lowerS (strip t) ≠ depSectionToStr s schema := by
  constructor
  · intro h s schema he
    have := (C34_converts_iff t s).2 ⟨schema, he⟩
    rw [h] at this; cases this
  · intro h
    cases hs : strToDepSection t with
    | none => rfl
    | some s => obtain ⟨schema, he⟩ := (C34_converts_iff t s).1 hs; exact absurd he (h s schema)

/-- C34: within a schema different sections have different names. -/
theorem C34_injective (a b : DepSection) (schema : Schema) (h : depSectionToStr a schema = depSectionToStr b schema) :
    a = b := by
  have := C34_round_trip a schema
  rw [h, C34_round_trip b schema] at this
  exact (Option.some.inj this).symm

example : strToDepSection §"  Run_Constrained " = some .runConstraints ∧ strToDepSection §"runs" = none := by decide

/-! ## C66: the text of a dependency is kept -/

/-- C66: reading a dependency and rendering it gives back the text. -/
theorem C66_text_kept (M : Str → Option Str) (s : Str) : (depDataFromStr M s).render = s := by
  unfold depDataFromStr
  split
  · rfl
  · cases M s <;> rfl

/-- C66: its name is the package name conda reads, if there is no Jinja expression in it and conda accepts it, and the
whole text otherwise. -/
theorem C66_name (M : Str → Option Str) (s : Str) :
    (depDataFromStr M s).name =
      if Regex.jinjaV0Sub.test s || Regex.jinjaV1Sub.test s then s else (M s).getD s := by
  unfold depDataFromStr
  split
  · rfl
  · cases M s <;> rfl

example : (depDataFromStr (fun s => some ((splitWs s).headD [])) §"numpy >=1.2").name = §"numpy" ∧
    (depDataFromStr (fun s => some ((splitWs s).headD [])) §"{{ pin }} 1").name = §"{{ pin }} 1" := by decide

/-! ## C35 -/

theorem packageNamesGo_ok (E : Env) (r : Recipe) (paths : List Str) (tbl res : List (PyVal × Str))
    (hp : tbl.Pairwise fun a b => pyEq a.1 b.1 = false) :
    r.packageNamesGo E paths tbl = .ok res ↔
      ∃ new, res = tbl ++ new ∧ new.map (·.2) = paths ∧
        (∀ e ∈ new, r.packageName E e.2 = .ok e.1 ∧ e.1.hashable = true) ∧
        res.Pairwise fun a b => pyEq a.1 b.1 = false := by
  induction paths generalizing tbl with
  | nil =>
    simp only [Recipe.packageNamesGo, Except.ok.injEq, List.map_eq_nil_iff]
    constructor
    · rintro rfl; exact ⟨[], by simp, rfl, by simp, hp⟩
    · rintro ⟨new, rfl, rfl, _⟩; simp
  | cons path rest ih =>
    unfold Recipe.packageNamesGo
    simp only [bind, Except.bind]
    cases hn : r.packageName E path with
    | error e =>
      simp only [reduceCtorEq, false_iff, not_exists]
      rintro new ⟨_, hm, hall, _⟩
      cases new with
      | nil => cases hm
      | cons e' new =>
        simp only [List.map_cons, List.cons.injEq] at hm
        have := (hall e' (by simp)).1
        rw [hm.1, hn] at this; cases this
    | ok name =>
      simp only
      have key : ∀ new : List (PyVal × Str), new.map (·.2) = path :: rest →
          (∀ e ∈ new, r.packageName E e.2 = .ok e.1 ∧ e.1.hashable = true) →
          ∃ new', new = (name, path) :: new' ∧ name.hashable = true := by
        intro new hm hall
        cases new with
        | nil => cases hm
        | cons e' new =>
          simp only [List.map_cons, List.cons.injEq] at hm
          obtain ⟨h1, h2⟩ := hall e' (by simp)
          rw [hm.1, hn] at h1
          injection h1 with h1
          obtain ⟨a, b⟩ := e'
          simp only at h1 hm h2
          rw [h1, hm.1]
          exact ⟨new, rfl, h2⟩
      by_cases hh : name.hashable = true
      · rw [if_neg (by simp [hh])]
        by_cases ha : tbl.any (fun e => pyEq e.1 name) = true
        · rw [if_pos ha]
          simp only [reduceCtorEq, false_iff, not_exists]
          rintro new ⟨rfl, hm, hall, hpw⟩
          obtain ⟨new', rfl, _⟩ := key new hm hall
          rw [List.any_eq_true] at ha
          obtain ⟨e, he, heq⟩ := ha
          have := (List.pairwise_append.1 hpw).2.2 e he (name, path) (by simp)
          simp only at this
          rw [heq] at this; cases this
        · rw [if_neg ha]
          have hp' : (tbl ++ [(name, path)]).Pairwise fun a b => pyEq a.1 b.1 = false := by
            rw [List.pairwise_append]
            refine ⟨hp, by simp, ?_⟩
            intro a ham b hb
            simp only [List.mem_singleton] at hb
            subst hb
            cases h : pyEq a.1 name with
            | false => rfl
            | true => exact absurd (List.any_eq_true.2 ⟨a, ham, h⟩) ha
          rw [ih _ hp']
          constructor
          · rintro ⟨new, rfl, hm, hall, hpw⟩
            refine ⟨(name, path) :: new, by simp, by simp [hm], ?_, hpw⟩
            intro e he
            rcases List.mem_cons.1 he with rfl | he
            · exact ⟨hn, hh⟩
            · exact hall e he
          · rintro ⟨new, rfl, hm, hall, hpw⟩
            obtain ⟨new', rfl, _⟩ := key new hm hall
            refine ⟨new', by simp, ?_, fun e he => hall e (by simp [he]), hpw⟩
            simp only [List.map_cons, List.cons.injEq, true_and] at hm
            exact hm
      · rw [if_pos (by simp [hh])]
        simp only [reduceCtorEq, false_iff, not_exists]
        rintro new ⟨rfl, hm, hall, hpw⟩
        obtain ⟨new', rfl, h⟩ := key new hm hall
        exact hh h

/-- C35: `get_package_names_to_path` succeeds exactly when every package has a (hashable) name and no two names are
equal; the result then has one entry per package path, in order, with that package's name. -/
theorem C35_names_to_path (E : Env) (r : Recipe) (tbl : List (PyVal × Str)) :
    r.packageNamesToPath E = .ok tbl ↔
      r.getPackagePaths E = .ok (tbl.map (·.2)) ∧
      (∀ e ∈ tbl, r.packageName E e.2 = .ok e.1 ∧ e.1.hashable = true) ∧
      tbl.Pairwise fun a b => pyEq a.1 b.1 = false := by
  unfold Recipe.packageNamesToPath
  cases hp : r.getPackagePaths E with
  | error e => simp [bind, Except.bind]
  | ok paths =>
    simp only [bind, Except.bind, Except.ok.injEq]
    rw [packageNamesGo_ok E r paths [] tbl List.Pairwise.nil]
    constructor
    · rintro ⟨new, rfl, hm, hall, hpw⟩
      exact ⟨hm.symm, hall, hpw⟩
    · rintro ⟨hm, hall, hpw⟩
      exact ⟨tbl, by simp, hm.symm, hall, hpw⟩

/-- The first reason to stop, among the packages in order. -/
theorem packageNamesGo_error (E : Env) (r : Recipe) (paths : List Str) (tbl : List (PyVal × Str)) (err : PyErr)
    (h : r.packageNamesGo E paths tbl = .error err) :
    ∃ pre path post names, paths = pre ++ path :: post ∧ names.map (·.2) = pre ∧
      (∀ e ∈ names, r.packageName E e.2 = .ok e.1) ∧
      (r.packageName E path = .error err ∨
        ∃ name, r.packageName E path = .ok name ∧
          ((err = .typeError ∧ name.hashable = false) ∨
           (err = .valueError ∧ ∃ e ∈ tbl ++ names, pyEq e.1 name = true))) := by
  induction paths generalizing tbl with
  | nil => cases h
  | cons path rest ih =>
    unfold Recipe.packageNamesGo at h
    simp only [bind, Except.bind] at h
    cases hn : r.packageName E path with
    | error e =>
      rw [hn] at h
      injection h with h
      subst h
      exact ⟨[], path, rest, [], rfl, rfl, by simp, Or.inl hn⟩
    | ok name =>
      rw [hn] at h
      simp only at h
      split at h
      · rename_i hh
        injection h with h
        subst h
        exact ⟨[], path, rest, [], rfl, rfl, by simp, Or.inr ⟨name, hn, Or.inl ⟨rfl, by simpa using hh⟩⟩⟩
      · split at h
        · rename_i ha
          injection h with h
          subst h
          rw [List.any_eq_true] at ha
          exact ⟨[], path, rest, [], rfl, rfl, by simp, Or.inr ⟨name, hn, Or.inr ⟨rfl, by simpa using ha⟩⟩⟩
        · obtain ⟨pre, p, post, names, h1, h2, h3, h4⟩ := ih _ h
          refine ⟨path :: pre, p, post, (name, path) :: names, by rw [h1]; rfl, by simp [h2], ?_, ?_⟩
          · intro e he
            rcases List.mem_cons.1 he with rfl | he
            · exact hn
            · exact h3 e he
          · simpa using h4

/-- C35: it raises `ValueError` only because two packages share a name, or because reading the outputs or a name did. -/
theorem C35_valueError (E : Env) (r : Recipe) (paths : List Str) (hp : r.getPackagePaths E = .ok paths)
    (hn : ∀ p ∈ paths, r.packageName E p ≠ .error .valueError) (h : r.packageNamesToPath E = .error .valueError) :
    ∃ (pre : List Str) (p : Str) (mid : List Str) (q : Str) (post : List Str) (a b : PyVal),
      paths = pre ++ p :: (mid ++ q :: post) ∧ r.packageName E p = .ok a ∧ r.packageName E q = .ok b ∧ pyEq a b = true := by
  unfold Recipe.packageNamesToPath at h
  simp only [hp, bind, Except.bind] at h
  obtain ⟨pre, path, post, names, h1, h2, h3, h4⟩ := packageNamesGo_error E r paths [] _ h
  rcases h4 with h4 | ⟨name, hname, ⟨h5, _⟩ | ⟨_, e, he, heq⟩⟩
  · exact absurd h4 (hn path (by simp [h1]))
  · cases h5
  · simp only [List.nil_append] at he
    obtain ⟨l1, l2, rfl⟩ := List.append_of_mem he
    refine ⟨l1.map (·.2), e.2, l2.map (·.2), path, post, e.1, name, ?_, h3 e he, hname, heq⟩
    rw [h1, ← h2]; simp

/-- C35: and whenever two packages share a name (all names being readable) it does raise `ValueError`. -/
theorem C35_duplicate_raises (E : Env) (r : Recipe) (paths : List Str) (hp : r.getPackagePaths E = .ok paths)
    (hn : ∀ p ∈ paths, ∃ n, r.packageName E p = .ok n ∧ n.hashable = true)
    (hd : ∃ (pre : List Str) (p : Str) (mid : List Str) (q : Str) (post : List Str) (a b : PyVal),
      paths = pre ++ p :: (mid ++ q :: post) ∧ r.packageName E p = .ok a ∧ r.packageName E q = .ok b ∧ pyEq a b = true) :
    r.packageNamesToPath E = .error .valueError := by
  cases h : r.packageNamesToPath E with
  | ok tbl =>
    obtain ⟨h1, h2, h3⟩ := (C35_names_to_path E r tbl).1 h
    obtain ⟨pre, p, mid, q, post, a, b, hpaths, ha, hb, hab⟩ := hd
    rw [hp] at h1
    injection h1 with h1
    rw [hpaths] at h1
    have hi := congrArg (fun l => l[pre.length]?) h1
    have hj := congrArg (fun l => l[pre.length + 1 + mid.length]?) h1
    simp only [List.getElem?_append_right (Nat.le_refl pre.length), Nat.sub_self, List.getElem?_cons_zero,
      List.getElem?_map] at hi
    have e1 : pre.length + 1 + mid.length - pre.length = mid.length + 1 := by omega
    rw [List.getElem?_append_right (by omega), e1, List.getElem?_cons_succ,
      List.getElem?_append_right (Nat.le_refl _), Nat.sub_self, List.getElem?_cons_zero, List.getElem?_map] at hj
    cases hti : tbl[pre.length]? with
    | none => rw [hti] at hi; cases hi
    | some ei =>
      cases htj : tbl[pre.length + 1 + mid.length]? with
      | none => rw [htj] at hj; cases hj
      | some ej =>
        rw [hti] at hi
        rw [htj] at hj
        simp only [Option.map_some, Option.some.injEq] at hi hj
        have m1 := (h2 ei (List.mem_of_getElem? hti)).1
        have m2 := (h2 ej (List.mem_of_getElem? htj)).1
        rw [← hi, ha] at m1
        rw [← hj, hb] at m2
        injection m1 with m1
        injection m2 with m2
        rw [List.pairwise_iff_getElem] at h3
        obtain ⟨l1, g1⟩ := List.getElem?_eq_some_iff.1 hti
        obtain ⟨l2, g2⟩ := List.getElem?_eq_some_iff.1 htj
        have := h3 pre.length (pre.length + 1 + mid.length) l1 l2 (by omega)
        rw [g1, g2, ← m1, ← m2, hab] at this
        cases this
  | error e =>
    unfold Recipe.packageNamesToPath at h
    simp only [hp, bind, Except.bind] at h
    obtain ⟨pre, path, post, names, h1, h2, h3, h4⟩ := packageNamesGo_error E r paths [] _ h
    obtain ⟨n, hn1, hn2⟩ := hn path (by simp [h1])
    rcases h4 with h4 | ⟨name, hname, ⟨_, h6⟩ | ⟨h5, _⟩⟩
    · rw [hn1] at h4; cases h4
    · rw [hn1] at hname; injection hname with hname; subst hname; rw [hn2] at h6; cases h6
    · rw [h5]

/-- C35: a package without a name makes it raise `KeyError` (if the packages before it are in order), and with a loader
that raises no `KeyError` of its own that is the only reason. -/
theorem C35_keyError_iff (E : Env) (hE : ∀ s, E.load s ≠ .error .keyError) (r : Recipe) (paths : List Str)
    (hp : r.getPackagePaths E = .ok paths) :
    r.packageNamesToPath E = .error .keyError ↔
      ∃ (pre : List Str) (path : Str) (post : List Str) (tbl : List (PyVal × Str)),
        paths = pre ++ path :: post ∧ tbl.map (·.2) = pre ∧
        (∀ e ∈ tbl, r.packageName E e.2 = .ok e.1 ∧ e.1.hashable = true) ∧
        (tbl.Pairwise fun a b => pyEq a.1 b.1 = false) ∧
        r.containsValue (if path = §"/" then rootNamePath r else Recipe.appendToPath path (outputNamePath r)) = .ok false := by
  have hname : ∀ path, r.packageName E path = .error .keyError ↔
      r.containsValue (if path = §"/" then rootNamePath r else Recipe.appendToPath path (outputNamePath r)) = .ok false :=
    fun path => C04_keyError_iff E hE r _ true
  unfold Recipe.packageNamesToPath
  simp only [hp, bind, Except.bind]
  constructor
  · intro h
    have key : ∀ (paths : List Str) (tbl : List (PyVal × Str)), (tbl.Pairwise fun a b => pyEq a.1 b.1 = false) →
        (∀ e ∈ tbl, r.packageName E e.2 = .ok e.1 ∧ e.1.hashable = true) →
        r.packageNamesGo E paths tbl = .error .keyError →
        ∃ pre path post new, paths = pre ++ path :: post ∧ new.map (·.2) = pre ∧
          (∀ e ∈ tbl ++ new, r.packageName E e.2 = .ok e.1 ∧ e.1.hashable = true) ∧
          ((tbl ++ new).Pairwise fun a b => pyEq a.1 b.1 = false) ∧ r.packageName E path = .error .keyError := by
      intro paths
      induction paths with
      | nil => intro tbl _ _ h; cases h
      | cons path rest ih =>
        intro tbl htp hta h
        unfold Recipe.packageNamesGo at h
        simp only [bind, Except.bind] at h
        cases hn : r.packageName E path with
        | error e =>
          rw [hn] at h
          injection h with h
          subst h
          exact ⟨[], path, rest, [], rfl, rfl, by simpa using hta, by simpa using htp, hn⟩
        | ok name =>
          rw [hn] at h
          simp only at h
          split at h
          · cases h
          · rename_i hh
            split at h
            · cases h
            · rename_i ha
              have hh' : name.hashable = true := by simpa using hh
              have hp' : (tbl ++ [(name, path)]).Pairwise fun a b => pyEq a.1 b.1 = false := by
                rw [List.pairwise_append]
                refine ⟨htp, by simp, ?_⟩
                intro a ham b hb
                simp only [List.mem_singleton] at hb
                subst hb
                cases h : pyEq a.1 name with
                | false => rfl
                | true => exact absurd (List.any_eq_true.2 ⟨a, ham, h⟩) ha
              obtain ⟨pre, p, post, new, h1, h2, h3, h4, h5⟩ := ih (tbl ++ [(name, path)]) hp'
                (by
                  intro e he
                  rcases List.mem_append.1 he with he | he
                  · exact hta e he
                  · simp only [List.mem_singleton] at he; subst he; exact ⟨hn, hh'⟩) h
              refine ⟨path :: pre, p, post, (name, path) :: new, by rw [h1]; rfl, by simp [h2], ?_, ?_, h5⟩
              · intro e he; exact h3 e (by simpa using he)
              · simpa using h4
    obtain ⟨pre, path, post, new, h1, h2, h3, h4, h5⟩ := key paths [] List.Pairwise.nil (by simp) h
    exact ⟨pre, path, post, new, h1, h2, by simpa using h3, by simpa using h4, (hname path).1 h5⟩
  · rintro ⟨pre, path, post, tbl, h1, h2, h3, h4, h5⟩
    have key : ∀ (tbl acc : List (PyVal × Str)), ((acc ++ tbl).Pairwise fun a b => pyEq a.1 b.1 = false) →
        (∀ e ∈ tbl, r.packageName E e.2 = .ok e.1 ∧ e.1.hashable = true) →
        r.packageNamesGo E (tbl.map (·.2) ++ path :: post) acc = .error .keyError := by
      intro tbl
      induction tbl with
      | nil =>
        intro acc _ _
        simp only [List.map_nil, List.nil_append]
        unfold Recipe.packageNamesGo
        simp only [(hname path).2 h5, bind, Except.bind]
      | cons e tbl ih =>
        intro acc hpw hall
        obtain ⟨n1, n2⟩ := hall e (by simp)
        simp only [List.map_cons, List.cons_append]
        unfold Recipe.packageNamesGo
        simp only [n1, bind, Except.bind, n2, Bool.not_true, Bool.false_eq_true, if_false]
        have hne : acc.any (fun x => pyEq x.1 e.1) = false := by
          rw [List.any_eq_false]
          intro x hx
          have := (List.pairwise_append.1 hpw).2.2 x hx e (by simp)
          simp [this]
        rw [hne]
        simp only [Bool.false_eq_true, if_false]
        exact ih (acc ++ [(e.1, e.2)]) (by simpa using hpw) fun e he => hall e (by simp [he])
    rw [h1, ← h2]
    exact key tbl [] (by simpa using h4) h3

/-- The recipe used in the examples:
```
package:
  name: p
requirements:
  run:
    - numpy >=1
outputs:
  - name: a
    requirements:
      host:
        - b  # [win]
        - c
      junk:
        - d
  - name: e
```
-/
def exDeps : Recipe := Toy.recipe ("package:\n  name: p\nrequirements:\n  run:\n    - numpy >=1\noutputs:\n" ++
  "  - name: a\n    requirements:\n      host:\n        - b  # [win]\n        - c\n      junk:\n        - d\n  - name: e\n")

example : exDeps.packageNamesToPath Toy.env =
    .ok [(.str §"p", §"/"), (.str §"a", §"/outputs/0"), (.str §"e", §"/outputs/1")] := by decide +kernel
example : (Toy.recipe "package:\n  name: p\noutputs:\n  - name: p\n").packageNamesToPath Toy.env = .error .valueError ∧
    (Toy.recipe "package:\n  name: p\noutputs:\n  - test: p\n").packageNamesToPath Toy.env = .error .keyError := by
  decide +kernel

/-! ## C36 -/

theorem pyEq_symm_hashable (a b : PyVal) (ha : a.hashable = true) : pyEq a b = pyEq b a := by
  cases a <;> cases b <;> first
    | (simp [PyVal.hashable] at ha; done)
    | rfl | exact BEq.comm

theorem fetchOptionalSelector_eq (r : Recipe) (p : Str) (hp : p ≠ []) :
    r.fetchOptionalSelector p = .ok ((r.getSelectorAtPath p).toOption.map
      fun s => SelectorParser.mk' s (decide (r.schema = .v1))) := by
  unfold Recipe.fetchOptionalSelector
  have : ∀ e, r.getSelectorAtPath p = .error e → e = .keyError := by
    intro e h
    unfold Recipe.getSelectorAtPath Recipe.nodeAtPath strToStack at h
    simp only [hp, if_false, bind, Except.bind] at h
    repeat' split at h
    all_goals first | (injection h with h; exact h.symm) | cases h
  cases h : r.getSelectorAtPath p with
  | ok s => rfl
  | error e => rw [this e h]; rfl

theorem depEntryPath_eq (path sec : Str) (i : Nat) (hp : path = §"/" ∨ path ≠ [] ∧ path.getLast? ≠ some '/') :
    Recipe.depEntryPath path sec i = prefixOf path ++ absPath [§"requirements", sec, natStr i] := by
  unfold Recipe.depEntryPath prefixOf Recipe.appendToPath
  rcases hp with rfl | ⟨h1, h2⟩
  · simp [absPath]
  · have : path ≠ §"/" := by rintro rfl; exact h2 (by decide)
    simp only [if_neg h1, if_neg this, ne_eq, h2, not_false_eq_true, if_true]
    simp [absPath]

theorem texts_cons_go (xs : List PyVal) (f : Nat × Str → α) (i : Nat) :
    ((xs.zipIdx i).filterMap fun vi => match vi.1 with
      | .str s => if strip s = [] then none else some (vi.2, strip s)
      | _ => none).map f =
    match xs with
    | [] => []
    | x :: rest => (match x with
        | .str s => if strip s = [] then [] else [f (i, strip s)]
        | _ => []) ++ (((rest.zipIdx (i + 1)).filterMap fun vi => match vi.1 with
          | .str s => if strip s = [] then none else some (vi.2, strip s)
          | _ => none).map f) := by
  cases xs with
  | nil => rfl
  | cons x rest =>
    rw [List.zipIdx_cons, List.filterMap_cons]
    cases x <;> try rfl
    rename_i s
    simp only
    by_cases h : strip s = [] <;> simp [h]

theorem sectionDeps_eq (M : Str → Option Str) (r : Recipe) (package : PyVal) (path sec : Str) (s : DepSection)
    (hp : path = §"/" ∨ path ≠ [] ∧ path.getLast? ≠ some '/') (xs : List PyVal) (i : Nat)
    (hx : ∀ x ∈ xs, x = .none ∨ ∃ t, x = .str t) :
    r.sectionDeps M package path sec s i xs = .ok ((((xs.zipIdx i).filterMap fun vi => match vi.1 with
      | .str s => if strip s = [] then none else some (vi.2, strip s)
      | _ => none).map fun it => ⟨s, prefixOf path ++ absPath [§"requirements", sec, natStr it.1], it.2⟩).map
        (depOf M r package)) := by
  induction xs generalizing i with
  | nil => rfl
  | cons x rest ih =>
    rw [texts_cons_go]
    have ih' := ih (i + 1) fun y hy => hx y (by simp [hy])
    unfold Recipe.sectionDeps
    rcases hx x (by simp) with rfl | ⟨t, rfl⟩
    · simp only [sanitizeDep, bind, Except.bind, List.nil_append]
      exact ih'
    · simp only [sanitizeDep, bind, Except.bind]
      by_cases ht : strip t = []
      · simp only [ht, if_true, List.nil_append]
        exact ih'
      · have hne : Recipe.depEntryPath path sec i ≠ [] := by
          rw [depEntryPath_eq _ _ _ hp]; simp [absPath]
        simp only [if_neg ht]
        rw [fetchOptionalSelector_eq _ _ hne, ih']
        simp only [List.map_cons, List.cons_append, List.nil_append]
        rw [depEntryPath_eq _ _ _ hp]
        rfl

theorem declared_cons (path k : Str) (v : PyVal) (rest : List (Str × PyVal)) :
    declared path ((k, v) :: rest) = (match strToDepSection k, v with
      | some s, .list items => sectionEntries path k s items
      | _, _ => []) ++ declared path rest := by
  unfold declared
  rw [List.flatMap_cons]
  simp only
  cases strToDepSection k <;> cases v <;> rfl

theorem packageDeps_eq (M : Str → Option Str) (r : Recipe) (package : PyVal) (path : Str)
    (hp : path = §"/" ∨ path ≠ [] ∧ path.getLast? ≠ some '/') (reqs : List (Str × PyVal)) (h : textLists reqs) :
    r.packageDeps M package path reqs = .ok ((declared path reqs).map (depOf M r package)) := by
  induction reqs with
  | nil => rfl
  | cons kv rest ih =>
    obtain ⟨k, v⟩ := kv
    have ih' := ih fun e he => h e (by simp [he])
    unfold Recipe.packageDeps
    rw [declared_cons]
    cases hs : strToDepSection k with
    | none => simp only [List.nil_append]; exact ih'
    | some s =>
      obtain ⟨xs, rfl, hx⟩ := h (k, v) (by simp) (by simp [hs])
      simp only [pyIter, bind, Except.bind]
      rw [sectionDeps_eq M r package path k s hp xs 0 hx, ih', List.map_append]
      rfl

theorem packagePaths_shape (E : Env) (r : Recipe) (paths : List Str) (h : r.getPackagePaths E = .ok paths) :
    ∃ rest, paths = §"/" :: rest ∧ ∀ p ∈ rest, p ≠ §"/" ∧ p ≠ [] ∧ p.getLast? ≠ some '/' := by
  unfold Recipe.getPackagePaths at h
  simp only [bind, Except.bind] at h
  repeat' split at h
  all_goals first | (cases h; done) | skip
  injection h with h
  refine ⟨_, h.symm, ?_⟩
  intro p hp
  rw [List.mem_map] at hp
  obtain ⟨i, _, rfl⟩ := hp
  refine ⟨by simp, by simp, ?_⟩
  rw [List.getLast?_append]
  cases hl : (natStr i).getLast? with
  | none => exact absurd (List.getLast?_eq_none_iff.1 hl) (natStr_ne_nil i)
  | some c =>
    intro hc
    have hc : c = '/' := by simpa using hc
    subst hc
    exact natStr_no_slash i (List.mem_of_getLast? hl)

theorem allDepsGo_eq (E : Env) (M : Str → Option Str) (r : Recipe) (reqs : Str → List (Str × PyVal))
    (tbl : List (PyVal × Str)) (hp : ∀ e ∈ tbl, e.2 = §"/" ∨ e.2 ≠ [] ∧ e.2.getLast? ≠ some '/')
    (hr : ∀ e ∈ tbl, r.getValue E (Recipe.appendToPath e.2 §"/requirements") (some (.dict [])) true =
      .ok (.dict (reqs e.2)) ∧ textLists (reqs e.2)) :
    Recipe.allDepsGo E M r tbl = .ok (tbl.map fun e => (e.1, (declared e.2 (reqs e.2)).map (depOf M r e.1))) := by
  induction tbl with
  | nil => rfl
  | cons e rest ih =>
    obtain ⟨package, path⟩ := e
    have ih' := ih (fun e he => hp e (by simp [he])) fun e he => hr e (by simp [he])
    obtain ⟨h1, h2⟩ := hr (package, path) (by simp)
    unfold Recipe.allDepsGo
    simp only [h1, bind, Except.bind, Recipe.pyItems]
    rw [packageDeps_eq M r package path (hp (package, path) (by simp)) _ h2, ih']
    rfl

theorem foldl_root (l : List (PyVal × Str)) (v : PyVal) (h : ∀ e ∈ l, e.2 ≠ §"/") :
    l.foldl (fun acc e => if e.2 = §"/" then e.1 else acc) v = v := by
  induction l with
  | nil => rfl
  | cons e l ih =>
    rw [List.foldl_cons, if_neg (h e (by simp))]
    exact ih fun e he => h e (by simp [he])

/-- C36: when every package has a name of its own and `requirements` that map sections to lists of texts, then
`get_all_dependencies` reports, for every package, exactly the non-blank entries of its sections of known name, in order,
each with its section, its path and the selector written there; and, for every package but the top-level one, the
dependencies of the top-level package after that, as required by the package. -/
theorem C36_all_dependencies_partial (E : Env) (M : Str → Option Str) (r : Recipe) (tbl : List (PyVal × Str))
    (ht : r.packageNamesToPath E = .ok tbl) (reqs : Str → List (Str × PyVal))
    (hr : ∀ e ∈ tbl, r.getValue E (Recipe.appendToPath e.2 §"/requirements") (some (.dict [])) true =
      .ok (.dict (reqs e.2)) ∧ textLists (reqs e.2)) :
    r.getAllDependencies E M = .ok (tbl.map fun e => (e.1,
      (declared e.2 (reqs e.2)).map (depOf M r e.1) ++
        if e.2 = §"/" then [] else (declared §"/" (reqs §"/")).map (depOf M r e.1))) := by
  obtain ⟨h1, h2, h3⟩ := (C35_names_to_path E r tbl).1 ht
  obtain ⟨rest, hpaths, hrest⟩ := packagePaths_shape E r _ h1
  cases tbl with
  | nil => cases hpaths
  | cons e0 tl =>
    obtain ⟨root, p0⟩ := e0
    simp only [List.map_cons, List.cons.injEq] at hpaths
    obtain ⟨hp0, htl⟩ := hpaths
    subst hp0
    have htl' : ∀ e ∈ tl, e.2 ≠ §"/" ∧ e.2 ≠ [] ∧ e.2.getLast? ≠ some '/' := fun e he =>
      hrest e.2 (by rw [← htl]; exact List.mem_map_of_mem he)
    have hne : ∀ e ∈ tl, pyEq e.1 root = false := by
      intro e he
      have := (List.pairwise_cons.1 h3).1 e he
      rw [pyEq_symm_hashable _ _ (h2 e (by simp [he])).2]
      exact this
    have hgo := allDepsGo_eq E M r reqs ((root, §"/") :: tl) (by
      intro e he
      rcases List.mem_cons.1 he with rfl | he
      · exact Or.inl rfl
      · exact Or.inr (htl' e he).2) hr
    unfold Recipe.getAllDependencies
    simp only [ht, bind, Except.bind]
    rw [hgo]
    simp only [List.foldl_cons, if_true]
    rw [foldl_root tl root fun e he => (htl' e he).1]
    unfold addTopLevelDeps
    simp only [List.map_cons, List.length_cons, List.length_map]
    have htail : ∀ f : List Dep → PyVal → List Dep, (∀ e ∈ tl, f ((declared e.2 (reqs e.2)).map (depOf M r e.1)) e.1 =
        (declared e.2 (reqs e.2)).map (depOf M r e.1) ++ (declared §"/" (reqs §"/")).map (depOf M r e.1)) →
        tl.map (fun e => (e.1, f ((declared e.2 (reqs e.2)).map (depOf M r e.1)) e.1)) =
        tl.map fun e => (e.1, (declared e.2 (reqs e.2)).map (depOf M r e.1) ++
          if e.2 = §"/" then [] else (declared §"/" (reqs §"/")).map (depOf M r e.1)) := by
      intro f hf
      apply List.map_congr_left
      intro e he
      rw [hf e he, if_neg (htl' e he).1]
    by_cases hl : tl.length + 1 ≤ 1
    · have : tl = [] := List.length_eq_zero_iff.1 (by omega)
      subst this
      simp
    · simp only [if_neg hl, List.find?_cons, pyEq_refl, if_true]
      simp only [List.map_map]
      refine congrArg _ (List.cons_eq_cons.2 ⟨by simp, ?_⟩)
      rw [← htail (fun ds n => ds ++ inherit n ((declared §"/" (reqs §"/")).map (depOf M r root)))]
      · apply List.map_congr_left
        intro e he
        simp only [Function.comp, hne e he, Bool.false_eq_true, if_false]
      · intro e he
        simp only [inherit, List.map_map]
        congr 1

/-- C36, from the entries' side: what is reported for a package is its own entries or entries of the top-level
package, and nothing is reported for a section of unknown name or a blank entry. -/
theorem C36_entry_iff (path : Str) (reqs : List (Str × PyVal)) (e : Entry) :
    e ∈ declared path reqs ↔ ∃ k xs i t, (k, .list xs) ∈ reqs ∧ strToDepSection k = some e.type ∧
      xs[i]? = some (.str t) ∧ strip t ≠ [] ∧ e.text = strip t ∧
      e.path = prefixOf path ++ absPath [§"requirements", k, natStr i] := by
  unfold declared
  rw [List.mem_flatMap]
  constructor
  · rintro ⟨⟨k, v⟩, hkv, h⟩
    cases hs : strToDepSection k with
    | none => simp only [hs, List.not_mem_nil] at h
    | some s =>
      cases v <;> simp only [hs, List.not_mem_nil] at h
      rename_i xs
      unfold sectionEntries texts at h
      rw [List.mem_map] at h
      obtain ⟨⟨i, u⟩, hi, rfl⟩ := h
      rw [List.mem_filterMap] at hi
      obtain ⟨⟨x, j⟩, hj, hx⟩ := hi
      have hget := List.mem_zipIdx_iff_getElem?.1 hj
      cases x <;> simp only [reduceCtorEq] at hx
      rename_i t
      by_cases ht : strip t = []
      · simp [ht] at hx
      · simp only [if_neg ht, Option.some.injEq, Prod.mk.injEq] at hx
        obtain ⟨rfl, rfl⟩ := hx
        exact ⟨k, xs, j, t, hkv, hs, hget, ht, rfl, rfl⟩
  · rintro ⟨k, xs, i, t, hkv, hs, hx, ht, h1, h2⟩
    refine ⟨(k, .list xs), hkv, ?_⟩
    simp only [hs]
    unfold sectionEntries texts
    rw [List.mem_map]
    refine ⟨(i, strip t), ?_, ?_⟩
    · rw [List.mem_filterMap]
      refine ⟨(.str t, i), List.mem_zipIdx_iff_getElem?.2 hx, ?_⟩
      simp only [if_neg ht]
    · cases e; simp only at h1 h2; subst h1 h2; rfl

/-- The dependencies of `exDeps`, as texts. -/
example : ((exDeps.getAllDependencies Toy.env fun s => some ((splitWs s).headD [])).toOption.getD []).map
      (fun e => e.2.map fun d => [pyStr d.requiredBy, d.path, depSectionToStr d.type .v0, d.data.name]) =
    [[[§"p", §"/requirements/run/0", §"run", §"numpy"]],
     [[§"a", §"/outputs/0/requirements/host/0", §"host", §"b"], [§"a", §"/outputs/0/requirements/host/1", §"host", §"c"],
      [§"a", §"/requirements/run/0", §"run", §"numpy"]],
     [[§"e", §"/requirements/run/0", §"run", §"numpy"]]] := by decide +kernel
/-- It meets the hypotheses of `C36_all_dependencies_partial`. -/
example : exDeps.getValue Toy.env §"/outputs/0/requirements" (some (.dict [])) true =
    .ok (.dict [(§"host", .list [.str §"b", .str §"c"]), (§"junk", .list [.str §"d"])]) := by decide +kernel
example : exDeps.getValue Toy.env §"/outputs/1/requirements" (some (.dict [])) true = .ok (.dict []) := by decide +kernel

/-- C36 fails for a section written as one text: it is read letter by letter, at paths that lead nowhere. -/
theorem C36_text_section_violation :
    (((Toy.recipe "package:\n  name: p\nrequirements:\n  run: py\n").getAllDependencies Toy.env some).toOption.getD []).map
      (fun e => e.2.map fun d => (d.path, d.data.name)) =
      [[(§"/requirements/run/0", §"p"), (§"/requirements/run/1", §"y")]] ∧
    (Toy.recipe "package:\n  name: p\nrequirements:\n  run: py\n").containsValue §"/requirements/run/0" = .ok false := by
  decide +kernel

/-- C36 fails for an entry that is not a text: the whole call raises. -/
theorem C36_number_entry_violation :
    ((Toy.recipe "package:\n  name: p\nrequirements:\n  run:\n    - a\n    - 7\n").getAllDependencies Toy.env some).toOption.isNone
      = true := by
  decide +kernel

end Crm
