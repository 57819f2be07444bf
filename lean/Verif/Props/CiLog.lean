import Verif.Spec.CiLog
import Verif.Props.Bulk
import Verif.Lemmas.Traverse

/-!
# C59: the summary of CI logs adds up
-/

namespace Crm
open Spec

theorem statsOf_eq (r : List (Str × PyVal)) (kvs : List (Str × PyVal)) : statsOf r = .ok kvs ↔ statistics r = some kvs := by
  unfold statsOf statistics
  cases h : lookupD §"stats" r with
  | some v => cases v <;> simp [h]
  | none =>
    simp only [Option.isSome_none, Bool.false_eq_true, if_false]
    cases h' : lookupD §"statistics" r with
    | none => simp
    | some v => cases v <;> simp

theorem isNumber_iff (v : PyVal) : isNumber v = true ↔ IsNumber v := by
  cases v <;> simp [isNumber, IsNumber]

/-- What is noted for a key after some values: nothing without values, and otherwise their sum. -/
def totalFrom (N : NumOps) (old : Option PyVal) : List PyVal → Option PyVal
  | [] => old
  | vs => some (vs.foldl N.add (old.getD (.int 0)))

theorem totalFrom_append (N : NumOps) (old : Option PyVal) (a b : List PyVal) :
    totalFrom N (totalFrom N old a) b = totalFrom N old (a ++ b) := by
  cases a with
  | nil => rfl
  | cons x a =>
    cases b with
    | nil => simp [totalFrom]
    | cons y b => simp [totalFrom]

/-- The values of one table. -/
def countedIn (key : Str) (kvs : List (Str × PyVal)) : List PyVal :=
  kvs.filterMap fun kv => if kv.1 = key ∧ IsNumber kv.2 then some kv.2 else none

theorem statStep_lookup (N : NumOps) (kvs : List (Str × PyVal)) (st : List (Str × PyVal) × List Str) (key : Str) :
    lookupD key (kvs.foldl (statStep N) st).1 = totalFrom N (lookupD key st.1) (countedIn key kvs) := by
  induction kvs generalizing st with
  | nil => rfl
  | cons kv kvs ih =>
    rw [List.foldl_cons, ih]
    have hc : countedIn key (kv :: kvs) = countedIn key [kv] ++ countedIn key kvs := by
      simp only [countedIn, List.filterMap_cons, List.filterMap_nil]
      split <;> simp
    rw [hc, ← totalFrom_append]
    congr 1
    unfold statStep
    by_cases hn : isNumber kv.2 = true
    · rw [if_pos hn]
      have hn' := (isNumber_iff _).1 hn
      simp only
      rw [lookupD_insertD]
      by_cases hk : key = kv.1
      · subst hk
        rw [if_pos rfl]
        simp only [countedIn, List.filterMap_cons, List.filterMap_nil, hn', and_self, if_true, totalFrom, List.foldl_cons,
          List.foldl_nil]
        cases hl : lookupD kv.1 st.1 with
        | none => simp [lookupD_insertD]
        | some v => simp [hl]
      · rw [if_neg hk]
        simp only [countedIn, List.filterMap_cons, List.filterMap_nil, Ne.symm hk, false_and, if_false, totalFrom]
        split
        · rw [lookupD_insertD, if_neg hk]
        · rfl
    · rw [if_neg hn]
      have hn' := fun h => hn ((isNumber_iff _).2 h)
      have h0 : ¬ (kv.1 = key ∧ IsNumber kv.2) := fun h => hn' h.2
      simp only [countedIn, List.filterMap_cons, List.filterMap_nil, if_neg h0, totalFrom]

theorem statStep_percent (N : NumOps) (kvs : List (Str × PyVal)) (st : List (Str × PyVal) × List Str) (hn : st.2.Nodup) :
    (kvs.foldl (statStep N) st).2.Nodup ∧ ∀ key, key ∈ (kvs.foldl (statStep N) st).2 ↔
      key ∈ st.2 ∨ (startsWith key §"percent_" = true ∧ countedIn key kvs ≠ []) := by
  induction kvs generalizing st with
  | nil => exact ⟨hn, by simp [countedIn]⟩
  | cons kv kvs ih =>
    rw [List.foldl_cons]
    have hstep : (statStep N st kv).2.Nodup ∧ ∀ key, key ∈ (statStep N st kv).2 ↔
        key ∈ st.2 ∨ (startsWith key §"percent_" = true ∧ key = kv.1 ∧ IsNumber kv.2) := by
      unfold statStep
      by_cases hnum : isNumber kv.2 = true
      · rw [if_pos hnum]
        have hnum' := (isNumber_iff _).1 hnum
        simp only [hnum', and_true]
        by_cases hp : startsWith kv.1 §"percent_" = true
        · rw [if_pos hp]
          by_cases hm : kv.1 ∈ st.2
          · rw [if_pos hm]
            exact ⟨hn, fun key => ⟨Or.inl, by rintro (h | ⟨_, rfl⟩); exact h; exact hm⟩⟩
          · rw [if_neg hm]
            refine ⟨?_, fun key => ?_⟩
            · refine List.nodup_append.2 ⟨hn, by simp, ?_⟩
              rintro a ha b hb rfl
              rw [List.mem_singleton] at hb
              exact hm (hb ▸ ha)
            · rw [List.mem_append, List.mem_singleton]
              constructor
              · rintro (h | rfl)
                · exact Or.inl h
                · exact Or.inr ⟨hp, rfl⟩
              · rintro (h | ⟨_, h⟩)
                · exact Or.inl h
                · exact Or.inr h
        · rw [if_neg hp]
          exact ⟨hn, fun key => ⟨Or.inl, by rintro (h | ⟨h, rfl⟩); exact h; exact absurd h hp⟩⟩
      · rw [if_neg hnum]
        have hn' := fun h => hnum ((isNumber_iff _).2 h)
        exact ⟨hn, fun key => ⟨Or.inl, by rintro (h | ⟨_, _, h⟩); exact h; exact absurd h hn'⟩⟩
    obtain ⟨h1, h2⟩ := ih _ hstep.1
    refine ⟨h1, fun key => ?_⟩
    rw [h2, hstep.2, or_assoc]
    have hc : countedIn key (kv :: kvs) ≠ [] ↔ (key = kv.1 ∧ IsNumber kv.2) ∨ countedIn key kvs ≠ [] := by
      simp only [countedIn, List.filterMap_cons]
      by_cases h : kv.1 = key ∧ IsNumber kv.2
      · rw [if_pos h]
        exact ⟨fun _ => Or.inl ⟨h.1.symm, h.2⟩, fun _ => by simp⟩
      · rw [if_neg h]
        have : ¬ (key = kv.1 ∧ IsNumber kv.2) := fun h' => h ⟨h'.1.symm, h'.2⟩
        simp [this]
    rw [hc]
    constructor
    · rintro (h | ⟨h, h'⟩ | ⟨h, h'⟩)
      · exact Or.inl h
      · exact Or.inr ⟨h, Or.inl h'⟩
      · exact Or.inr ⟨h, Or.inr h'⟩
    · rintro (h | ⟨h, h' | h'⟩)
      · exact Or.inl h
      · exact Or.inr (Or.inl ⟨h, h'⟩)
      · exact Or.inr (Or.inr ⟨h, h'⟩)

theorem nodup_statStep (N : NumOps) (kvs : List (Str × PyVal)) (st : List (Str × PyVal) × List Str) (hn : (st.1.map (·.1)).Nodup) :
    ((kvs.foldl (statStep N) st).1.map (·.1)).Nodup := by
  induction kvs generalizing st with
  | nil => exact hn
  | cons kv kvs ih =>
    rw [List.foldl_cons]
    refine ih _ ?_
    unfold statStep
    split
    · simp only
      refine nodup_insertD _ _ _ ?_
      split
      · exact nodup_insertD _ _ _ hn
      · exact hn
    · exact hn

theorem statTables_ok (N : NumOps) (rs : List (List (Str × PyVal))) (st : List (Str × PyVal) × List Str) (hn : st.2.Nodup)
    (hk : (st.1.map (·.1)).Nodup) (hs : ∀ r ∈ rs, (statistics r).isSome = true) :
    ∃ st', statTables N rs st = .ok st' ∧ st'.2.Nodup ∧ (st'.1.map (·.1)).Nodup ∧
      (∀ key, lookupD key st'.1 = totalFrom N (lookupD key st.1) (counted key rs)) ∧
      ∀ key, key ∈ st'.2 ↔ key ∈ st.2 ∨ (startsWith key §"percent_" = true ∧ counted key rs ≠ []) := by
  induction rs generalizing st with
  | nil => exact ⟨st, rfl, hn, hk, fun _ => rfl, by simp [counted]⟩
  | cons r rs ih =>
    cases hr : statistics r with
    | none => have := hs r (by simp); rw [hr] at this; cases this
    | some kvs =>
      obtain ⟨hp1, hp2⟩ := statStep_percent N kvs st hn
      obtain ⟨st', h1, h2, h3, h4, h5⟩ := ih (kvs.foldl (statStep N) st) hp1 (nodup_statStep N kvs st hk)
        (fun r hr => hs r (List.mem_cons_of_mem _ hr))
      have hc : ∀ key, counted key (r :: rs) = countedIn key kvs ++ counted key rs := by
        intro key; simp [counted, countedIn, hr]
      refine ⟨st', ?_, h2, h3, fun key => ?_, fun key => ?_⟩
      · simp only [statTables, (statsOf_eq r kvs).2 hr, bind, Except.bind]
        exact h1
      · rw [h4, statStep_lookup, totalFrom_append, hc]
      · rw [h5, hp2, hc, or_assoc]
        constructor
        · rintro (h | ⟨h, h'⟩ | ⟨h, h'⟩)
          · exact Or.inl h
          · exact Or.inr ⟨h, by simp [h']⟩
          · exact Or.inr ⟨h, by simp [h']⟩
        · rintro (h | ⟨h, h'⟩)
          · exact Or.inl h
          · by_cases h0 : countedIn key kvs = []
            · exact Or.inr (Or.inr ⟨h, fun h1 => h' (by rw [h0, h1]; rfl)⟩)
            · exact Or.inr (Or.inl ⟨h, h0⟩)

theorem avg_lookup (N : NumOps) (n : Nat) (pct : List Str) (acc : List (Str × PyVal)) (hn : pct.Nodup)
    (hp : ∀ k ∈ pct, (lookupD k acc).isSome = true) (key : Str) :
    lookupD key (pct.foldl (fun acc k => insertD k (N.avg ((lookupD k acc).getD .none) n) acc) acc) =
      if key ∈ pct then (lookupD key acc).map (N.avg · n) else lookupD key acc := by
  induction pct generalizing acc with
  | nil => simp
  | cons p pct ih =>
    obtain ⟨hp1, hp2⟩ := List.nodup_cons.1 hn
    rw [List.foldl_cons, ih _ hp2]
    · rw [lookupD_insertD]
      by_cases hk : key = p
      · subst hk
        rw [if_neg hp1, if_pos rfl, if_pos (by simp)]
        have := hp key (by simp)
        cases h : lookupD key acc with
        | none => rw [h] at this; cases this
        | some v => rfl
      · rw [if_neg hk]
        simp [hk]
    · intro k hk
      rw [lookupD_insertD]
      split
      · rfl
      · exact hp k (List.mem_cons_of_mem _ hk)

theorem nodup_avg (N : NumOps) (n : Nat) (pct : List Str) (acc : List (Str × PyVal)) (h : (acc.map (·.1)).Nodup) :
    ((pct.foldl (fun acc k => insertD k (N.avg ((lookupD k acc).getD .none) n) acc) acc).map (·.1)).Nodup := by
  induction pct generalizing acc with
  | nil => exact h
  | cons p pct ih => exact ih _ (nodup_insertD _ _ _ h)

/-- C59: each statistic is added up over all results; a percentage is then divided by their number; what no result has
as a number is left out. -/
theorem C59_statistics_partial (N : NumOps) (rs : List (List (Str × PyVal))) (hs : ∀ r ∈ rs, (statistics r).isSome = true) :
    ∃ out, aggregateStats N rs = .ok out ∧ (out.map (·.1)).Nodup ∧ ∀ key, lookupD key out =
      if counted key rs = [] then none
      else if §"percent_" <+: key then some (N.avg ((counted key rs).foldl N.add (.int 0)) rs.length)
      else some ((counted key rs).foldl N.add (.int 0)) := by
  obtain ⟨st, h1, h2, h3, h4, h5⟩ := statTables_ok N rs ([], []) List.nodup_nil (by simp) hs
  have hl : ∀ key, lookupD key st.1 = if counted key rs = [] then none else some ((counted key rs).foldl N.add (.int 0)) := by
    intro key
    rw [h4]
    cases counted key rs <;> simp [totalFrom, lookupD]
  refine ⟨st.2.foldl (fun acc k => insertD k (N.avg ((lookupD k acc).getD .none) rs.length) acc) st.1, ?_, ?_, ?_⟩
  · simp only [aggregateStats, h1, bind, Except.bind]
  · exact nodup_avg _ _ _ _ h3
  · intro key
    rw [avg_lookup N rs.length st.2 st.1 h2, hl]
    · have hpre : startsWith key §"percent_" = true ↔ §"percent_" <+: key := by
        unfold startsWith; rw [List.isPrefixOf_iff_prefix]
      have := h5 key
      simp only [List.not_mem_nil, false_or, hpre] at this
      by_cases hc : counted key rs = []
      · simp [hc, this]
      · by_cases hp : §"percent_" <+: key
        · simp [hc, hp, this]
        · simp [hc, hp, this]
    · intro k hk
      rw [hl, if_neg]
      · rfl
      · have := (h5 k).1 hk
        simp only [List.not_mem_nil, false_or] at this
        exact this.2

/-- C59: a result without a table of statistics ends the summary with an exception. -/
theorem C59_no_statistics (N : NumOps) (rs : List (List (Str × PyVal))) (r : List (Str × PyVal)) (hr : r ∈ rs)
    (h : statistics r = none) : ∃ e, aggregateStats N rs = .error e := by
  have key : ∀ (rs : List (List (Str × PyVal))) st, r ∈ rs → ∃ e, statTables N rs st = .error e := by
    intro rs
    induction rs with
    | nil => simp
    | cons r' rs ih =>
      intro st hm
      cases hs : statsOf r' with
      | error e => exact ⟨e, by simp only [statTables, hs, bind, Except.bind]⟩
      | ok kvs =>
        rcases List.mem_cons.1 hm with rfl | hm
        · rw [statsOf_eq, h] at hs; cases hs
        · obtain ⟨e, he⟩ := ih (kvs.foldl (statStep N) st) hm
          exact ⟨e, by simp only [statTables, hs, bind, Except.bind]; exact he⟩
  obtain ⟨e, he⟩ := key rs ([], []) hr
  exact ⟨e, by simp only [aggregateStats, he, bind, Except.bind]⟩

theorem foldl_ints (N : NumOps) (hN : ∀ a b, N.add (.int a) (.int b) = .int (a + b)) (ns : List Int) (a : Int) :
    (ns.map PyVal.int).foldl N.add (.int a) = .int (a + ns.sum) := by
  induction ns generalizing a with
  | nil => simp
  | cons n ns ih => simp only [List.map_cons, List.foldl_cons, hN, ih, List.sum_cons, Int.add_assoc]

/-- C59: the total of a counter is the sum of the counts of the results. -/
theorem C59_counters (N : NumOps) (hN : ∀ a b, N.add (.int a) (.int b) = .int (a + b)) (rs : List (List (Str × PyVal)))
    (out : List (Str × PyVal)) (key : Str) (ns : List Int) (hs : ∀ r ∈ rs, (statistics r).isSome = true)
    (hout : aggregateStats N rs = .ok out) (hns : counted key rs = ns.map .int) (hne : ns ≠ [])
    (hp : ¬ §"percent_" <+: key) : lookupD key out = some (.int ns.sum) := by
  obtain ⟨out', h1, _, h2⟩ := C59_statistics_partial N rs hs
  rw [hout] at h1
  injection h1 with h1
  subst h1
  rw [h2, if_neg (by rw [hns]; simp [hne]), if_neg hp, hns, foldl_ints N hN]
  simp

theorem perm_sum {a b : List Int} (h : a.Perm b) : a.sum = b.sum := by
  induction h with
  | nil => rfl
  | cons x _ ih => simp [ih]
  | swap x y l => simp only [List.sum_cons]; omega
  | trans _ _ h1 h2 => exact h1.trans h2

/-- C59: the order of the results has no influence on a statistic whose values are whole numbers. -/
theorem C59_order (N : NumOps) (hN : ∀ a b, N.add (.int a) (.int b) = .int (a + b)) (rs rs' : List (List (Str × PyVal)))
    (hperm : rs.Perm rs') (out out' : List (Str × PyVal)) (key : Str) (hs : ∀ r ∈ rs, (statistics r).isSome = true)
    (hint : ∀ v ∈ counted key rs, ∃ n, v = .int n)
    (hout : aggregateStats N rs = .ok out) (hout' : aggregateStats N rs' = .ok out') : lookupD key out = lookupD key out' := by
  obtain ⟨o, h1, _, h2⟩ := C59_statistics_partial N rs hs
  obtain ⟨o', h1', _, h2'⟩ := C59_statistics_partial N rs' (fun r hr => hs r (hperm.mem_iff.2 hr))
  rw [hout] at h1; rw [hout'] at h1'
  injection h1 with h1; injection h1' with h1'
  subst h1; subst h1'
  have hc : (counted key rs).Perm (counted key rs') := List.Perm.flatMap_right _ hperm
  have hints : ∀ vs : List PyVal, (∀ v ∈ vs, ∃ n, v = .int n) → ∃ ns : List Int, vs = ns.map .int := by
    intro vs
    induction vs with
    | nil => intro _; exact ⟨[], rfl⟩
    | cons v vs ih =>
      intro h
      obtain ⟨n, rfl⟩ := h v (by simp)
      obtain ⟨ns, rfl⟩ := ih (fun v hv => h v (List.mem_cons_of_mem _ hv))
      exact ⟨n :: ns, rfl⟩
  obtain ⟨ns, hns⟩ := hints _ hint
  obtain ⟨ns', hns'⟩ := hints (counted key rs') (fun v hv => hint v (hc.mem_iff.2 hv))
  have hsum : (counted key rs).foldl N.add (.int 0) = (counted key rs').foldl N.add (.int 0) := by
    have hp : ns.Perm ns' := by
      rw [hns, hns'] at hc
      have := hc.map fun v => match v with | PyVal.int n => n | _ => 0
      simpa [Function.comp_def] using this
    rw [hns, hns', foldl_ints N hN, foldl_ints N hN, perm_sum hp]
  have hnil : counted key rs = [] ↔ counted key rs' = [] :=
    ⟨fun h => List.perm_nil.1 (h ▸ hc.symm), fun h => List.perm_nil.1 (h ▸ hc)⟩
  rw [h2, h2', hsum, hperm.length_eq]
  by_cases h : counted key rs = []
  · rw [if_pos h, if_pos (hnil.1 h)]
  · rw [if_neg h, if_neg (fun h' => h (hnil.2 h'))]

/-- Whole-number arithmetic for the examples. -/
def intOps : NumOps where
  add a b := match a, b with | .int a, .int b => .int (a + b) | _, _ => .none
  avg a n := match a with | .int a => .int (a / n) | _ => .none

/-- C59 (violation): a percentage is divided by the number of all results, also of those that do not have it. -/
theorem C59_average_violation :
    (aggregateStats intOps [[(§"stats", .dict [(§"percent_success", .int 100)])], [(§"statistics", .dict [(§"total", .int 3)])]]).toOption.map
      (lookupD §"percent_success") = some (some (.int 50)) := by rfl

/-! ## Tests -/

theorem directoryOf_eq (base : Str → Str) (r : List (Str × PyVal)) (d : Str) (h : directoryOf r = .ok d) :
    testOf base r = some (base d) := by
  unfold directoryOf at h
  unfold testOf
  cases hi : lookupD §"info" r with
  | none => rw [hi] at h; cases h
  | some v =>
    rw [hi] at h
    cases v with
    | dict info =>
      simp only at h ⊢
      cases hd : lookupD §"directory" info with
      | none => rw [hd] at h; cases h
      | some w => rw [hd] at h; cases w <;> first | (injection h with h; subst h; rfl) | cases h
    | _ => cases h

/-- What is shown for a field of a test. -/
def shown (title f : Str) (e : TestEntry) : Option PyVal := (lookupD title e.fields).bind (lookupD f)

theorem shown_pull (title : Str) (stats : List (Str × PyVal)) (fs : List Str) (e : TestEntry) :
    let e' := fs.foldl (fun e f =>
      match lookupD f stats with
      | none => e
      | some v => { e with fields := insertD title (insertD f v ((lookupD title e.fields).getD [])) e.fields }) e
    e'.count = e.count ∧ ∀ t f, shown t f e' =
      if t = title ∧ f ∈ fs then (lookupD f stats).or (shown t f e) else shown t f e := by
  induction fs generalizing e with
  | nil => simp
  | cons g fs ih =>
    simp only [List.foldl_cons]
    obtain ⟨h1, h2⟩ := ih (match lookupD g stats with
      | none => e
      | some v => { e with fields := insertD title (insertD g v ((lookupD title e.fields).getD [])) e.fields })
    refine ⟨?_, fun t f => ?_⟩
    · rw [h1]; cases lookupD g stats <;> rfl
    · rw [h2]
      have hstep : shown t f (match lookupD g stats with
          | none => e
          | some v => { e with fields := insertD title (insertD g v ((lookupD title e.fields).getD [])) e.fields }) =
          if t = title ∧ f = g then (lookupD f stats).or (shown t f e) else shown t f e := by
        cases hg : lookupD g stats with
        | none =>
          by_cases h : t = title ∧ f = g
          · rw [if_pos h, h.2, hg]; rfl
          · rw [if_neg h]
        | some v =>
          simp only [shown, lookupD_insertD]
          by_cases ht : t = title
          · subst ht
            simp only [if_true, Option.bind_some, lookupD_insertD, true_and]
            by_cases hf : f = g
            · subst hf; simp [hg]
            · simp only [hf, if_false]
              cases lookupD t e.fields with
              | none => simp [lookupD]
              | some x => rfl
          · simp [ht]
      rw [hstep]
      by_cases ht : t = title
      · by_cases hf : f = g
        · subst hf
          cases hl : lookupD f stats <;> simp [ht]
        · simp [hf]
      · simp [ht]

theorem shownFields_eq : shownFields = pulledFields := rfl

/-- The value shown after some results: the last one that a result has, or what was shown before. -/
theorem summarize_step (base : Str → Str) (title : Str) (rs : List (List (Str × PyVal))) (data data' : List (Str × TestEntry))
    (h : summarizeTests base title rs data = .ok data') (test : Str) :
    ((lookupD test data').isSome = true ↔ (lookupD test data).isSome = true ∨ resultsOf base test rs ≠ []) ∧
    ((lookupD test data').getD {}).count = ((lookupD test data).getD {}).count + (resultsOf base test rs).length ∧
    ∀ t f, shown t f ((lookupD test data').getD {}) =
      if t = title ∧ f ∈ shownFields then ((fieldValues f (resultsOf base test rs)).getLast?).or (shown t f ((lookupD test data).getD {}))
      else shown t f ((lookupD test data).getD {}) := by
  induction rs generalizing data with
  | nil =>
    injection h with h
    subst h
    simp [resultsOf, fieldValues]
  | cons r rs ih =>
    simp only [summarizeTests, bind, Except.bind] at h
    cases hd : directoryOf r with
    | error e => rw [hd] at h; cases h
    | ok d =>
      cases hs : statsOf r with
      | error e => rw [hd, hs] at h; cases h
      | ok stats =>
        simp only [hd, hs] at h
        obtain ⟨h1, h2, h3⟩ := ih _ h
        have ht := directoryOf_eq base r d hd
        have hst := (statsOf_eq r stats).1 hs
        have hp := shown_pull title stats pulledFields
          { (lookupD (base d) data).getD {} with count := ((lookupD (base d) data).getD {}).count + 1 }
        by_cases hb : base d = test
        · subst hb
          have hres : resultsOf base (base d) (r :: rs) = r :: resultsOf base (base d) rs := by
            simp [resultsOf, ht]
          simp only [lookupD_insertD, if_true, Option.getD_some, Option.isSome_some] at h1 h2 h3
          refine ⟨by simp [h1, hres], ?_, fun t f => ?_⟩
          · rw [h2, hres]
            have hcnt : (pullFields title stats
              { (lookupD (base d) data).getD {} with count := ((lookupD (base d) data).getD {}).count + 1 }).count =
              ((lookupD (base d) data).getD {}).count + 1 := hp.1
            rw [hcnt, List.length_cons]
            omega
          · rw [h3, hres]
            have hpf := hp.2 t f
            have hpf' : shown t f (pullFields title stats
              { (lookupD (base d) data).getD {} with count := ((lookupD (base d) data).getD {}).count + 1 }) = _ := hpf
            rw [hpf', shownFields_eq]
            by_cases hc : t = title ∧ f ∈ pulledFields
            · simp only [hc, and_self, if_true]
              have hfv : fieldValues f (r :: resultsOf base (base d) rs) =
                  (match lookupD f stats with | none => [] | some v => [v]) ++ fieldValues f (resultsOf base (base d) rs) := by
                simp only [fieldValues, List.filterMap_cons, hst, Option.bind_some]
                cases lookupD f stats <;> rfl
              rw [hfv]
              cases hl : lookupD f stats with
              | none => rfl
              | some v =>
                cases hg : (fieldValues f (resultsOf base (base d) rs)).getLast? with
                | none =>
                  rw [List.getLast?_eq_none_iff] at hg
                  rw [hg]
                  rfl
                | some w =>
                  rw [List.getLast?_append, hg]
                  rfl
            · rw [if_neg hc, if_neg hc, if_neg hc]
              rfl
        · have hb' : test ≠ base d := fun h => hb h.symm
          have hres : resultsOf base test (r :: rs) = resultsOf base test rs := by
            simp [resultsOf, ht, hb]
          simp only [lookupD_insertD, hb', if_false] at h1 h2 h3
          rw [hres]
          exact ⟨h1, h2, h3⟩

theorem lookupD_keyed {α : Type} (g : Str → α) (l : List Str) (k : Str) :
    lookupD k (l.map fun k => (k, g k)) = if k ∈ l then some (g k) else none := by
  induction l with
  | nil => rfl
  | cons x l ih =>
    simp only [List.map_cons, lookupD, ih, List.mem_cons]
    by_cases h : x = k
    · subst h; simp
    · rw [if_neg h]
      have h' : ¬ k = x := fun h' => h h'.symm
      simp [h']

theorem lookupD_sortedDict {α : Type} [Inhabited α] (d : List (Str × α)) (k : Str) : lookupD k (sortedDict d) = lookupD k d := by
  unfold sortedDict
  rw [lookupD_keyed]
  have hm : k ∈ sortStrs (d.map (·.1)) ↔ k ∈ d.map (·.1) := (sortStrs_perm _).mem_iff
  by_cases h : k ∈ d.map (·.1)
  · rw [if_pos (hm.2 h)]
    have := (lookupD_isSome k d).2 h
    cases hl : lookupD k d with
    | none => rw [hl] at this; cases this
    | some v => rfl
  · rw [if_neg (fun h' => h (hm.1 h')), (lookupD_none k d).2 h]

/-- C59: each test is listed with the number of its results, from both phases, and with the last value that a result of
the phase has for each of the five percentages; tests without results are not listed, and the tests are sorted. -/
theorem C59_tests (N : NumOps) (base : Str → Str) (convert dryRun : List (List (Str × PyVal))) (s : CiSummary)
    (h : generateSummary N base convert dryRun = .ok s) :
    (s.tests.map (·.1)).Pairwise (fun a b => strLe a b = true) ∧
    ∀ test,
      ((lookupD test s.tests).isSome = true ↔ resultsOf base test (convert ++ dryRun) ≠ []) ∧
      ∀ e, lookupD test s.tests = some e →
        e.count = (resultsOf base test (convert ++ dryRun)).length ∧
        ∀ f ∈ shownFields,
          shown §"recipe_conversion" f e = (fieldValues f (resultsOf base test convert)).getLast? ∧
          shown §"recipe_dry_run" f e = (fieldValues f (resultsOf base test dryRun)).getLast? := by
  simp only [generateSummary, bind, Except.bind] at h
  cases h1 : summarizeTests base §"recipe_conversion" convert [] with
  | error e => rw [h1] at h; cases h
  | ok d1 =>
    rw [h1] at h
    simp only at h
    cases h2 : summarizeTests base §"recipe_dry_run" dryRun d1 with
    | error e => rw [h2] at h; cases h
    | ok d2 =>
      rw [h2] at h
      simp only at h
      cases h3 : aggregateStats N convert with
      | error e => rw [h3] at h; cases h
      | ok c =>
        cases h4 : aggregateStats N dryRun with
        | error e => rw [h3, h4] at h; cases h
        | ok d =>
          simp only [h3, h4] at h
          injection h with h
          subst h
          refine ⟨?_, fun test => ?_⟩
          · simp only [sortedDict, List.map_map, Function.comp_def, List.map_id']
            exact sortStrs_sorted _
          · obtain ⟨a1, a2, a3⟩ := summarize_step base _ convert [] d1 h1 test
            obtain ⟨b1, b2, b3⟩ := summarize_step base _ dryRun d1 d2 h2 test
            have happ : resultsOf base test (convert ++ dryRun) = resultsOf base test convert ++ resultsOf base test dryRun := by
              simp [resultsOf]
            simp only [lookupD_sortedDict]
            refine ⟨?_, fun e he => ⟨?_, fun f hf => ⟨?_, ?_⟩⟩⟩
            · rw [b1, a1, happ]
              simp only [lookupD, Option.isSome_none, Bool.false_eq_true, false_or, ne_eq, List.append_eq_nil_iff]
              by_cases hx : resultsOf base test convert = [] <;> simp [hx]
            · rw [he] at b2
              simp only [Option.getD_some] at b2
              rw [b2, a2, happ]
              simp [lookupD]
            · have := b3 §"recipe_conversion" f
              rw [he] at this
              simp only [Option.getD_some] at this
              rw [this, if_neg (by intro h; exact absurd h.1 (by decide)), a3, if_pos ⟨rfl, hf⟩]
              simp [lookupD, shown]
            · have := b3 §"recipe_dry_run" f
              rw [he] at this
              simp only [Option.getD_some, true_and] at this
              rw [this, if_pos hf, a3, if_neg (by intro h; exact absurd h.1 (by decide))]
              simp [lookupD, shown]

/-- C59: the totals of both phases are those of their results. -/
theorem C59_phases (N : NumOps) (base : Str → Str) (convert dryRun : List (List (Str × PyVal))) (s : CiSummary)
    (h : generateSummary N base convert dryRun = .ok s) :
    aggregateStats N convert = .ok s.conversion ∧ aggregateStats N dryRun = .ok s.dryRun := by
  simp only [generateSummary, bind, Except.bind] at h
  cases h1 : summarizeTests base §"recipe_conversion" convert [] with
  | error e => rw [h1] at h; cases h
  | ok d1 =>
    rw [h1] at h
    simp only at h
    cases h2 : summarizeTests base §"recipe_dry_run" dryRun d1 with
    | error e => rw [h2] at h; cases h
    | ok d2 =>
      rw [h2] at h
      simp only at h
      cases h3 : aggregateStats N convert with
      | error e => rw [h3] at h; cases h
      | ok c =>
        cases h4 : aggregateStats N dryRun with
        | error e => rw [h3, h4] at h; cases h
        | ok d =>
          simp only [h3, h4] at h
          injection h with h
          subst h
          exact ⟨rfl, rfl⟩

/-! ## Logs -/

theorem readLog_quiet (loads : Str → Option (List (Str × PyVal))) (lines : List Str) (quiet rest : List Str) (i start : Nat)
    (acc : Blobs) (h : NoBrace quiet) :
    readLog loads lines i start (quiet ++ rest) acc = readLog loads lines (i + quiet.length) start rest acc := by
  induction quiet generalizing i with
  | nil => rfl
  | cons l ls ih =>
    have h1 : l ≠ §"{" := fun e => h.1 (e ▸ List.mem_cons_self ..)
    have h2 : l ≠ §"}" := fun e => h.2 (e ▸ List.mem_cons_self ..)
    rw [List.cons_append]
    conv => lhs; unfold readLog
    simp only [h1, h2, if_false]
    rw [ih (i + 1) ⟨fun hm => h.1 (List.mem_cons_of_mem _ hm), fun hm => h.2 (List.mem_cons_of_mem _ hm)⟩]
    have : i + 1 + ls.length = i + (l :: ls).length := by simp only [List.length_cons]; omega
    rw [this]

/-- What an object of a log adds to the results. -/
def addBlob (data : List (Str × PyVal)) (acc : Blobs) : Blobs :=
  match commandOf data with
  | none => acc
  | some v => if pyEq v (.str §"convert") then (acc.1 ++ [data], acc.2) else (acc.1, acc.2 ++ [data])

theorem classify_command {data : List (Str × PyVal)} (h : ∀ v, lookupD §"info" data = some v → ∃ info, v = .dict info) :
    classifyBlob data = .ok ((commandOf data).map fun v => pyEq v (.str §"convert")) := by
  unfold classifyBlob commandOf
  cases hi : lookupD §"info" data with
  | none => rfl
  | some v =>
    obtain ⟨info, rfl⟩ := h v hi
    simp only
    cases lookupD §"command_name" info <;> rfl

theorem readLog_part (loads : Str → Option (List (Str × PyVal))) (before rest : List Str) (p : LogPart) (start : Nat) (acc : Blobs)
    (hb : NoBrace p.body) (ha : NoBrace p.after)
    (hi : ∀ data, loads (joinStr §"\n" p.object) = some data → ∀ v, lookupD §"info" data = some v → ∃ info, v = .dict info) :
    ∃ start', readLog loads (before ++ (p.object ++ p.after) ++ rest) before.length start (p.object ++ p.after ++ rest) acc =
      readLog loads (before ++ (p.object ++ p.after) ++ rest) (before ++ (p.object ++ p.after)).length start' rest
        (match loads (joinStr §"\n" p.object) with | none => acc | some data => addBlob data acc) := by
  generalize hall : before ++ (p.object ++ p.after) ++ rest = all
  have hopen : readLog loads all before.length start (p.object ++ p.after ++ rest) acc =
      readLog loads all (before.length + 1) before.length (p.body ++ (§"}" :: (p.after ++ rest))) acc := by
    have : p.object ++ p.after ++ rest = §"{" :: (p.body ++ (§"}" :: (p.after ++ rest))) := by
      simp [LogPart.object]
    rw [this]
    conv => lhs; unfold readLog
    simp only [if_true, show (§"{" = §"}") = False from by decide, if_false]
  rw [hopen, readLog_quiet loads all _ _ _ _ _ hb]
  have hslice : (all.take (before.length + 1 + p.body.length + 1)).drop before.length = p.object := by
    rw [← hall]
    have h1 : before ++ (p.object ++ p.after) ++ rest = (before ++ p.object) ++ (p.after ++ rest) := by simp
    have h2 : before.length + 1 + p.body.length + 1 = (before ++ p.object).length := by
      simp [LogPart.object]; omega
    rw [h1, h2, List.take_left, List.drop_left]
  have hlen : before.length + 1 + p.body.length + 1 + p.after.length = (before ++ (p.object ++ p.after)).length := by
    simp [LogPart.object]; omega
  conv => arg 1; intro s; lhs; unfold readLog
  simp only [if_true, show (§"}" = §"{") = False from by decide, if_false, hslice]
  cases hl : loads (joinStr §"\n" p.object) with
  | none =>
    refine ⟨0, ?_⟩
    simp only
    rw [readLog_quiet loads all _ _ _ _ _ ha, hlen]
  | some data =>
    refine ⟨before.length, ?_⟩
    simp only
    rw [classify_command (hi data hl)]
    unfold addBlob
    cases hc : commandOf data with
    | none => simp only [Option.map_none]; rw [readLog_quiet loads all _ _ _ _ _ ha, hlen]
    | some v =>
      simp only [Option.map_some]
      cases hv : pyEq v (.str §"convert") <;> (simp only [Bool.false_eq_true, if_false, if_true]; rw [readLog_quiet loads all _ _ _ _ _ ha, hlen])

theorem addBlob_results (loads : Str → Option (List (Str × PyVal))) (p : LogPart) (acc : Blobs) :
    (match loads (joinStr §"\n" p.object) with | none => acc | some data => addBlob data acc) =
      (acc.1 ++ logResults loads true [p], acc.2 ++ logResults loads false [p]) := by
  simp only [logResults, List.filterMap_cons, List.filterMap_nil]
  cases hl : loads (joinStr §"\n" p.object) with
  | none => simp
  | some data =>
    simp only [Option.bind_some, addBlob]
    cases hc : commandOf data with
    | none => simp
    | some v =>
      cases hv : pyEq v (.str §"convert") with
      | true =>
        rw [pyEq_str] at hv
        subst hv
        have : pyEq (.str §"convert") (.str §"convert") = true := by decide
        simp [this]
      | false =>
        have hv' : v ≠ .str §"convert" := fun h => by rw [pyEq_str.2 h] at hv; cases hv
        cases v with
        | str c =>
          have : c ≠ §"convert" := fun h => hv' (by rw [h])
          simp [this, hv]
        | _ => simp [hv]

theorem readLog_parts (loads : Str → Option (List (Str × PyVal))) (parts : List LogPart) (before : List Str) (start : Nat) (acc : Blobs)
    (hb : ∀ p ∈ parts, NoBrace p.body ∧ NoBrace p.after)
    (hi : ∀ p ∈ parts, ∀ data, loads (joinStr §"\n" p.object) = some data → ∀ v, lookupD §"info" data = some v → ∃ info, v = .dict info) :
    readLog loads (before ++ parts.flatMap fun p => p.object ++ p.after) before.length start (parts.flatMap fun p => p.object ++ p.after) acc =
      .ok (acc.1 ++ logResults loads true parts, acc.2 ++ logResults loads false parts) := by
  induction parts generalizing before start acc with
  | nil => simp [readLog, logResults]
  | cons p parts ih =>
    obtain ⟨s', h⟩ := readLog_part loads before (parts.flatMap fun p => p.object ++ p.after) p start acc
      (hb p (by simp)).1 (hb p (by simp)).2 (hi p (by simp))
    rw [List.flatMap_cons, ← List.append_assoc before, h, addBlob_results,
      ih (before ++ (p.object ++ p.after)) s' _ (fun q hq => hb q (List.mem_cons_of_mem _ hq)) (fun q hq => hi q (List.mem_cons_of_mem _ hq))]
    have hcons : ∀ b, logResults loads b (p :: parts) = logResults loads b [p] ++ logResults loads b parts := by
      intro b
      show ([p] ++ parts).filterMap _ = _
      rw [List.filterMap_append]
      rfl
    rw [hcons, hcons, List.append_assoc, List.append_assoc]

/-- C59: every object of a log is read, none is counted twice, and each goes to the results of its command, whatever
stands between the objects. -/
theorem C59_log (loads : Str → Option (List (Str × PyVal))) (first : List Str) (parts : List LogPart) (acc : Blobs)
    (hf : NoBrace first) (hb : ∀ p ∈ parts, NoBrace p.body ∧ NoBrace p.after)
    (hi : ∀ p ∈ parts, ∀ data, loads (joinStr §"\n" p.object) = some data → ∀ v, lookupD §"info" data = some v → ∃ info, v = .dict info) :
    readLog loads (logLines first parts) 0 0 (logLines first parts) acc =
      .ok (acc.1 ++ logResults loads true parts, acc.2 ++ logResults loads false parts) := by
  unfold logLines
  rw [readLog_quiet loads _ first _ 0 0 acc hf, Nat.zero_add]
  exact readLog_parts loads parts first 0 acc hb hi

/-- C59: the results of a directory are those of its files, but for directories and one kind of hidden file. -/
theorem C59_logs (loads : Str → Option (List (Str × PyVal))) (files : List LogFile) (acc : Blobs)
    (c d : LogFile → List (List (Str × PyVal)))
    (h : ∀ f ∈ files, ∀ lines, f.lines = some lines → ∀ acc, readLog loads lines 0 0 lines acc = .ok (acc.1 ++ c f, acc.2 ++ d f)) :
    readLogs loads files acc =
      .ok (acc.1 ++ (files.filter fun f => f.lines.isSome && !decide (f.name = §".DS_Store")).flatMap c,
        acc.2 ++ (files.filter fun f => f.lines.isSome && !decide (f.name = §".DS_Store")).flatMap d) := by
  induction files generalizing acc with
  | nil => simp [readLogs]
  | cons f fs ih =>
    have ih := fun acc => ih acc (fun g hg => h g (List.mem_cons_of_mem _ hg))
    unfold readLogs
    cases hl : f.lines with
    | none => simp only; rw [ih]; simp [hl]
    | some lines =>
      simp only
      by_cases hn : f.name = §".DS_Store"
      · rw [if_pos hn, ih]
        simp [hn]
      · rw [if_neg hn, h f (by simp) lines hl]
        simp only
        rw [ih]
        simp [hl, hn, List.append_assoc]

/-! ## The hypotheses are met -/

/-- A log with time stamps removed: two objects, one of them a conversion, between other lines. -/
def someParts : List LogPart := [⟨[§"  \"a\""], [§"ok"]⟩, ⟨[§"  \"b\"", §"  }"], []⟩]

/-- A loader for the examples. -/
def someLoads (s : Str) : Option (List (Str × PyVal)) :=
  if inStr §"\"a\"" s then
    some [(§"info", .dict [(§"command_name", .str §"convert"), (§"directory", .str §"x/recipes_1")]),
      (§"stats", .dict [(§"total", .int 3), (§"percent_recipe_success", .int 50), (§"timings", .dict [])])]
  else if inStr §"\"b\"" s then
    some [(§"info", .dict [(§"command_name", .str §"dry-run"), (§"directory", .str §"y/recipes_1")]),
      (§"statistics", .dict [(§"total", .int 2), (§"percent_success", .int 10)])]
  else none

example : NoBrace [§"start"] ∧ ∀ p ∈ someParts, NoBrace p.body ∧ NoBrace p.after := by unfold NoBrace; decide
example : logLines [§"start"] someParts = [§"start", §"{", §"  \"a\"", §"}", §"ok", §"{", §"  \"b\"", §"  }", §"}"] := by decide
example : logResults someLoads true someParts = (someLoads §"\"a\"").toList ∧
    logResults someLoads false someParts = (someLoads §"\"b\"").toList := by
  refine ⟨?_, ?_⟩ <;> rfl
example : ∀ r ∈ logResults someLoads true someParts ++ logResults someLoads false someParts, (statistics r).isSome = true := by
  decide +kernel
example : counted §"total" (logResults someLoads true someParts ++ logResults someLoads false someParts) = [3, 2].map .int := by rfl
example : ∀ a b, intOps.add (.int a) (.int b) = .int (a + b) := fun _ _ => rfl
example : ((generateSummary intOps (fun d => d.drop 2) (logResults someLoads true someParts) (logResults someLoads false someParts)).toOption.map
    fun s => s.tests.map fun e => (e.1, e.2.count)) = some [(§"recipes_1", 2)] := by decide +kernel
example : statistics [(§"stats", .int 1)] = none := rfl

end Crm
