import Verif.Model.Cbc
import Verif.Lemmas.Dict
import Verif.Spec.Path
import Verif.Props.Queries

/-! # Conda build configuration files (C38) -/

namespace Crm
open Spec

/-- The entry is meant for the query: it has no selector, or its selector selects the platform asked for (any
platform, if none is asked for). -/
def Spec.suits (query : Option Platform) (e : CbcEntry) : Prop :=
  ∀ s, e.selector = some s → ∀ p, query = some p → s.platforms p = true

theorem suits_iff (query : Option Platform) (e : CbcEntry) : suits query e ↔ e.applies query = true := by
  unfold suits CbcEntry.applies
  cases e.selector with
  | none => simp
  | some s =>
    cases query with
    | none => simp [SelectorParser.applies]
    | some p => simp [SelectorParser.applies]

/-- C38: the first entry that suits the query gives the value. -/
theorem C38_first (t : CbcTable) (var : Str) (query : Option Platform) (default : Option PyVal)
    (pre : List CbcEntry) (e : CbcEntry) (post : List CbcEntry) (h : lookupD var t = some (pre ++ e :: post))
    (hpre : ∀ x ∈ pre, ¬ suits query x) (he : suits query e) : t.value var query default = .ok e.value := by
  have hfind : (pre ++ e :: post).find? (CbcEntry.applies query) = some e := by
    rw [List.find?_append, List.find?_eq_none.2 fun x hx => by simpa using fun h => hpre x hx ((suits_iff _ _).2 h)]
    simp [List.find?_cons, (suits_iff _ _).1 he]
  unfold CbcTable.value
  rw [h]
  split
  · rename_i hn; cases hn
  · rename_i v hn
    simp only [Option.some.injEq] at hn
    rw [hn] at hfind
    simp only [List.find?_cons, CbcEntry.applies, Option.some.injEq, List.find?_nil] at hfind
    rw [← hfind]
  · rename_i entries hn hs
    simp only [Option.some.injEq] at hs
    subst hs
    rw [hfind]

/-- C38: if no entry suits the query, the default is given, or `ValueError` raised. -/
theorem C38_no_entry (t : CbcTable) (var : Str) (query : Option Platform) (default : Option PyVal)
    (es : List CbcEntry) (h : lookupD var t = some es) (hes : ∀ x ∈ es, ¬ suits query x) :
    t.value var query default = match default with | some d => .ok d | none => .error .valueError := by
  have hfind : es.find? (CbcEntry.applies query) = none :=
    List.find?_eq_none.2 fun x hx => by simpa using fun h => hes x hx ((suits_iff _ _).2 h)
  unfold CbcTable.value
  rw [h]
  split
  · rename_i hn; cases hn
  · rename_i v hn
    simp only [Option.some.injEq] at hn
    rw [hn] at hfind
    simp [CbcEntry.applies] at hfind
  · rename_i entries hn hs
    simp only [Option.some.injEq] at hs
    subst hs
    rw [hfind]
    cases default <;> rfl

/-- C38: for an unknown variable, the default is given, or `KeyError` raised. -/
theorem C38_unknown (t : CbcTable) (var : Str) (query : Option Platform) (default : Option PyVal)
    (h : t.contains var = false) :
    t.value var query default = match default with | some d => .ok d | none => .error .keyError := by
  have : lookupD var t = none := by simpa [CbcTable.contains] using h
  unfold CbcTable.value
  rw [this]
  cases default <;> rfl

/-- C38: `KeyError` means that the variable is unknown, `ValueError` that no entry of a known one suits the query. -/
theorem C38_errors_iff (t : CbcTable) (var : Str) (query : Option Platform) :
    (t.value var query = .error .keyError ↔ t.contains var = false) ∧
    (t.value var query = .error .valueError ↔ ∃ es, lookupD var t = some es ∧ ∀ x ∈ es, ¬ suits query x) ∧
    (∀ e, t.value var query = .error e → e = .keyError ∨ e = .valueError) := by
  cases h : lookupD var t with
  | none =>
    have h1 := C38_unknown t var query none (by simp [CbcTable.contains, h])
    rw [h1]
    refine ⟨by simp [CbcTable.contains, h], by simp, ?_⟩
    intro e he; injection he with he; exact Or.inl he.symm
  | some es =>
    by_cases hes : ∀ x ∈ es, ¬ suits query x
    · have h1 := C38_no_entry t var query none es h hes
      rw [h1]
      refine ⟨by simp [CbcTable.contains, h], by simpa using hes, ?_⟩
      intro e he; injection he with he; exact Or.inr he.symm
    · have : ∃ pre e post, es = pre ++ e :: post ∧ (∀ x ∈ pre, ¬ suits query x) ∧ suits query e := by
        clear h
        induction es with
        | nil => exact absurd (by simp) hes
        | cons y l ih =>
          by_cases hy : suits query y
          · exact ⟨[], y, l, rfl, by simp, hy⟩
          · have : ¬ ∀ x ∈ l, ¬ suits query x := by
              intro hl; apply hes
              intro x hx
              rcases List.mem_cons.1 hx with rfl | hx
              · exact hy
              · exact hl x hx
            obtain ⟨pre, e, post, rfl, h1, h2⟩ := ih this
            refine ⟨y :: pre, e, post, rfl, ?_, h2⟩
            intro w hw
            rcases List.mem_cons.1 hw with rfl | hw
            · exact hy
            · exact h1 w hw
      obtain ⟨pre, e, post, rfl, h1, h2⟩ := this
      rw [C38_first t var query none pre e post h h1 h2]
      refine ⟨by simp [CbcTable.contains, h], ?_, by simp⟩
      constructor
      · intro hx; cases hx
      · rintro ⟨es, hx, hno⟩
        injection hx with hx
        subst hx
        exact absurd h2 (hno e (by simp))

/-! ## What the table holds -/

/-- The entries for a list of values: each with the selector written on its line. -/
def Spec.cbcEntries (r : Recipe) (var : Str) (values : List PyVal) : List CbcEntry :=
  values.zipIdx.map fun vi =>
    ⟨vi.1, (r.getSelectorAtPath (absPath [var, natStr vi.2])).toOption.map fun s => SelectorParser.mk' s false⟩

/-- The part of the document that counts: lists with at least one value, except `zip_keys`. -/
def Spec.cbcVariables (r : Recipe) (kvs : List (Str × PyVal)) : CbcTable :=
  kvs.filterMap fun kv => match kv.2 with
    | .list (v :: vs) => if kv.1 = §"zip_keys" then none else some (kv.1, cbcEntries r kv.1 (v :: vs))
    | _ => none

theorem cbcSelector_eq (r : Recipe) (p : Str) (hp : p ≠ []) :
    cbcSelector r p = .ok ((r.getSelectorAtPath p).toOption.map fun s => SelectorParser.mk' s false) := by
  unfold cbcSelector
  have : ∀ e, r.getSelectorAtPath p = .error e → e = .keyError := by
    intro e h
    unfold Recipe.getSelectorAtPath Recipe.nodeAtPath strToStack at h
    simp only [hp, if_false, bind, Except.bind] at h
    repeat' split at h
    all_goals first | (injection h with h; exact h.symm) | cases h
  cases h : r.getSelectorAtPath p with
  | ok s => rfl
  | error e => rw [this e h]; rfl

theorem cbcPut_new (var : Str) (e : CbcEntry) (t : CbcTable) (h : var ∉ t.map (·.1)) :
    cbcPut var e t = t ++ [(var, [e])] := by
  induction t with
  | nil => rfl
  | cons kv t ih =>
    obtain ⟨k, es⟩ := kv
    simp only [List.map_cons, List.mem_cons, not_or] at h
    simp only [cbcPut, if_neg (Ne.symm h.1), ih h.2, List.cons_append]

theorem cbcPut_old (var : Str) (e : CbcEntry) (t : CbcTable) (es : List CbcEntry) (h : var ∉ t.map (·.1)) :
    cbcPut var e (t ++ [(var, es)]) = t ++ [(var, es ++ [e])] := by
  induction t with
  | nil => simp [cbcPut]
  | cons kv t ih =>
    obtain ⟨k, es'⟩ := kv
    simp only [List.map_cons, List.mem_cons, not_or] at h
    simp only [List.cons_append, cbcPut, if_neg (Ne.symm h.1), ih h.2]

theorem cbcValues_more (r : Recipe) (var : Str) (values : List PyVal) (i : Nat) (t : CbcTable) (es : List CbcEntry)
    (h : var ∉ t.map (·.1)) :
    cbcValues r var values i (t ++ [(var, es)]) =
      .ok (t ++ [(var, es ++ (values.zipIdx i).map fun vi =>
        ⟨vi.1, (r.getSelectorAtPath (absPath [var, natStr vi.2])).toOption.map fun s => SelectorParser.mk' s false⟩)]) := by
  induction values generalizing i es with
  | nil => simp [cbcValues]
  | cons v vs ih =>
    unfold cbcValues
    have hp : §"/" ++ var ++ §"/" ++ natStr i = absPath [var, natStr i] := by simp [absPath]
    rw [hp, cbcSelector_eq r _ (by simp [absPath])]
    simp only [bind, Except.bind]
    rw [cbcPut_old var _ t es h, ih]
    simp

theorem cbcValues_eq (r : Recipe) (var : Str) (v : PyVal) (vs : List PyVal) (t : CbcTable)
    (h : var ∉ t.map (·.1)) :
    cbcValues r var (v :: vs) 0 t = .ok (t ++ [(var, cbcEntries r var (v :: vs))]) := by
  unfold cbcValues
  have hp : §"/" ++ var ++ §"/" ++ natStr 0 = absPath [var, natStr 0] := by simp [absPath]
  rw [hp, cbcSelector_eq r _ (by simp [absPath])]
  simp only [bind, Except.bind]
  rw [cbcPut_new var _ t h, cbcValues_more r var vs 1 t _ h]
  simp [cbcEntries]

theorem cbcVariables_keys (r : Recipe) (kvs : List (Str × PyVal)) : ∀ k ∈ (cbcVariables r kvs).map (·.1), k ∈ kvs.map (·.1) := by
  intro k hk
  rw [List.mem_map] at hk
  obtain ⟨e, he, rfl⟩ := hk
  unfold cbcVariables at he
  rw [List.mem_filterMap] at he
  obtain ⟨kv, hkv, h⟩ := he
  split at h
  · split at h
    · cases h
    · injection h with h; subst h; exact List.mem_map_of_mem hkv
  · cases h

theorem cbcLoop_eq (r : Recipe) (kvs : List (Str × PyVal)) (t : CbcTable) (hd : (kvs.map (·.1)).Nodup)
    (h : ∀ k ∈ kvs.map (·.1), k ∉ t.map (·.1)) : cbcLoop r kvs t = .ok (t ++ cbcVariables r kvs) := by
  induction kvs generalizing t with
  | nil => simp [cbcLoop, cbcVariables]
  | cons kv rest ih =>
    obtain ⟨k, v⟩ := kv
    simp only [List.map_cons, List.nodup_cons] at hd
    have hk : k ∉ t.map (·.1) := h k (by simp)
    have hrest : ∀ x ∈ rest.map (·.1), x ∉ t.map (·.1) := fun x hx => h x (by simp only [List.map_cons, List.mem_cons]; exact Or.inr hx)
    have skip : cbcVariables r ((k, v) :: rest) = cbcVariables r rest → cbcLoop r rest t = .ok (t ++ cbcVariables r ((k, v) :: rest)) := by
      intro he; rw [he]; exact ih t hd.2 hrest
    unfold cbcLoop
    cases v with
    | list values =>
      simp only
      by_cases hz : k = §"zip_keys"
      · rw [if_pos hz]
        apply skip
        unfold cbcVariables
        rw [List.filterMap_cons]
        cases values with
        | nil => rfl
        | cons v vs => simp [hz]
      · rw [if_neg hz]
        cases values with
        | nil =>
          simp only [cbcValues, bind, Except.bind]
          exact skip rfl
        | cons v vs =>
          rw [cbcValues_eq r k v vs t hk]
          simp only [bind, Except.bind]
          rw [ih _ hd.2]
          · have : cbcVariables r ((k, .list (v :: vs)) :: rest) = (k, cbcEntries r k (v :: vs)) :: cbcVariables r rest := by
              unfold cbcVariables
              rw [List.filterMap_cons]
              simp [hz]
            rw [this]
            simp
          · intro x hx
            simp only [List.map_append, List.map_cons, List.map_nil, List.mem_append, List.mem_singleton, not_or]
            refine ⟨hrest x hx, ?_⟩
            rintro rfl
            exact hd.1 hx
    | _ => exact skip rfl

/-- C38: for a file that is a mapping (without double keys), the table has, in order, every variable with a non-empty
list of values, except `zip_keys`; each value goes with the selector on its line. -/
theorem C38_table (E : Env) (r : Recipe) (kvs : List (Str × PyVal)) (h : r.getValue E §"/" = .ok (.dict kvs))
    (hd : (kvs.map (·.1)).Nodup) : cbcTable E r = .ok (cbcVariables r kvs) := by
  unfold cbcTable
  simp only [h, bind, Except.bind]
  have := cbcLoop_eq r kvs [] hd (by simp)
  simpa using this

/-- C38: so the entries found for a variable are those of its list. -/
theorem C38_lookup (r : Recipe) (kvs : List (Str × PyVal)) (hd : (kvs.map (·.1)).Nodup) (var : Str) (v : PyVal)
    (vs : List PyVal) (h : (var, .list (v :: vs)) ∈ kvs) (hz : var ≠ §"zip_keys") :
    lookupD var (cbcVariables r kvs) = some (cbcEntries r var (v :: vs)) := by
  induction kvs with
  | nil => simp at h
  | cons kv rest ih =>
    obtain ⟨k, w⟩ := kv
    simp only [List.map_cons, List.nodup_cons] at hd
    rcases List.mem_cons.1 h with h | h
    · simp only [Prod.mk.injEq] at h
      obtain ⟨rfl, rfl⟩ := h
      unfold cbcVariables
      rw [List.filterMap_cons]
      simp only [if_neg hz]
      simp [lookupD]
    · have ih' := ih hd.2 h
      have hne : k ≠ var := by
        rintro rfl
        exact hd.1 (List.mem_map_of_mem (f := Prod.fst) h)
      have : lookupD var (cbcVariables r ((k, w) :: rest)) = lookupD var (cbcVariables r rest) := by
        unfold cbcVariables
        rw [List.filterMap_cons]
        simp only
        split
        · rfl
        · rename_i x hx
          split at hx
          · split at hx
            · cases hx
            · injection hx with hx; subst hx
              simp [lookupD, hne]
          · cases hx
      rw [this]; exact ih'

/-- C38: the variables listed are exactly those with a non-empty list of values, except `zip_keys`, in the order of the
file; and they are the ones the table contains. -/
theorem C38_variables (E : Env) (r : Recipe) (kvs : List (Str × PyVal)) (t : CbcTable) (h : r.getValue E §"/" = .ok (.dict kvs))
    (hd : (kvs.map (·.1)).Nodup) (ht : cbcTable E r = .ok t) :
    t.variables = (kvs.filter fun kv => match kv.2 with | .list (_ :: _) => kv.1 ≠ §"zip_keys" | _ => false).map (·.1) ∧
    ∀ var, t.contains var = true ↔ var ∈ t.variables := by
  rw [C38_table E r kvs h hd] at ht
  injection ht with ht
  subst ht
  constructor
  · clear h hd
    unfold CbcTable.variables cbcVariables
    induction kvs with
    | nil => rfl
    | cons kv kvs ih =>
      obtain ⟨k, v⟩ := kv
      rw [List.filterMap_cons, List.filter_cons]
      cases v with
      | list vs =>
        cases vs with
        | nil => simpa using ih
        | cons x xs => by_cases hz : k = §"zip_keys" <;> simp [hz, ih]
      | _ => simpa using ih
  · intro var
    unfold CbcTable.contains CbcTable.variables
    cases hl : lookupD var (cbcVariables r kvs) with
    | none => simpa using (lookupD_none var _).1 hl
    | some es =>
      simp only [Option.isSome_some, true_iff]
      refine Decidable.not_not.1 fun hn => ?_
      rw [(lookupD_none var _).2 hn] at hl
      cases hl

/-- The file used in the examples. -/
def exCbc : Recipe := Toy.recipe "zip_keys:\n  - a\na:\n  - x  # [win]\n  - y  # [linux]\n  - z\n  - w\nb:\n  - v  # [osx]\nc: 1\n"

example : (cbcTable Toy.env exCbc).map CbcTable.variables = .ok [§"a", §"b"] := by decide +kernel
example : ((cbcTable Toy.env exCbc).bind fun t => t.value §"a" (some .linux64)) = .ok (.str §"y") ∧
    ((cbcTable Toy.env exCbc).bind fun t => t.value §"a" (some .osx64)) = .ok (.str §"z") ∧
    ((cbcTable Toy.env exCbc).bind fun t => t.value §"b" (some .linux64)) = .error .valueError ∧
    ((cbcTable Toy.env exCbc).bind fun t => t.value §"c" (some .linux64)) = .error .keyError := by decide +kernel
example : ∃ kvs, exCbc.getValue Toy.env §"/" = .ok (.dict kvs) ∧ (kvs.map (·.1)).Nodup :=
  ⟨[(§"zip_keys", .list [.str §"a"]), (§"a", .list [.str §"x", .str §"y", .str §"z", .str §"w"]),
    (§"b", .list [.str §"v"]), (§"c", .int 1)], by decide +kernel, by decide⟩

end Crm
