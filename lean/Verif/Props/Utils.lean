import Verif.Lemmas.Text
import Verif.Lemmas.Dict
import Verif.Lemmas.Json
import Verif.Lemmas.Regex
import Verif.Spec.Utils
import Verif.Model.Utils

/-!
# Utilities (C56, C57, C58, C60, C63)
-/

namespace Crm
open Spec

/-! ## C57 -/

theorem dedupe_invariant {α : Type} [DecidableEq α] (l pre acc : List α)
    (hm : ∀ x, x ∈ acc ↔ x ∈ pre) (hp : acc.Pairwise (fun a b => pre.idxOf a < pre.idxOf b)) :
    let res := l.foldl (fun acc x => if x ∈ acc then acc else acc ++ [x]) acc
    (∀ x, x ∈ res ↔ x ∈ pre ++ l) ∧ res.Pairwise (fun a b => (pre ++ l).idxOf a < (pre ++ l).idxOf b) := by
  induction l generalizing pre acc with
  | nil => simpa using ⟨hm, hp⟩
  | cons x xs ih =>
    have key := ih (pre ++ [x]) (if x ∈ acc then acc else acc ++ [x])
    simp only [List.append_assoc, List.singleton_append] at key
    simp only [List.foldl_cons]
    apply key
    · intro y
      split
      · rename_i hx
        simp only [List.mem_append, List.mem_singleton, ← hm]
        exact ⟨Or.inl, fun h => h.elim id (fun h => h ▸ hx)⟩
      · simp [hm]
    · have hp' : acc.Pairwise (fun a b => (pre ++ [x]).idxOf a < (pre ++ [x]).idxOf b) := by
        apply List.Pairwise.imp_of_mem (R := fun a b => pre.idxOf a < pre.idxOf b) _ hp
        intro a b ha hb hab
        rw [List.idxOf_append, List.idxOf_append, if_pos ((hm a).1 ha), if_pos ((hm b).1 hb)]
        exact hab
      split
      · exact hp'
      · rename_i hx
        rw [List.pairwise_append]
        refine ⟨hp', by simp, ?_⟩
        intro a ha b hb
        simp at hb; subst hb
        have hb' : b ∉ pre := fun h => hx ((hm b).2 h)
        rw [List.idxOf_append, List.idxOf_append, if_pos ((hm a).1 ha), if_neg hb']
        have := List.idxOf_lt_length_of_mem ((hm a).1 ha)
        omega

/-- C57: same elements, no repetition, listed in the order of their first occurrence in the input. -/
theorem C57_dedupe {α : Type} [DecidableEq α] (l : List α) :
    (∀ x, x ∈ dedupe l ↔ x ∈ l) ∧ (dedupe l).Nodup ∧
      (dedupe l).Pairwise (fun a b => l.idxOf a < l.idxOf b) := by
  have h := dedupe_invariant l [] [] (by simp) (by simp)
  simp only [List.nil_append] at h
  refine ⟨h.1, ?_, h.2⟩
  exact List.Pairwise.imp (fun {a b} hab => by rintro rfl; omega) h.2

/-- C57: the three conditions determine the result, so nothing else can be computed. -/
theorem C57_dedupe_unique {α : Type} [DecidableEq α] (l r : List α) (hm : ∀ x, x ∈ r ↔ x ∈ l)
    (hp : r.Pairwise (fun a b => l.idxOf a < l.idxOf b)) : r = dedupe l := by
  have h := C57_dedupe l
  have hn : r.Nodup := List.Pairwise.imp (fun {a b} hab => by rintro rfl; omega) hp
  have hperm : r.Perm (dedupe l) :=
    (List.perm_ext_iff_of_nodup hn h.2.1).2 (fun x => by rw [hm x, h.1 x])
  exact List.Perm.eq_of_pairwise (le := fun a b => l.idxOf a < l.idxOf b)
    (fun a b _ _ hab hba => by omega) hp h.2.2 hperm

example : dedupe [§"b", §"a", §"b", §"c", §"a"] = [§"b", §"a", §"c"] := by decide

/-! ## C60 -/

/-- C60: the key is stored exactly when the value is truthy; every other key keeps its value, and the order of the keys
is kept (a new key goes last). -/
theorem C60_set_key (d : List (Str × PyVal)) (k : Str) (v : PyVal) :
    (∀ k', lookupD k' (setKeyConditionally d k v) = if k' = k ∧ v.truthy then some v else lookupD k' d) ∧
    (setKeyConditionally d k v).map (·.1) =
      (if v.truthy ∧ k ∉ d.map (·.1) then d.map (·.1) ++ [k] else d.map (·.1)) := by
  unfold setKeyConditionally
  by_cases h : v.truthy
  · simp only [h, if_true, and_true, true_and]
    refine ⟨fun k' => lookupD_insertD k k' v d, ?_⟩
    rw [keys_insertD]
    by_cases h2 : k ∈ d.map (·.1) <;> simp [h2]
  · simp [h]

/-- C60: which values count as true, as in Python: everything except `None`, `False`, zero and empty collections. -/
theorem C60_truthy (v : PyVal) : v.truthy = false ↔ v = .none ∨ v = .bool false ∨ v = .int 0 ∨ v = .flt §"0.0" ∨
    v = .flt §"-0.0" ∨ v = .str [] ∨ v = .list [] ∨ v = .dict [] := by
  cases v with
  | bool b => cases b <;> simp [PyVal.truthy]
  | flt r =>
    by_cases h1 : r = §"0.0"
    · simp [PyVal.truthy, h1]
    · by_cases h2 : r = §"-0.0"
      · simp [PyVal.truthy, h2]
      · simp [PyVal.truthy, h1, h2]
  | _ => simp [PyVal.truthy]

example : setKeyConditionally [(§"a", .int 1)] §"b" (.str []) = [(§"a", .int 1)] ∧
    setKeyConditionally [(§"a", .int 1)] §"b" (.str §"x") = [(§"a", .int 1), (§"b", .str §"x")] := by decide

/-! ## C63 -/

/-- C63: whenever the code quotes a string, a JSON reader gets the original string back. -/
theorem C63_json_quoting_roundtrip (s : Str) : jsonString (jsonDumpsStr s) = some s := jsonString_dumps s

/-- C63: `quote_special_strings` either leaves the string alone or writes it as a JSON string. -/
theorem C63_quote_or_same (s : Str) (mv : Multiline) :
    quoteSpecialStrings s mv = s ∨ jsonString (quoteSpecialStrings s mv) = some s := by
  unfold quoteSpecialStrings
  split
  · exact Or.inl rfl
  · split
    · exact Or.inr (jsonString_dumps s)
    · exact Or.inl rfl

/-- C63: outside of Jinja expressions and multi-line text, strings that start with a YAML-reserved character or
contain a quote are always quoted. -/
theorem C63_special_is_quoted (s : Str) (hj : Regex.jinjaV0Sub.findall s = []) (hm : Regex.jinjaFunctionMatch.test s = false)
    (hs : (∃ c t, s = c :: t ∧ c ∈ §"[],&:*?-=!%@\\") ∨ (inStr §"${{" s = false ∧ (inStr §"'" s ∨ inStr §"\"" s))) :
    quoteSpecialStrings s = jsonDumpsStr s := by
  unfold quoteSpecialStrings
  have h1 : ¬((decide (Multiline.no ≠ .no) || !(Regex.jinjaV0Sub.findall s).isEmpty || Regex.jinjaFunctionMatch.test s)
      = true) := by simp [hj, hm]
  rw [if_neg h1, if_pos]
  simp only [Bool.or_eq_true, Bool.and_eq_true, Bool.not_eq_true']
  rcases hs with ⟨c, t, rfl, hc⟩ | ⟨h2, h3⟩
  · right
    rw [List.any_eq_true]
    exact ⟨c, hc, by simp [startsWith]⟩
  · left; right; exact ⟨h2, h3⟩

/-- C63: how every value is written: special texts as JSON strings, everything else in its plain form. -/
theorem C63_text_of_a_value (v : PyVal) : pyStr (stringifyYaml v) = yamlText v := stringify_text v

example : yamlText (.bool false) = §"false" ∧ yamlText .none = §"null" ∧ yamlText (.str §"it's") = §"\"it's\"" ∧
    yamlText (.str §"a b") = §"a b" := by decide +kernel

example : Regex.jinjaV0Sub.findall §"*foo" = [] ∧ Regex.jinjaFunctionMatch.test §"*foo" = false ∧
    quoteSpecialStrings §"*foo" = §"\"*foo\"" := by decide

/-! ## C58 -/

/-- The marker without its surrounding underscores. -/
def markerCore : Str := §"RECIPE_MANAGER_SUBSTITUTION_MARKER"

theorem findSub_append {p a b : Str} (_h : p ≠ []) (hn : ∀ t u, a = t ++ u → u ≠ [] → p.isPrefixOf (u ++ b) = false) :
    findSub p (a ++ b) = (findSub p b).map (· + a.length) := by
  induction a with
  | nil => simp
  | cons c cs ih =>
    have h0 := hn [] (c :: cs) rfl (by simp)
    simp only [List.cons_append] at h0 ⊢
    simp only [findSub, h0, Bool.false_eq_true, if_false]
    rw [ih (fun t u ht hu => hn (c :: t) u (by simp [ht]) hu)]
    cases findSub p b <;> simp
    omega

theorem replaceOne_append {p x a b : Str} (hn : ∀ t u, a = t ++ u → u ≠ [] → p.isPrefixOf (u ++ b) = false) :
    replaceOne p x (a ++ b) = a ++ replaceOne p x b := by
  induction a with
  | nil => simp
  | cons c cs ih =>
    have h0 := hn [] (c :: cs) rfl (by simp)
    simp only [List.cons_append] at h0 ⊢
    simp only [replaceOne, h0, Bool.false_eq_true, if_false]
    rw [ih (fun t u ht hu => hn (c :: t) u (by simp [ht]) hu)]

theorem findSub_none_iff {p s : Str} : findSub p s = none ↔ ∀ a b, s ≠ a ++ p ++ b := by
  induction s with
  | nil =>
    simp only [findSub]
    cases p with
    | nil => simp
    | cons c cs => simp
  | cons c cs ih =>
    simp only [findSub]
    constructor
    · intro h
      split at h
      · cases h
      · rename_i hp
        simp only [Option.map_eq_none_iff] at h
        intro a b heq
        cases a with
        | nil =>
          apply hp
          rw [heq]; simp
        | cons d ds =>
          simp only [List.cons_append, List.cons.injEq] at heq
          exact ih.1 h ds b heq.2
    · intro h
      rw [if_neg]
      · simp only [Option.map_eq_none_iff]
        exact ih.2 (fun a b heq => h (c :: a) b (by simp [heq]))
      · intro hp
        rw [List.isPrefixOf_iff_prefix] at hp
        obtain ⟨b, hb⟩ := hp
        exact h [] b (by simp [hb])

/-- Shifting the marker against itself by less than its core never matches. -/
theorem marker_no_overlap : ∀ d, 0 < d → d < 36 → subMarker.drop d ≠ subMarker.take (38 - d) := by
  have : ∀ d < 36, 0 < d → subMarker.drop d ≠ subMarker.take (38 - d) := by decide
  exact fun d h1 h2 => this d h2 h1

theorem subMarker_length : subMarker.length = 38 := by decide

/-- In a text without the marker's core, the first marker is the one that was put there. -/
theorem no_earlier_marker (a b : Str) (ha : inStr markerCore a = false) :
    ∀ t u, a = t ++ u → u ≠ [] → subMarker.isPrefixOf (u ++ (subMarker ++ b)) = false := by
  intro t u hau hu
  rw [Bool.eq_false_iff]
  intro hp
  rw [List.isPrefixOf_iff_prefix] at hp
  rcases Nat.lt_or_ge u.length 36 with hlt | hge
  · -- the marker would overlap itself
    have hd := marker_no_overlap u.length (List.length_pos_iff.2 hu) hlt
    apply hd
    obtain ⟨w, hw⟩ := hp
    have h1 := congrArg (fun l => (l.drop u.length).take (38 - u.length)) hw
    rw [List.drop_append_of_le_length (by rw [subMarker_length]; omega)] at h1
    rw [List.take_append_of_le_length (by simp [subMarker_length])] at h1
    rw [List.take_of_length_le (by simp [subMarker_length])] at h1
    rw [List.drop_left, List.take_append_of_le_length (by rw [subMarker_length]; omega)] at h1
    exact h1
  · -- the core of the marker lies inside `u`
    have hcore : subMarker = §"__" ++ markerCore ++ §"__" := by decide
    have hpre : (§"__" ++ markerCore) <+: u := by
      have h1 : (§"__" ++ markerCore) <+: u ++ (subMarker ++ b) := by
        refine List.IsPrefix.trans ?_ hp
        rw [hcore]; exact List.prefix_append _ _
      exact List.prefix_of_prefix_length_le h1 (List.prefix_append _ _) (by
        have : (§"__" ++ markerCore).length = 36 := by decide
        omega)
    obtain ⟨w, hw⟩ := hpre
    have hnone : findSub markerCore a = none := by simpa [inStr] using ha
    refine findSub_none_iff.1 hnone (t ++ §"__") w ?_
    rw [hau, ← hw]; simp

theorem not_in_of_append {p a b c : Str} (h : inStr p (a ++ b ++ c) = false) : inStr p b = false := by
  unfold inStr at h ⊢
  cases hb : findSub p b with
  | none => rfl
  | some i =>
    exfalso
    have : findSub p (a ++ b ++ c) = none := by simpa using h
    rw [findSub_none_iff] at this
    have hb' : ¬ findSub p b = none := by simp [hb]
    rw [findSub_none_iff] at hb'
    apply hb'
    intro x y hxy
    exact this (a ++ x) (y ++ c) (by rw [hxy]; simp)

theorem marker_not_in {s : Str} (h : inStr markerCore s = false) : inStr subMarker s = false := by
  unfold inStr at h ⊢
  have h' : findSub markerCore s = none := by simpa using h
  rw [findSub_none_iff] at h'
  have : findSub subMarker s = none := by
    rw [findSub_none_iff]
    intro a b hs
    have hcore : subMarker = §"__" ++ markerCore ++ §"__" := by decide
    exact h' (a ++ §"__") (§"__" ++ b) (by rw [hs, hcore]; simp)
  simp [this]

theorem inStr_marker (a b : Str) : inStr subMarker (a ++ (subMarker ++ b)) = true := by
  unfold inStr
  cases h : findSub subMarker (a ++ (subMarker ++ b)) with
  | some i => rfl
  | none => exact absurd (by simp) (findSub_none_iff.1 h a b)

theorem weave_prefix (a p : Str) (rest : List (Str × Str)) : weave (a ++ p) rest = a ++ weave p rest := by
  cases rest with
  | nil => rfl
  | cons x xs => simp [weave]

/-- C58: the i-th expression is put back at the i-th marker.  The text consists of plain pieces `p, q₁, q₂, …` with the
expressions `x₁, x₂, …` between them and must not spell the marker itself; expressions that are not needed are left for
the next string of the line. -/
theorem C58_markers_restored_in_order (p : Str) (rest : List (Str × Str)) (extra : List Str)
    (h : inStr §"RECIPE_MANAGER_SUBSTITUTION_MARKER" (weave p rest) = false) :
    substituteMarkers (weave p (rest.map fun xq => (subMarker, xq.2))) (rest.map (·.1) ++ extra) =
      (weave p rest, extra) := by
  have hcore : inStr markerCore (weave p rest) = false := h
  clear h
  induction rest generalizing p with
  | nil =>
    have := marker_not_in hcore
    simp only [weave, List.map_nil, List.nil_append] at this ⊢
    cases extra with
    | nil => rfl
    | cons x xs => simp [substituteMarkers, this]
  | cons xq rest ih =>
    obtain ⟨x, q⟩ := xq
    have hp : inStr markerCore p = false := by
      simp only [weave, List.append_assoc] at hcore
      have := @not_in_of_append markerCore [] p (x ++ weave q rest) (by simpa using hcore)
      exact this
    simp only [weave, List.map_cons, List.cons_append, List.append_assoc, substituteMarkers]
    rw [inStr_marker, if_pos rfl]
    rw [replaceOne_append (no_earlier_marker p _ hp)]
    have hrep : ∀ w, replaceOne subMarker x (subMarker ++ w) = x ++ w := by
      intro w
      have hm : subMarker = '_' :: subMarker.tail := by decide
      rw [hm]
      simp only [List.cons_append, replaceOne]
      rw [if_pos]
      · rw [← List.cons_append, ← hm, List.drop_left]
      · rw [List.isPrefixOf_iff_prefix, ← List.cons_append]; exact List.prefix_append _ _
    rw [hrep]
    have := ih (p ++ x ++ q) (by
      rw [weave_prefix]
      simpa [weave] using hcore)
    rw [weave_prefix, weave_prefix] at this
    simpa using this

example : inStr §"RECIPE_MANAGER_SUBSTITUTION_MARKER" (weave §"a" [(§"{{ x }}", §" b "), (§"{{y}}", [])]) = false := by
  decide

/-- C58: hiding the Jinja expressions of a line and restoring them gives the line back. -/
theorem C58_line_roundtrip (s : Str) (h : inStr §"RECIPE_MANAGER_SUBSTITUTION_MARKER" s = false) :
    substituteMarkers (Regex.jinjaV0Sub.sub (fun _ => subMarker) s) (Regex.jinjaV0Sub.findall s) = (s, []) := by
  obtain ⟨p, rest, h1, h2, h3⟩ := Rx.sub_findall_weave Regex.jinjaV0Sub (by decide) subMarker [] s
  unfold Rx.sub Rx.findall
  rw [h2, h3]
  have := C58_markers_restored_in_order p rest [] (h1 ▸ h)
  simpa [← h1] using this

example : Regex.jinjaV0Sub.findall §"{{ a }}-{{b}}" = [§"{{ a }}", §"{{b}}"] ∧
    inStr §"RECIPE_MANAGER_SUBSTITUTION_MARKER" §"{{ a }}-{{b}}" = false := by decide

/-- A line that spells the marker's text in front of an expression is not restored: the expression moves. -/
theorem C58_own_marker_breaks_roundtrip :
    let s := §"__RECIPE_MANAGER_SUBSTITUTION_MARKER{{x}}"
    inStr subMarker s = false ∧
    substituteMarkers (Regex.jinjaV0Sub.sub (fun _ => subMarker) s) (Regex.jinjaV0Sub.findall s) ≠ (s, []) := by
  decide +kernel

/-! ## C56 -/

theorem find_add (t : MsgTable) (c c' : Category) (m : Str) :
    (t.add c m).find c' = if c' = c then some ((t.find c).getD [] ++ [m]) else t.find c' := by
  have hmap : ∀ t : MsgTable, MsgTable.find (t.map fun e => if e.1 == c then (e.1, e.2 ++ [m]) else e) c' =
      (if c' = c then (t.find c).map (· ++ [m]) else t.find c') := by
    intro t
    induction t with
    | nil => simp [MsgTable.find]
    | cons e es ih =>
      obtain ⟨d, l⟩ := e
      by_cases h1 : d = c
      · subst h1
        by_cases h2 : c' = d
        · subst h2; simp [MsgTable.find]
        · have h3 : (d == c') = false := by simpa using Ne.symm h2
          simp only [MsgTable.find, List.map_cons, beq_self_eq_true, if_true, List.find?_cons, h3, h2, if_false] at ih ⊢
          exact ih
      · have h3 : (d == c) = false := by simpa using h1
        by_cases h2 : d = c'
        · subst h2; simp [MsgTable.find, h1]
        · have h4 : (d == c') = false := by simpa using h2
          simp only [MsgTable.find, List.map_cons, h3, h4, Bool.false_eq_true, if_false, List.find?_cons] at ih ⊢
          exact ih
  unfold MsgTable.add
  simp only
  rw [hmap]
  by_cases hn : (t.find c).isNone
  · have h0 : t.find c = none := by simpa using hn
    have happ : ∀ d, MsgTable.find (t ++ [(c, [])]) d = if d = c then some [] else t.find d := by
      intro d
      by_cases hd : d = c
      · subst hd
        have : t.find? (·.1 == d) = none := by simpa [MsgTable.find] using h0
        simp [MsgTable.find, List.find?_append, this]
      · have : (c == d) = false := by simpa using Ne.symm hd
        simp [MsgTable.find, List.find?_append, this, hd]
    simp only [hn, if_true, happ]
    by_cases hc : c' = c
    · simp [hc, h0]
    · simp [hc]
  · simp only [hn]
    obtain ⟨l, hl⟩ : ∃ l, t.find c = some l := by
      cases h : t.find c with
      | none => simp [h] at hn
      | some l => exact ⟨l, rfl⟩
    simp [hl]

/-- Run a history of calls. -/
def MsgTable.run (t : MsgTable) : List MsgOp → MsgTable
  | [] => t
  | .add c m :: ops => (t.add c m).run ops
  | .clear :: ops => t.clear.run ops

/-- C56: after any history, `get_messages(c)` lists the messages of category `c` added since the last clear, in order,
and `get_message_count(c)` is their number. -/
theorem C56_messages (ops : List MsgOp) (c : Category) :
    (MsgTable.run [] ops).get c = messagesSince c [] ops ∧
    (MsgTable.run [] ops).count c = (messagesSince c [] ops).length := by
  have hget : ∀ (t : MsgTable) (past : List Str), t.get c = past →
      (t.run ops).get c = messagesSince c past ops := by
    induction ops with
    | nil => intro t past h; exact h
    | cons op ops ih =>
      intro t past h
      cases op with
      | add c' m =>
        simp only [MsgTable.run, messagesSince]
        apply ih
        unfold MsgTable.get at h ⊢
        rw [find_add]
        by_cases hc : c = c'
        · subst hc; simp [h]
        · simp [hc, Ne.symm hc, h]
      | clear => exact ih _ _ rfl
  have h1 := hget [] [] rfl
  refine ⟨h1, ?_⟩
  rw [← h1]
  unfold MsgTable.count MsgTable.get
  cases MsgTable.find (MsgTable.run [] ops) c <;> rfl

/-- C56: the summary line is empty exactly when nothing was added since the last clear, and otherwise shows the number
of errors and warnings. -/
theorem C56_totals (ops : List MsgOp) :
    let n := (messagesSince .error [] ops).length
    let w := (messagesSince .warning [] ops).length
    ((∀ c, messagesSince c [] ops = []) → (MsgTable.run [] ops).totals = []) ∧
    (¬ (∀ c, messagesSince c [] ops = []) → (MsgTable.run [] ops).totals =
      natStr n ++ §" " ++ (if n = 1 then §"error" else §"errors") ++ §" and " ++
        (natStr w ++ §" " ++ (if w = 1 then §"warning" else §"warnings")) ++ §" were found.") := by
  intro n w
  have hempty : (MsgTable.run [] ops).isEmpty = true ↔ ∀ c, messagesSince c [] ops = [] := by
    -- stored lists are never empty
    have hinv : ∀ (t : MsgTable), (∀ e ∈ t, e.2 ≠ []) → ∀ e ∈ t.run ops, e.2 ≠ [] := by
      induction ops with
      | nil => intro t h; exact h
      | cons op ops ih =>
        intro t h
        cases op with
        | add c m =>
          apply ih
          intro e he
          unfold MsgTable.add at he
          obtain ⟨e0, h0, rfl⟩ := List.mem_map.1 he
          by_cases hc : e0.1 == c
          · simp [hc]
          · simp only [hc]
            split at h0
            · rcases List.mem_append.1 h0 with h1 | h1
              · exact h e0 h1
              · simp at h1; subst h1; simp at hc
            · exact h e0 h0
        | clear => exact ih _ (by simp [MsgTable.clear])
    have hinv := hinv [] (by simp)
    constructor
    · intro h c
      rw [← (C56_messages ops c).1]
      have : MsgTable.run [] ops = [] := by simpa using h
      simp [this, MsgTable.get, MsgTable.find]
    · intro h
      cases ht : MsgTable.run [] ops with
      | nil => rfl
      | cons e es =>
        exfalso
        have h1 := (C56_messages ops e.1).1
        rw [h e.1, ht] at h1
        have : e.2 = [] := by simpa [MsgTable.get, MsgTable.find] using h1
        exact hinv e (by simp [ht]) this
  unfold MsgTable.totals
  constructor
  · intro h
    rw [if_pos (hempty.2 h)]
  · intro h
    rw [if_neg (fun h' => h (hempty.1 h'))]
    have h1 := (C56_messages ops .error).2
    have h2 := (C56_messages ops .warning).2
    simp only [MsgTable.count] at h1 h2
    simp only
    rw [h1, h2]
    simp only [MsgTable.pluralize, n, w]
    rfl

example : messagesSince .error [] [.add .error §"a", .clear, .add .error §"b", .add .warning §"c", .add .error §"d"]
    = [§"b", §"d"] := by decide

end Crm
