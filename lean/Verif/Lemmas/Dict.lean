import Verif.Model.Value

/-! # Lemmas about association lists -/

namespace Crm

theorem lookupD_insertD {α : Type} (k k' : Str) (v : α) (d : List (Str × α)) :
    lookupD k' (insertD k v d) = if k' = k then some v else lookupD k' d := by
  induction d with
  | nil => simp only [insertD, lookupD]; by_cases h : k = k' <;> simp [h, eq_comm]
  | cons e es ih =>
    obtain ⟨l, w⟩ := e
    simp only [insertD]
    by_cases h : l = k
    · subst h
      by_cases h2 : l = k'
      · subst h2; simp [lookupD]
      · simp [lookupD, h2, Ne.symm h2]
    · by_cases h2 : l = k'
      · subst h2; simp [lookupD, h]
      · simp [lookupD, h, h2, ih]

theorem lookupD_none {α : Type} (k : Str) (d : List (Str × α)) : lookupD k d = none ↔ k ∉ d.map (·.1) := by
  induction d with
  | nil => simp [lookupD]
  | cons e es ih =>
    obtain ⟨l, w⟩ := e
    by_cases h : l = k
    · simp [lookupD, h]
    · simp only [lookupD, h, if_false, ih, List.map_cons, List.mem_cons, not_or]
      exact ⟨fun h' => ⟨fun e => h e.symm, h'⟩, fun h' => h'.2⟩

theorem keys_insertD {α : Type} (k : Str) (v : α) (d : List (Str × α)) :
    (insertD k v d).map (·.1) = if k ∈ d.map (·.1) then d.map (·.1) else d.map (·.1) ++ [k] := by
  induction d with
  | nil => simp [insertD]
  | cons e es ih =>
    obtain ⟨l, w⟩ := e
    simp only [insertD]
    by_cases h : l = k
    · simp [h]
    · simp only [h, if_false, List.map_cons, ih, List.mem_cons]
      by_cases h2 : k ∈ es.map (·.1)
      · simp [h2]
      · simp only [h2, if_false, or_false, Ne.symm h, List.cons_append]

theorem lookupD_eraseD {α : Type} (k k' : Str) (d : List (Str × α)) (hn : (d.map (·.1)).Nodup) :
    lookupD k' (eraseD k d) = if k' = k then none else lookupD k' d := by
  induction d with
  | nil => simp [eraseD, lookupD]
  | cons e es ih =>
    obtain ⟨l, w⟩ := e
    simp only [List.map_cons, List.nodup_cons] at hn
    simp only [eraseD]
    by_cases h : l = k
    · subst h
      by_cases h2 : k' = l
      · subst h2; simpa using (lookupD_none k' es).2 hn.1
      · simp [lookupD, h2, Ne.symm h2]
    · by_cases h2 : l = k'
      · subst h2; simp [lookupD, h]
      · simp [lookupD, h, h2, ih hn.2]

theorem keys_eraseD {α : Type} (k : Str) (d : List (Str × α)) : (eraseD k d).map (·.1) = (d.map (·.1)).erase k := by
  induction d with
  | nil => rfl
  | cons e es ih =>
    obtain ⟨l, w⟩ := e
    simp only [eraseD]
    by_cases h : l = k
    · subst h; simp
    · simp [h, ih, List.erase_cons_tail]

theorem nodup_insertD {α : Type} (k : Str) (v : α) (d : List (Str × α)) (hn : (d.map (·.1)).Nodup) :
    ((insertD k v d).map (·.1)).Nodup := by
  rw [keys_insertD]
  split
  · exact hn
  · rename_i h
    rw [List.nodup_append]
    exact ⟨hn, by simp, by intro a ha b hb; simp at hb; subst hb; rintro rfl; exact h ha⟩

theorem nodup_eraseD {α : Type} (k : Str) (d : List (Str × α)) (hn : (d.map (·.1)).Nodup) :
    ((eraseD k d).map (·.1)).Nodup := by
  rw [keys_eraseD]; exact hn.erase k

theorem lookupD_isSome {α : Type} (k : Str) (d : List (Str × α)) : (lookupD k d).isSome = true ↔ k ∈ d.map (·.1) := by
  have := lookupD_none k d
  cases h : lookupD k d with
  | none => simp [h] at this ⊢; exact this
  | some v => simp [h] at this ⊢; exact this

end Crm
