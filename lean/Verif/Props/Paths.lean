import Verif.Lemmas.Path
import Verif.Examples.ToyYaml

/-!
# Recipe paths (C01, C02)
-/

namespace Crm
open Spec

/-- C01: splitting the absolute path with components `comps` gives the root marker and the components, and putting the
stack back together gives the same path. -/
theorem C01_path_roundtrip (comps : List Str) (hne : comps ≠ []) (hc : ∀ c ∈ comps, Component c) :
    ∃ stack, strToStack (absPath comps) = .ok stack ∧ stack = §"/" :: comps ∧ stackToStr stack = absPath comps :=
  ⟨_, strToStack_absPath comps hne hc, rfl, stackToStr_root comps hc⟩

example : ([§"requirements", §"host", §"0"] : List Str) ≠ [] ∧
    ∀ c ∈ [§"requirements", §"host", §"0"], Component c := by decide

/-- C01: one trailing slash does not change the place a path names (any path text that does not itself end in one). -/
theorem C01_trailing_slash (p : Str) (hne : p ≠ []) (hs : p.getLast? ≠ some '/') :
    strToStack (p ++ §"/") = strToStack p :=
  strToStack_trailing p hne hs

example : (§"/build/number" : Str) ≠ [] ∧ (§"/build/number" : Str).getLast? ≠ some '/' := by decide

/-- C01: splitting raises exactly for the empty string, and then it is an `IndexError`. -/
theorem C01_split_raises_iff (p : Str) :
    (∃ e, strToStack p = .error e) ↔ p = [] ∧ strToStack p = .error .indexError := by
  unfold strToStack
  by_cases h : p = [] <;> simp [h]

/-- C01: two absolute paths that name the same stack are the same path. -/
theorem C01_split_injective (a b : List Str) (ha : ∀ c ∈ a, Component c) (hb : ∀ c ∈ b, Component c)
    (hna : a ≠ []) (hnb : b ≠ []) (h : strToStack (absPath a) = strToStack (absPath b)) : a = b := by
  rw [strToStack_absPath a hna ha, strToStack_absPath b hnb hb] at h
  injection h with h; exact List.tail_eq_of_cons_eq h

/-- The root path is the exception: it splits into the root marker but is put back together as the empty string, and
the empty string cannot be split again. -/
theorem C01_root_is_lost :
    strToStack §"/" = .ok [§"/"] ∧ stackToStr [§"/"] = [] ∧ strToStack (stackToStr [§"/"]) = .error .indexError := by
  decide

/-- A relative path is not rejected: its first component is dropped and `foo/bar` is walked like `/bar`. -/
theorem C01_relative_path_is_misread (root : Node) (c : Str) (comps : List Str) (hne : comps ≠ [])
    (hc : ∀ d ∈ c :: comps, Component d) :
    (strToStack (c ++ absPath comps)).map (traverse root) = (strToStack (absPath comps)).map (traverse root) := by
  rw [strToStack_absPath comps hne (fun d hd => hc d (by simp [hd]))]
  have h1 : strToStack (c ++ absPath comps) = .ok (c :: comps) := by
    have hl := absPath_getLast (c :: comps) (by simp) hc
    have hs := strToStack_absPath (c :: comps) (by simp) hc
    have hn : c ++ absPath comps ≠ [] := by simp [(hc c (by simp)).1]
    have hl2 : (c ++ absPath comps).getLast? ≠ some '/' := by
      have : (absPath (c :: comps)).getLast? = (c ++ absPath comps).getLast? := by
        rw [absPath_cons, List.cons_append, List.getLast?_cons, List.getLast?_eq_some_getLast hn]; rfl
      rwa [← this]
    simp only [strToStack, if_neg hn, if_neg hl2]
    have hj : c ++ absPath comps = joinStr ['/'] (c :: comps) := by
      rw [absPath_eq_join comps hne, joinStr_cons _ [] _ hne, joinStr_cons _ c _ hne]; simp
    rw [hj, splitChar_join '/' _ (by simp) (fun p hp => (hc p hp).2)]
    rw [List.map_congr_left (g := id) (fun d hd => by simp [(hc d hd).1]), List.map_id]
  rw [h1]
  cases comps with
  | nil => exact absurd rfl hne
  | cons d ds => rfl

example : ∀ d ∈ [§"foo", §"bar"], Component d := by decide

/-- C02: the seam has exactly one slash, for every base and every extension. -/
theorem C02_one_slash (base ext : Str) :
    Recipe.appendToPath base ext = dropTrailing base ++ §"/" ++ dropLeading ext := by
  unfold Recipe.appendToPath dropTrailing
  have hext : (if ext.head? = some '/' then ext.drop 1 else ext) = dropLeading ext := by
    cases ext with
    | nil => rfl
    | cons c cs =>
      by_cases h : c = '/'
      · subst h; rfl
      · simp only [List.head?_cons, Option.some.injEq, h, if_false]
        unfold dropLeading; split
        · rename_i heq; simp at heq; exact absurd heq.1 h
        · rfl
  simp only [hext]
  by_cases h : base = []
  · subst h; simp
  · simp only [h, if_false]
    by_cases h2 : base.getLast? = some '/'
    · obtain ⟨b, hb⟩ : ∃ b, base = b ++ ['/'] := by
        refine ⟨base.dropLast, ?_⟩
        rw [← List.dropLast_concat_getLast h] ; congr 1
        · simp
        · rw [List.getLast?_eq_some_getLast h] at h2; injection h2 with h2; rw [h2]
      subst hb; simp
    · simp [h2]

/-- C02: `append_to_path(base, ext)` names the place reached by walking `base` and then `ext`, with and without a
slash at the end of `base` and at the start of `ext`. -/
theorem C02_append_walks (root : Node) (a b : List Str) (ha : ∀ c ∈ a, Component c) (hb : ∀ c ∈ b, Component c)
    (hne : b ≠ []) (base ext : Str) (hbase : base = absPath a ∨ base = absPath a ++ §"/")
    (hext : ext = absPath b ∨ §"/" ++ ext = absPath b) :
    Recipe.appendToPath base ext = absPath (a ++ b) ∧
    (strToStack (Recipe.appendToPath base ext)).map (traverse root) =
      .ok ((traverseRec root a).bind fun p => (nodeAt root p).bind fun m => (traverseRec m b).map (p ++ ·)) := by
  have hd : dropTrailing base = absPath a := by
    rcases hbase with rfl | rfl
    · unfold dropTrailing
      by_cases h : a = []
      · subst h; simp [absPath]
      · rw [if_neg (absPath_getLast a h ha)]
    · simp [dropTrailing]
  have he : §"/" ++ dropLeading ext = absPath b := by
    cases b with
    | nil => exact absurd rfl hne
    | cons c cs =>
      rcases hext with rfl | hext
      · simp [absPath_cons, dropLeading]
      · have : ext = c ++ absPath cs := by simpa [absPath_cons] using hext
        obtain ⟨hc1, hc2⟩ := hb c (by simp)
        cases c with
        | nil => exact absurd rfl hc1
        | cons x xs =>
          have hx : x ≠ '/' := fun h => hc2 (by simp [h])
          have : dropLeading ext = ext := by
            rw [this]; unfold dropLeading; split
            · rename_i heq; simp at heq; exact absurd heq.1 hx
            · rfl
          rw [this]; exact hext
  have h1 : Recipe.appendToPath base ext = absPath (a ++ b) := by
    rw [C02_one_slash, hd, List.append_assoc, he, absPath_append]
  refine ⟨h1, ?_⟩
  have hab : ∀ c ∈ a ++ b, Component c := fun c hc => by
    rcases List.mem_append.1 hc with h | h
    · exact ha c h
    · exact hb c h
  rw [h1, strToStack_absPath (a ++ b) (by simp [hne]) hab, ← traverseRec_append]
  cases h : a ++ b with
  | nil => simp [hne] at h
  | cons x xs => rfl

example : (∀ c ∈ [§"outputs", §"0"], Component c) ∧ (∀ c ∈ [§"requirements"], Component c) ∧
    Recipe.appendToPath §"/outputs/0" §"/requirements" = §"/outputs/0/requirements" ∧
    Recipe.appendToPath §"/" §"requirements" = §"/requirements" := by decide

end Crm
