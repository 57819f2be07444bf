import Verif.Lemmas.PreProcessEnv
import Verif.Lemmas.DocVars

/-! # The changes made to the text of a recipe before a conversion (C87, C91) -/

namespace Crm
open Spec

/-! ## C87 -/

theorem lines_nonempty {variants : List Str} (h : variants.Perm hashTypeLines) : ∀ w ∈ variants, w ≠ [] := by
  have h0 : ∀ w ∈ hashTypeLines, w ≠ [] := by decide
  exact fun w hw => h0 w (h.mem_iff.1 hw)

/-- C87: before a conversion the text of a recipe is changed in these ways, one after the other, and in no other way: the
last dot of a call in a `{% set %}` statement, and in a substitution, becomes a `|`; `| lower()` and `| upper()` lose
their parentheses; a quoted text that holds `\n` becomes two lines; the names of the bounds of a pin change; `environ[..]`
becomes `env.get(..)`; the definitions of a hash type go, and the keys that use them become `sha256:`. -/
theorem C87_pre_process (variants : List Str) (h : variants.Perm hashTypeLines) (s out : Str) :
    preProcessRecipeText variants s = out ↔ PreProcessed variants s out := by
  unfold preProcessRecipeText preProcessRemoveHashType PreProcessed Regex.preProcessMinPin Regex.preProcessMaxPin
  simp only [dotInSet_sub, dotInSubstitution_sub, emptyCall_sub, quotedLines_sub, environReplaced_iff,
    removed_iff (lines_nonempty h), hashKey_sub, word_sub _ _ (show 0 < (Rx.lit §"min_pin=").minLen by decide),
    word_sub _ _ (show 0 < (Rx.lit §"max_pin=").minLen by decide)]
  constructor
  · rintro rfl
    obtain ⟨found, hf⟩ := found_exists _
    exact ⟨_, _, _, _, _, _, _, _, found, rfl, rfl, rfl, rfl, rfl, rfl, hf, by rw [found_groups hf], rfl, rfl⟩
  · rintro ⟨_, _, _, _, _, _, _, _, found, rfl, rfl, rfl, rfl, rfl, rfl, hf, rfl, rfl, rfl⟩
    rw [← found_groups hf []]

/-- Texts that show the changes. -/
example : preProcessRecipeText hashTypeLines §"{% set a = b.lower() %}\nx: {{ name.replace(\"-\", \"_\") }}\ny: {{ z.upper() }}\n" =
    §"{% set a = b | lower %}\nx: {{ name | replace(\"-\", \"_\") }}\ny: {{ z | upper }}\n" := by decide +kernel
example : preProcessRecipeText hashTypeLines §"about:\n  summary: \"one\\ntwo\"\n  d: {{ environ[\"A\"] }} {{ pin(x, min_pin=\"x\") }}\n" =
    §"about:\n  summary: |\n    one\n    two\n  d: {{ env.get(\"A\") }} {{ pin(x, lower_bound=\"x\") }}\n" := by decide +kernel

/-! ## C91 -/

namespace Spec

/-- A text without the characters that the changes look for. -/
def Plain (t : Str) : Prop := ∀ c ∈ t, c ∉ §"{}()[].|\\=%'"

/-- How a call is written as a filter: without parentheses for `lower()` and `upper()`. -/
def filterCall (f args : Str) : Str :=
  if args = [] ∧ (f = §"lower" ∨ f = §"upper") then f else f ++ §"(" ++ args ++ §")"

end Spec

theorem rewritten_none {rule : Str → Str → Str → Prop} {s : Str}
    (h : ∀ a old rest new, s = a ++ old ++ rest → ¬ rule old rest new) : Rewritten rule s s := by
  induction s with
  | nil => exact .done
  | cons c s ih =>
    refine .miss (fun old rest new he => h [] old rest new he) (ih fun a old rest new he => ?_)
    exact h (c :: a) old rest new (by rw [he]; rfl)

theorem rewritten_front {rule : Str → Str → Str → Prop} {pre s out : Str}
    (h : ∀ c y old rest new, c ∈ pre → c :: y = old ++ rest → ¬ rule old rest new) (hr : Rewritten rule s out) :
    Rewritten rule (pre ++ s) (pre ++ out) := by
  induction pre with
  | nil => exact hr
  | cons c pre ih =>
    exact .miss (fun old rest new he => h c _ old rest new (by simp) he) (ih fun d y old rest new hd => h d y old rest new (by simp [hd]))

theorem found_none {α : Type} {rule : Str → Str → α → Prop} {s : Str}
    (h : ∀ a old rest x, s = a ++ old ++ rest → ¬ rule old rest x) : Found rule s [] := by
  induction s with
  | nil => exact .done
  | cons c s ih =>
    refine .miss (fun old rest new he => h [] old rest new he) (ih fun a old rest new he => ?_)
    exact h (c :: a) old rest new (by rw [he]; rfl)

/-- Two runs of a kind of characters, each with another kind of character behind it. -/
theorem runs_eq {p : Char → Bool} {a b x y : Str} {c d : Char} (h : a ++ c :: x = b ++ d :: y) (ha : ∀ e ∈ a, p e = true)
    (hb : ∀ e ∈ b, p e = true) (hc : p c = false) (hd : p d = false) : a = b ∧ c = d ∧ x = y := by
  induction a generalizing b with
  | nil =>
    cases b with
    | nil => simpa using h
    | cons e b =>
      injection h with h
      rw [h, hb e (by simp)] at hc
      cases hc
  | cons e a ih =>
    cases b with
    | nil =>
      injection h with h
      rw [← h, ha e (by simp)] at hd
      cases hd
    | cons g b =>
      injection h with h1 h2
      obtain ⟨rfl, h3⟩ := ih h2 (fun e he => ha e (by simp [he])) (fun e he => hb e (by simp [he]))
      exact ⟨by rw [h1], h3⟩

theorem name_space {c : Char} (h : nameChar c = true) : isSpace c = false :=
  isSpace_alnum (by simpa [nameChar] using h)

theorem name_plain {t : Str} (h : Only nameChar t) : ∀ c ∈ t, c ∉ §"{}()[].|\\=%'" := by
  intro c hc hm
  have h1 := h c hc
  revert h1
  simp only [List.mem_cons, List.not_mem_nil, or_false] at hm
  rcases hm with rfl | rfl | rfl | rfl | rfl | rfl | rfl | rfl | rfl | rfl | rfl | rfl <;> decide

/-- A text without the characters that most of the changes look for. -/
def Free (t : Str) : Prop := ∀ c ∈ §"\\=%[", c ∉ t

theorem Free.append {a b : Str} (ha : Free a) (hb : Free b) : Free (a ++ b) := by
  intro c hc hm
  rcases List.mem_append.1 hm with h | h
  · exact ha c hc h
  · exact hb c hc h

theorem Free.of_plain {t : Str} (h : ∀ c ∈ t, c ∉ §"{}()[].|\\=%'") : Free t := by
  have h0 : ∀ c ∈ §"\\=%[", c ∈ §"{}()[].|\\=%'" := by decide
  exact fun c hc hm => h c hm (h0 c hc)

theorem Free.filterCall {f args : Str} (hf : Free f) (ha : Free args) : Free (filterCall f args) := by
  unfold Spec.filterCall
  split
  · exact hf
  · exact ((hf.append (by unfold Free; decide)).append ha).append (by unfold Free; decide)

theorem free_set {s : Str} (h : Free s) : Rewritten DotInSet s s := by
  refine rewritten_none fun a old rest new he => ?_
  rintro ⟨w, x, b, v, rfl, _⟩
  exact h '%' (by decide) (by rw [he]; simp)

theorem free_quoted {s : Str} (h : Free s) : Rewritten QuotedLines s s := by
  refine rewritten_none fun a old rest new he => ?_
  rintro ⟨w, x, g, q, b, b', q', rfl, _⟩
  exact h '\\' (by decide) (by rw [he]; simp)

theorem free_word {s w new : Str} (h : Free s) (hw : '=' ∈ w) : Rewritten (Word w new) s s := by
  refine rewritten_none fun a old rest new he => ?_
  rintro ⟨rfl, _⟩
  exact h '=' (by decide) (by rw [he]; simp [hw])

theorem free_environ {s : Str} (h : Free s) : Found EnvironUse s [] := by
  refine found_none fun a old rest new he => ?_
  rintro ⟨w, q, rfl, _⟩
  exact h '[' (by decide) (by rw [he]; simp)

theorem free_removed {ws : List Str} {s : Str} (h : Free s) (hw : ∀ w ∈ ws, '%' ∈ w) : AllRemoved ws s s := by
  induction ws with
  | nil => exact .nil
  | cons w ws ih =>
    refine .cons (rewritten_none fun a old rest new he => ?_) (ih fun w hm => hw w (by simp [hm]))
    rintro ⟨rfl, _⟩
    exact h '%' (by decide) (by rw [he]; simp [hw])

/-- The pieces of a text that begins with a character another text does not have. -/
theorem tail_absent {c : Char} {s y z : Str} (hs : c ∉ s) (h : s = y ++ c :: z) : False := hs (by rw [h]; simp)

/-- A substitution with one call, and plain text around it. -/
theorem pre_call {variants : List Str} (h : variants.Perm hashTypeLines) {pre name f args post : Str} (hpre : Plain pre) (hpost : Plain post)
    (hname : Only nameChar name) (hf : Only nameChar f) (hargs : Plain args) (hnb : NoBreak args) :
    PreProcessed variants (pre ++ §"{{ " ++ name ++ §"." ++ f ++ §"(" ++ args ++ §") }}" ++ post)
      (pre ++ §"{{ " ++ name ++ §" | " ++ filterCall f args ++ §" }}" ++ post) := by
  have hname' := name_plain hname
  have hf' := name_plain hf
  have lit_free : Free §"{{ " ∧ Free §"." ∧ Free §"(" ∧ Free §") }}" ∧ Free §" | " ∧ Free §" }}" := by
    unfold Free; decide
  obtain ⟨l1, l2, l3, l4, l5, l6⟩ := lit_free
  have fr1 := (((((((Free.of_plain hpre).append l1).append (.of_plain hname')).append l2).append (.of_plain hf')).append l3).append
    (.of_plain hargs)).append l4 |>.append (.of_plain hpost)
  have fr3 := ((((((Free.of_plain hpre).append l1).append (.of_plain hname')).append l5).append
    ((Free.of_plain hf').filterCall (.of_plain hargs))).append l6).append (.of_plain hpost)
  refine ⟨_, pre ++ §"{{ " ++ name ++ §" | " ++ f ++ §"(" ++ args ++ §") }}" ++ post, _, _, _, _, _, _, [], free_set fr1, ?_, ?_,
    free_quoted fr3, free_word fr3 (by decide), free_word fr3 (by decide), free_environ fr3, .nil, free_removed fr3 ?_, ?_⟩
  · -- the dot
    simp only [List.append_assoc]
    refine rewritten_front (fun c y old rest new hc he hr => ?_) ?_
    · obtain ⟨w, a, _, _, _, rfl, _⟩ := hr
      injection he with he
      exact hpre c hc (by rw [he]; decide)
    have hend : Rewritten DotInSubstitution post post := by
      refine rewritten_none fun a old rest new he => ?_
      rintro ⟨w, x, _, _, _, rfl, _⟩
      exact hpost '{' (by rw [he]; simp) (by decide)
    have hhit := Rewritten.hit (rule := DotInSubstitution) (old := §"{{" ++ §" " ++ name ++ §"." ++ f ++ §"(" ++ args ++ §")" ++ §" " ++ §"}}")
      (rest := post) (new := §"{{" ++ §" " ++ name ++ §" | " ++ f ++ §"(" ++ args ++ §")" ++ §" " ++ §"}}") (out := post)
      ⟨§" ", name, f, args, §" ", rfl, by unfold Only; decide, ?_, hf, by unfold Only; decide, ?_, ?_, rfl⟩ hend
    · simpa using hhit
    · intro c hc
      exact name_space (hname c (List.mem_of_mem_head? hc))
    · refine ⟨fun hm => absurd (hname _ hm) (by decide), ?_, ?_⟩
      · exact ⟨f, args, §")" ++ §" " ++ §"}}" ++ post, by simp, hf, hnb, §" ", post, by simp, by unfold Only; decide⟩
      · rintro y z he hy _ ⟨_, _, _, rfl, _⟩
        cases y with
        | nil => exact hy rfl
        | cons d y =>
          simp only [List.append_assoc, List.cons_append, List.nil_append, List.cons.injEq] at he
          refine tail_absent ?_ he.2
          simp only [List.mem_append, List.mem_cons, not_or]
          exact ⟨fun hm => hf' _ hm (by decide), by decide, fun hm => hargs _ hm (by decide), by decide, by decide, by decide, by decide,
            fun hm => hpost _ hm (by decide)⟩
    · refine ⟨hnb, ⟨§" ", post, by simp, by unfold Only; decide⟩, ?_⟩
      rintro y z he hy _ ⟨_, _, rfl, _⟩
      cases y with
      | nil => exact hy rfl
      | cons d y =>
        simp only [List.append_assoc, List.cons_append, List.nil_append, List.cons.injEq] at he
        refine tail_absent ?_ he.2
        simp only [List.mem_cons, not_or]
        exact ⟨by decide, by decide, by decide, fun hm => hpost _ hm (by decide)⟩
  · -- the parentheses
    have e2 : pre ++ §"{{ " ++ name ++ §" | " ++ f ++ §"(" ++ args ++ §") }}" ++ post =
      (pre ++ §"{{ " ++ name ++ §" ") ++ (§"| " ++ f ++ §"(" ++ args ++ §") }}" ++ post) := by simp
    have e3 : pre ++ §"{{ " ++ name ++ §" | " ++ filterCall f args ++ §" }}" ++ post =
      (pre ++ §"{{ " ++ name ++ §" ") ++ (§"| " ++ filterCall f args ++ §" }}" ++ post) := by simp
    rw [e2, e3]
    have hbar : '|' ∉ pre ++ §"{{ " ++ name ++ §" " := by
      simp only [List.mem_append, not_or]
      exact ⟨⟨⟨fun hm => hpre _ hm (by decide), by decide⟩, fun hm => hname' _ hm (by decide)⟩, by decide⟩
    refine rewritten_front (fun c y old rest new hc he hr => ?_) ?_
    · obtain ⟨_, _, _, _, rfl, _⟩ := hr
      injection he with he
      exact hbar (he ▸ hc)
    have none_of : ∀ t : Str, '|' ∉ t → Rewritten EmptyCall t t := by
      intro t ht
      refine rewritten_none fun a old rest new he => ?_
      rintro ⟨_, _, _, _, rfl, _⟩
      exact ht (by rw [he]; simp)
    unfold Spec.filterCall
    split
    case isTrue hc =>
      obtain ⟨rfl, hlu⟩ := hc
      have hhit := Rewritten.hit (rule := EmptyCall) (old := §"|" ++ §" " ++ f ++ §"()") (new := §"|" ++ §" " ++ f)
        (rest := §" }}" ++ post) (out := §" }}" ++ post) ⟨§" ", f, hlu, by unfold Only; decide, rfl, rfl⟩
        (none_of _ (by
          simp only [List.mem_append, not_or]
          exact ⟨by decide, fun hm => hpost _ hm (by decide)⟩))
      simpa using hhit
    case isFalse hc =>
      have ht : '|' ∉ §" " ++ f ++ §"(" ++ args ++ §") }}" ++ post := by
        simp only [List.mem_append, not_or]
        exact ⟨⟨⟨⟨⟨by decide, fun hm => hf' _ hm (by decide)⟩, by decide⟩, fun hm => hargs _ hm (by decide)⟩, by decide⟩,
          fun hm => hpost _ hm (by decide)⟩
      have hmiss := Rewritten.miss (rule := EmptyCall) (c := '|') (rest := §" " ++ f ++ §"(" ++ args ++ §") }}" ++ post) ?_ (none_of _ ht)
      · simpa using hmiss
      · rintro old rest' new he ⟨w, g, hg, hw, rfl, _⟩
        simp only [List.append_assoc, List.cons_append, List.nil_append, List.cons.injEq, true_and] at he
        have hg0 : ∃ d g', g = d :: g' ∧ isSpace d = false ∧ Only nameChar g := by
          rcases hg with rfl | rfl
          · exact ⟨'l', §"ower", rfl, by decide, by unfold Only; decide⟩
          · exact ⟨'u', §"pper", rfl, by decide, by unfold Only; decide⟩
        obtain ⟨d, g', hgd, hd, hgn⟩ := hg0
        obtain ⟨d2, f2, hfd, hd2⟩ : ∃ d2 f2, f ++ ('(' :: (args ++ (')' :: ' ' :: '}' :: '}' :: post))) = d2 :: f2 ∧ isSpace d2 = false := by
          cases hfe : f with
          | nil => exact ⟨_, _, rfl, by decide⟩
          | cons e f2 => exact ⟨e, _, rfl, name_space (hf e (by rw [hfe]; simp))⟩
        have h1 : §" " ++ d2 :: f2 = w ++ d :: (g' ++ ('(' :: ')' :: rest')) := by
          rw [← hfd]; rw [hgd] at he; simpa using he
        obtain ⟨rfl, -, -⟩ := runs_eq h1 (p := isSpace) (by decide) hw hd2 hd
        simp only [List.cons_append, List.nil_append, List.cons.injEq, true_and] at he
        obtain ⟨rfl, -, h2⟩ := runs_eq he (p := nameChar) hf hgn (by decide) (by decide)
        cases args with
        | nil => exact hc ⟨rfl, hg⟩
        | cons a args =>
          injection h2 with h2
          exact hargs a (by simp) (by rw [h2]; decide)
  · intro w hw
    have h0 : ∀ w ∈ hashTypeLines, '%' ∈ w := by decide
    exact h0 w (h.mem_iff.1 hw)
  · -- no key of a hash
    simp only [List.append_assoc]
    refine rewritten_front (fun c y old rest new hc he hr => ?_) ?_
    · obtain ⟨q, _, _, hq, _, _, rfl, _⟩ := hr
      rcases hq with rfl | rfl
      · injection he with he
        exact hpre c hc (by rw [he]; decide)
      · injection he with he
        exact hpre c hc (by rw [he]; decide)
    have hno : ∀ old rest' new, §"{{ " ++ (name ++ (§" | " ++ (filterCall f args ++ (§" }}" ++ post)))) = old ++ rest' → ¬ HashKey old rest' new := by
      rintro old rest' new he ⟨q, nm, q', hq, hnm, _, rfl, _⟩
      rcases hq with rfl | rfl
      · simp only [List.append_assoc, List.cons_append, List.nil_append, List.cons.injEq, true_and] at he
        have hn : Only nameChar nm := by rcases hnm with rfl | rfl | rfl <;> (unfold Only; decide)
        obtain ⟨-, -, h2⟩ := runs_eq he (p := nameChar) hname hn (by decide) (by decide)
        injection h2 with h2
        exact absurd h2 (by decide)
      · injection he with he
        exact absurd he (by decide)
    have hfc : ∀ c ∈ filterCall f args, c ≠ '{' ∧ c ≠ '\'' := by
      intro c hc
      have hc : c ∈ f ∨ c ∈ args ∨ c = '(' ∨ c = ')' := by
        unfold Spec.filterCall at hc
        split at hc
        · exact Or.inl hc
        · simp at hc; rcases hc with h | h | h | h <;> simp [h]
      rcases hc with hc | hc | rfl | rfl
      · exact ⟨fun h => hf' c hc (by rw [h]; decide), fun h => hf' c hc (by rw [h]; decide)⟩
      · exact ⟨fun h => hargs c hc (by rw [h]; decide), fun h => hargs c hc (by rw [h]; decide)⟩
      · decide
      · decide
    refine .miss hno (.miss ?_ (.miss ?_ ?_))
    · rintro old rest' new he ⟨q, nm, q', hq, hnm, _, rfl, _⟩
      rcases hq with rfl | rfl
      · injection he with _ he
        injection he with he
        exact absurd he (by decide)
      · injection he with he
        exact absurd he (by decide)
    · rintro old rest' new he ⟨q, nm, q', hq, hnm, _, rfl, _⟩
      rcases hq with rfl | rfl <;> injection he with he <;> exact absurd he (by decide)
    · refine rewritten_none fun a old rest new he => ?_
      rintro ⟨q, nm, q', hq, hnm, _, rfl, _⟩
      have hm : '{' ∈ name ++ (§" | " ++ (filterCall f args ++ (§" }}" ++ post))) := by
        show '{' ∈ [] ++ (name ++ (§" | " ++ (filterCall f args ++ (§" }}" ++ post))))
        rw [List.nil_append, show name ++ (§" | " ++ (filterCall f args ++ (§" }}" ++ post))) = _ from he]
        simp
      simp only [List.mem_append] at hm
      rcases hm with hm | hm | hm | hm | hm
      · exact hname' _ hm (by decide)
      · exact absurd hm (by decide)
      · exact (hfc _ hm).1 rfl
      · exact absurd hm (by decide)
      · exact hpost _ hm (by decide)

/-- C91: in a text with one substitution and plain text around it, a call of a method becomes a filter, and all else stays.
Missing: other texts, see the violations. -/
theorem C91_call_partial {variants : List Str} (h : variants.Perm hashTypeLines) {pre name f args post : Str} (hpre : Plain pre)
    (hpost : Plain post) (hname : Only nameChar name) (hf : Only nameChar f) (hargs : Plain args) (hnb : NoBreak args) :
    preProcessRecipeText variants (pre ++ §"{{ " ++ name ++ §"." ++ f ++ §"(" ++ args ++ §") }}" ++ post) =
      pre ++ §"{{ " ++ name ++ §" | " ++ filterCall f args ++ §" }}" ++ post :=
  (C87_pre_process variants h _ _).2 (pre_call h hpre hpost hname hf hargs hnb)

example : preProcessRecipeText hashTypeLines (§"name: " ++ §"{{ " ++ §"name" ++ §"." ++ §"lower" ++ §"(" ++ [] ++ §") }}" ++ §"-dev\n") =
    §"name: {{ name | lower }}-dev\n" :=
  C91_call_partial (.refl _) (by unfold Plain; decide) (by unfold Plain; decide) (by unfold Only; decide) (by unfold Only; decide)
    (by unfold Plain; decide) (by unfold NoBreak; decide)

/-- C91 is false in general: of two calls on one line, only the last becomes a filter. -/
theorem C91_two_calls_violation : preProcessRecipeText hashTypeLines §"x: {{ a.lower() }}-{{ b.lower() }}\n" =
    §"x: {{ a.lower() }}-{{ b | lower }}\n" := by decide +kernel

/-- C91 is false in general: a dot in a quoted text is taken for a call. -/
theorem C91_quoted_text_violation : preProcessRecipeText hashTypeLines §"{% set url = \"http://a.org/f(1)\" ~ (x) %}\n" =
    §"{% set url = \"http://a | org/f(1)\" ~ (x) %}\n" := by decide +kernel

/-- C91 is false in general: two uses of `environ` on a line are taken for one, and the result is broken. -/
theorem C91_two_environs_violation : preProcessRecipeText hashTypeLines §"x: {{ environ[\"A\"] }}{{ environ[\"B\"] }}\n" =
    §"x: {{ env.get(\"A\"] }}{{ environ[\"B\") }}\n" := by decide +kernel

/-- C91 is false in general: without a line break in front of its key, a quoted text of two lines becomes one line. -/
theorem C91_first_line_violation : preProcessRecipeText hashTypeLines §"a: \"x\\ny\"\n" = §"a: |  x  y\n" := by decide +kernel

end Crm
