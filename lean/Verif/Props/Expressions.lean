import Verif.Props.Deps
import Verif.Props.Utils
import Verif.Lemmas.ConvJinja
import Verif.Lemmas.RegexFirst

/-! # Which texts hold expressions (C63, C66) -/

namespace Crm
open Spec

namespace Spec

/-- The text holds `{{ … }}` or a call of `match`. -/
def HasExpression (s : Str) : Prop := HasPart V0Substitution s ∨ HasPart MatchUse s

/-- The text would be misread as it is: it begins with a character that YAML reserves, or it holds a quotation mark and
nothing that begins with `${{`. -/
def Reserved (s : Str) : Prop :=
  (∃ c t, s = c :: t ∧ c ∈ §"[],&:*?-=!%@\\") ∨ ((∀ a b, s ≠ a ++ §"${{" ++ b) ∧ ('\'' ∈ s ∨ '"' ∈ s))

end Spec

theorem findall_substitution (s : Str) : Regex.jinjaV0Sub.findall s = [] ↔ ¬ HasPart V0Substitution s := by
  rw [← substitution_iff, Rx.test_iff]
  unfold Rx.findall
  rw [Rx.findallGo_nil]
  constructor
  · rintro h ⟨pre, t, post, rfl, hl⟩
    have hne : t ≠ [] := by
      rintro rfl
      obtain ⟨x, y, hxy, hx, _⟩ := hl
      rw [Rx.lang_lit] at hx
      subst hx
      cases hxy
    obtain ⟨c, u, rfl⟩ := List.exists_cons_of_ne_nil hne
    have := h pre c (u ++ post) (by simp)
    rw [List.append_nil] at this
    have hs := (Rx.matchAt_isSome Regex.jinjaV0Sub pre.reverse (c :: (u ++ post))).2 ⟨c :: u, post, by simp, hl⟩
    rw [this] at hs
    cases hs
  · intro h pre c aft hs
    rw [List.append_nil]
    cases hm : Regex.jinjaV0Sub.matchAt pre.reverse (c :: aft) with
    | none => rfl
    | some m =>
      obtain ⟨t, post, h1, h2⟩ := (Rx.matchAt_isSome Regex.jinjaV0Sub pre.reverse (c :: aft)).1 (by rw [hm]; rfl)
      exact absurd ⟨pre, t, post, by rw [hs, h1]; simp, h2⟩ h

/-- C63: the texts that are left alone because of an expression are those with `{{`, the characters of an expression, and
`}}`, or with a call of `match` on one line. -/
theorem C63_expressions (s : Str) : holdsExpression s = true ↔ HasExpression s := by
  unfold holdsExpression HasExpression
  rw [Bool.or_eq_true, test_has _ _ lang_match, Bool.not_eq_true']
  have := findall_substitution s
  cases hf : (Regex.jinjaV0Sub.findall s).isEmpty with
  | true =>
    have h0 : Regex.jinjaV0Sub.findall s = [] := by simpa using hf
    simp [this.1 h0]
  | false =>
    have h0 : Regex.jinjaV0Sub.findall s ≠ [] := by intro h; rw [h] at hf; cases hf
    have : HasPart V0Substitution s := Classical.byContradiction fun hn => h0 (this.2 hn)
    simp [this]

theorem reserved_iff (s : Str) : needsQuotes s = true ↔ Reserved s := by
  unfold needsQuotes Reserved
  rw [Bool.or_eq_true, Bool.and_eq_true, Bool.or_eq_true, Bool.not_eq_true', List.contains_iff_mem, List.contains_iff_mem,
    inStr_false_iff]
  have hb : (∀ a : Str, a <:+ s → ¬ §"${{" <+: a) ↔ ∀ a b : Str, s ≠ a ++ §"${{" ++ b := by
    constructor
    · rintro h a b rfl
      exact h (§"${{" ++ b) ⟨a, by simp⟩ ⟨b, rfl⟩
    · rintro h a ⟨x, rfl⟩ ⟨y, rfl⟩
      exact h x y (by simp)
  rw [hb]
  constructor
  · rintro (h | h)
    · cases s with
      | nil => cases h
      | cons c t => exact Or.inl ⟨c, t, rfl, by simpa using h⟩
    · exact Or.inr h
  · rintro (⟨c, t, rfl, h⟩ | h)
    · exact Or.inl (by simpa using h)
    · exact Or.inr h

/-- C63: a text is quoted if it would be misread as it is and holds no expression; every other text, and every block text,
is left as it is. -/
theorem C63_quoted (s : Str) :
    (¬ HasExpression s ∧ Reserved s → quoteSpecialStrings s = jsonDumpsStr s) ∧
    (¬ (¬ HasExpression s ∧ Reserved s) → quoteSpecialStrings s = s) ∧
    ∀ mv, mv ≠ .no → quoteSpecialStrings s mv = s := by
  rw [← C63_expressions, ← reserved_iff, quote_exact]
  refine ⟨fun h => ?_, fun h => ?_, fun mv hmv => ?_⟩
  · rw [if_pos (by simpa using h)]
  · rw [if_neg (by simpa using h)]
  · unfold quoteSpecialStrings
    simp [hmv]

example : Reserved §"*foo" ∧ Reserved §"it's" ∧ ¬ Reserved §"foo" ∧ HasExpression §"{{ a }}" ∧ ¬ HasExpression §"a, b" := by
  refine ⟨(reserved_iff _).1 (by decide), (reserved_iff _).1 (by decide), fun h => ?_, (C63_expressions _).1 (by decide), fun h => ?_⟩
  · exact absurd ((reserved_iff _).2 h) (by decide)
  · exact absurd ((C63_expressions _).2 h) (by decide)

/-- C66: the name of a dependency is the package name that conda reads, if there is no expression in it and conda accepts
it, and the whole text otherwise. -/
theorem C66_names (M : Str → Option Str) (s : Str) :
    (HasPart V0Substitution s → (depDataFromStr M s).name = s) ∧
    (¬ HasPart V0Substitution s → ∀ n, M s = some n → (depDataFromStr M s).name = n) ∧
    (M s = none → (depDataFromStr M s).name = s) := by
  have h1 : Regex.jinjaV1Sub.test s = true → HasPart V0Substitution s := by
    intro h
    obtain ⟨a, t, b, rfl, hl⟩ := (Rx.test_iff _ _).1 h
    obtain ⟨x, y, rfl, hx, hl⟩ := hl
    rw [Rx.lang_lit] at hx
    subst hx
    refine (substitution_iff _).1 ((Rx.test_iff _ _).2 ⟨a ++ §"$", §"{{" ++ y, b, by simp, _, _, rfl, (Rx.lang_lit _ _ _).2 rfl, ?_⟩)
    simpa using hl
  rw [C66_name]
  refine ⟨fun h => ?_, fun h n hn => ?_, fun h => ?_⟩
  · rw [if_pos (by simp [(substitution_iff s).2 h])]
  · have h0 : Regex.jinjaV0Sub.test s = false := by
      cases hb : Regex.jinjaV0Sub.test s with
      | false => rfl
      | true => exact absurd ((substitution_iff s).1 hb) h
    have h2 : Regex.jinjaV1Sub.test s = false := by
      cases hb : Regex.jinjaV1Sub.test s with
      | false => rfl
      | true => exact absurd (h1 hb) h
    simp [h0, h2, hn]
  · simp [h]

example : HasPart V0Substitution §"{{ pin }} 1" ∧ ¬ HasPart V0Substitution §"numpy >=1.2" :=
  ⟨(substitution_iff _).1 (by decide), fun h => absurd ((substitution_iff _).2 h) (by decide)⟩

end Crm
