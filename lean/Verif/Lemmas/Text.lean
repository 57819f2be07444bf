import Verif.Spec.Text
import Verif.Lemmas.Str
import Verif.Model.Parser

/-! # How values are written -/

namespace Crm
open Spec

theorem inStr_false_iff {p s : Str} : inStr p s = false ↔ ∀ a, a <:+ s → ¬ p <+: a := by
  unfold inStr
  induction s with
  | nil =>
    cases p with
    | nil => simp [findSub]
    | cons c cs => simp [findSub]
  | cons d ds ih =>
    rw [findSub]
    by_cases hp : p.isPrefixOf (d :: ds) = true
    · rw [if_pos hp]
      simp only [Option.isSome_some, Bool.true_eq_false, false_iff]
      exact fun h => h _ (List.suffix_refl _) (List.isPrefixOf_iff_prefix.1 hp)
    · rw [if_neg hp]
      simp only [Option.isSome_map]
      rw [ih]
      constructor
      · intro h a ha hpa
        rcases List.suffix_cons_iff.1 ha with rfl | ha
        · exact hp (List.isPrefixOf_iff_prefix.2 hpa)
        · exact h a ha hpa
      · intro h a ha
        exact h a (ha.trans (List.suffix_cons d ds))

theorem inStr_singleton (c : Char) (s : Str) : inStr [c] s = s.contains c := by
  cases h : s.contains c with
  | true =>
    cases hi : inStr [c] s with
    | true => rfl
    | false =>
      obtain ⟨a, b, rfl⟩ := List.append_of_mem (List.contains_iff_mem.1 h)
      exact absurd (by simp : [c] <+: c :: b) (inStr_false_iff.1 hi _ (List.suffix_append a (c :: b)))
  | false =>
    refine inStr_false_iff.2 fun a ha hp => ?_
    have : c ∈ a := hp.subset (by simp)
    have := ha.subset this
    simp_all

theorem needsQuotes_eq (s : Str) : (toQuoteSpecialChars.any (fun c => s == [c])
      || (!inStr §"${{" s && (inStr §"'" s || inStr §"\"" s))
      || toQuoteSpecialChars.any (fun c => startsWith s [c])) = needsQuotes s := by
  unfold needsQuotes
  rw [inStr_singleton, inStr_singleton]
  cases (!inStr §"${{" s && (s.contains '\'' || s.contains '"')) with
  | true => simp
  | false =>
    rw [Bool.or_false, Bool.or_false, Bool.eq_iff_iff]
    cases s with
    | nil => simp [startsWith]
    | cons d t =>
      simp only [startsWith, toQuoteSpecialChars, Bool.or_eq_true, List.any_eq_true, List.contains_iff_mem]
      constructor
      · rintro (⟨c, hc, h⟩ | ⟨c, hc, h⟩)
        · simp at h; exact h.1 ▸ hc
        · simp [List.isPrefixOf] at h; exact h ▸ hc
      · intro h
        exact Or.inr ⟨d, h, by simp [List.isPrefixOf]⟩

theorem quote_exact (s : Str) :
    quoteSpecialStrings s = if !holdsExpression s && needsQuotes s then jsonDumpsStr s else s := by
  unfold quoteSpecialStrings
  rw [needsQuotes_eq]
  unfold holdsExpression
  cases (Regex.jinjaV0Sub.findall s).isEmpty <;> cases Regex.jinjaFunctionMatch.test s <;> simp

theorem stringify_text (v : PyVal) : pyStr (stringifyYaml v) = yamlText v := by
  cases v with
  | bool b => cases b <;> rfl
  | str s => simp only [stringifyYaml, pyStr, yamlText, quote_exact]
  | _ => rfl

theorem generateSubtree_eq (E : Env) (v : PyVal) : generateSubtree E v = newNodes E v := by
  cases v with
  | str s =>
    simp only [generateSubtree, newNodes, stringify_text]
    by_cases h : '\n' ∈ s <;> simp [h]
  | _ => simp [generateSubtree, newNodes, stringify_text, PyVal.isPrimitive]

end Crm
