import Verif.Lemmas.PyVersion

/-!
# Converting a recipe: Python versions in selectors (C88)
-/

namespace Crm
open Spec

/-- C88: the text of a selector is rewritten from left to right, first the comparisons (`py >= 36`), then the version names
(`py36`), then `py2k`, then `py3k`.  This determines the new text, and every character that belongs to none of these is
kept. -/
theorem C88_selector_text (s out : Str) : upgradeExpression s = out ↔
    ∃ s1 s2 s3, Rewritten Compared s s1 ∧ Rewritten Named s1 s2 ∧ Rewritten (Word §"py2k" (pyMatch §">=2,<3")) s2 s3 ∧
      Rewritten (Word §"py3k" (pyMatch §">=3,<4")) s3 out := by
  constructor
  · intro h
    have h1 := (compared_sub s _).2 rfl
    have h2 := (named_sub _ _).2 (rfl : _ = Regex.selectorPythonEq.sub
      (fun m => §"match(python, \"==" ++ m.grpS 1 ++ §"." ++ m.grpS 2 ++ §"\")") (Regex.selectorPythonVersion.sub
        (fun m => §"match(python, \"" ++ m.grpS 1 ++ m.grpS 2 ++ §"." ++ m.grpS 3 ++ §"\")") s))
    refine ⟨_, _, _, h1, h2, (word_sub §"py2k" (pyMatch §">=2,<3") (by decide) _ _).2 rfl,
      (word_sub §"py3k" (pyMatch §">=3,<4") (by decide) _ _).2 ?_⟩
    rw [← h]
    unfold upgradeExpression
    simp only
    rw [ne_pass_idle h2]
    rfl
  · rintro ⟨s1, s2, s3, h1, h2, h3, h4⟩
    have e1 := (compared_sub _ _).1 h1
    have e2 := (named_sub _ _).1 h2
    have e3 := (word_sub _ _ (by decide) _ _).1 h3
    have e4 := (word_sub _ _ (by decide) _ _).1 h4
    rw [e4, e3]
    unfold upgradeExpression
    simp only
    rw [← e1, ← e2, ne_pass_idle h2]
    rfl

theorem rewritten_keeps {rule : Str → Str → Str → Prop} {t s out : Str} (ht : ∀ old rest new, rule old rest new → ∃ r, old = t ++ r)
    (h : Rewritten rule s out) (hs : ¬ t <:+: s) : out = s := by
  induction h with
  | done => rfl
  | hit hrule _ _ =>
    obtain ⟨r, rfl⟩ := ht _ _ _ hrule
    exact absurd ⟨[], _, by simp only [List.nil_append, List.append_assoc]; rfl⟩ hs
  | miss _ _ ih => rw [ih fun ⟨a, b, hab⟩ => hs ⟨_ :: a, b, by rw [← hab]; rfl⟩]

/-- C88: a selector in which `py` does not occur is kept as it is. -/
theorem C88_other_selectors (s : Str) (h : ¬ §"py" <:+: s) : upgradeExpression s = s := by
  obtain ⟨s1, s2, s3, h1, h2, h3, h4⟩ := (C88_selector_text s _).1 rfl
  have e1 := rewritten_keeps (t := §"py") (by rintro old rest new ⟨_, _, _, _, _, rfl, _⟩; exact ⟨_, by simp only [List.append_assoc]; rfl⟩) h1 h
  rw [e1] at h2
  have e2 := rewritten_keeps (t := §"py") (by rintro old rest new ⟨_, _, rfl, _⟩; exact ⟨_, by simp only [List.append_assoc]; rfl⟩) h2 h
  rw [e2] at h3
  have e3 := rewritten_keeps (t := §"py") (by rintro old rest new ⟨rfl, _⟩; exact ⟨§"2k", rfl⟩) h3 h
  rw [e3] at h4
  exact rewritten_keeps (t := §"py") (by rintro old rest new ⟨rfl, _⟩; exact ⟨§"3k", rfl⟩) h4 h

example : ¬ §"py" <:+: §"linux and x86_64" := by decide

/-- The selector of an example: a comparison, a name and a word. -/
example : upgradeExpression §"win and py >=36 or not py27 and py2k" =
    §"win and match(python, \">=3.6\") or not match(python, \"==2.7\") and match(python, \">=2,<3\")" := by decide +kernel

/-- C88: a single comparison, with any white space. -/
theorem C88_comparison (gap op gap' minor : Str) (major : Char) (hg : ∀ c ∈ gap, isSpace c = true)
    (hg' : ∀ c ∈ gap', isSpace c = true) (ho : op ∈ [§"<", §">", §"<=", §">=", §"==", §"!="]) (hm : major = '2' ∨ major = '3')
    (hne : minor ≠ []) (hd : ∀ c ∈ minor, isDigitC c = true) :
    upgradeExpression (§"py" ++ gap ++ op ++ gap' ++ [major] ++ minor) = pyMatch (op ++ [major] ++ §"." ++ minor) := by
  have hno : ∀ (rule : Str → Str → Str → Prop), (∀ old rest new, rule old rest new → ∃ c r, old = §"py" ++ c :: r ∧ c ≠ 't') →
      Rewritten rule (pyMatch (op ++ [major] ++ §"." ++ minor)) (pyMatch (op ++ [major] ++ §"." ++ minor)) := by
    intro rule hrule
    have hp : 'p' ∉ op ++ [major] ++ §"." ++ minor := by
      intro hp
      simp only [List.mem_append, List.mem_cons, List.not_mem_nil, or_false] at hp
      rcases hp with ((hp | hp) | hp) | hp
      · simp only [List.mem_cons, List.not_mem_nil, or_false] at ho
        rcases ho with rfl | rfl | rfl | rfl | rfl | rfl <;> exact absurd hp (by decide)
      · rcases hm with rfl | rfl <;> exact absurd hp (by decide)
      · exact absurd hp (by decide)
      · exact absurd (hd _ hp) (by decide)
    have key : ∀ s : Str, (∀ x c r, c ≠ 't' → s ≠ x ++ (§"py" ++ c :: r)) → Rewritten rule s s := by
      intro s
      induction s with
      | nil => intro _; exact .done
      | cons a s ih =>
        intro h
        refine .miss (fun old rest new he hr => ?_) (ih fun x c r hc he => h (a :: x) c r hc (by rw [he]; rfl))
        obtain ⟨c, r, rfl, hc⟩ := hrule _ _ _ hr
        exact h [] c (r ++ rest) hc (by rw [he]; simp)
    apply key
    intro x c r hc he
    obtain ⟨x', h'⟩ := py_not_in_new (post := []) hp hc (by simpa using he)
    simp at h'
  refine (C88_selector_text _ _).2 ⟨_, _, _, ?_, hno Named ?_, hno _ ?_, hno _ ?_⟩
  · have := Rewritten.hit (rule := Compared) (rest := []) ⟨gap, op, gap', major, minor, rfl, hg, hg', ho, hm, ⟨hne, hd, by simp⟩, rfl⟩ .done
    simpa using this
  · rintro old rest new ⟨m, mi, rfl, h, _⟩
    exact ⟨m, mi, by simp, by rcases h with rfl | rfl <;> decide⟩
  · rintro old rest new ⟨rfl, _⟩
    exact ⟨'2', ['k'], rfl, by decide⟩
  · rintro old rest new ⟨rfl, _⟩
    exact ⟨'3', ['k'], rfl, by decide⟩

end Crm
