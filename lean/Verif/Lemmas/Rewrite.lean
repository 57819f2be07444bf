import Verif.Spec.PyVersion
import Verif.Lemmas.RegexFirst

/-! # `re.sub` as rewriting from left to right -/

namespace Crm
open Spec

/-- If the expression matches exactly where a rule applies, and takes what the rule takes, then `sub` rewrites by that
rule. -/
theorem Rx.sub_rewritten {r : Rx} {f : RMatch → Str} {rule : Str → Str → Str → Prop} (hr : 0 < r.minLen)
    (hit : ∀ bef old rest new, rule old rest new →
      ∃ m, r.matchAt bef (old ++ rest) = some m ∧ m.text = old ∧ m.post = rest ∧ f m = new)
    (some_rule : ∀ bef t post, r.Lang bef t → ∃ old rest new, t ++ post = old ++ rest ∧ rule old rest new) (s : Str) :
    Rewritten rule s (r.sub f s) := by
  suffices ∀ n s bef, s.length ≤ n → Rewritten rule s (r.subGo f 0 bef s) from this _ s [] (Nat.le_refl _)
  intro n
  induction n with
  | zero =>
    intro s bef h
    have : s = [] := by simpa using h
    subst this
    exact .done
  | succ n ih =>
    intro s bef h
    cases s with
    | nil => exact .done
    | cons c cs =>
      simp only [Rx.subGo]
      cases hm : r.matchAt bef (c :: cs) with
      | none =>
        refine .miss (fun old rest new he hrule => ?_) (ih cs (c :: bef) (by simpa using h))
        obtain ⟨m, hm', _⟩ := hit bef old rest new hrule
        rw [← he, hm] at hm'
        cases hm'
      | some m =>
        obtain ⟨_, hsplit, hlen⟩ := Rx.matchAt_split hm
        have hl : (r.matchAt bef (c :: cs)).isSome = true := by rw [hm]; rfl
        rw [Rx.matchAt_isSome] at hl
        obtain ⟨t, post, ht, hlang⟩ := hl
        obtain ⟨old, rest, new, he, hrule⟩ := some_rule bef t post hlang
        obtain ⟨m', hm', h1, h2, h3⟩ := hit bef old rest new hrule
        rw [← he, ← ht, hm] at hm'
        injection hm' with hm'
        subst hm'
        rw [h1, h2] at hsplit
        rw [h1] at hlen
        simp only
        rw [h3, hsplit]
        have hne : old ≠ [] := by intro h0; rw [h0] at hlen; simp at hlen; omega
        obtain ⟨d, t', ht'⟩ : ∃ d t, old = d :: t := List.exists_cons_of_ne_nil hne
        rw [ht'] at hsplit
        simp only [List.cons_append, List.cons.injEq] at hsplit
        obtain ⟨rfl, hcs⟩ := hsplit
        rw [h1, hcs, ht']
        simp only [List.length_cons, Nat.add_sub_cancel]
        rw [Rx.subGo_skip r f t'.length _ t' rest rfl, ← ht']
        refine .hit hrule (ih rest _ ?_)
        have : cs.length = t'.length + rest.length := by rw [hcs]; simp
        simp at h; omega

/-- There is only one way to rewrite. -/
theorem Rx.rewritten_sub {r : Rx} {f : RMatch → Str} {rule : Str → Str → Str → Prop} (hr : 0 < r.minLen)
    (hit : ∀ bef old rest new, rule old rest new →
      ∃ m, r.matchAt bef (old ++ rest) = some m ∧ m.text = old ∧ m.post = rest ∧ f m = new)
    (some_rule : ∀ bef t post, r.Lang bef t → ∃ old rest new, t ++ post = old ++ rest ∧ rule old rest new) {s out : Str}
    (h : Rewritten rule s out) : out = r.sub f s := by
  suffices ∀ bef, out = r.subGo f 0 bef s from this []
  induction h with
  | done => intro _; rfl
  | @hit old rest new out hrule _ ih =>
    intro bef
    obtain ⟨m, hm, h1, h2, h3⟩ := hit bef old rest new hrule
    obtain ⟨_, _, hlen⟩ := Rx.matchAt_split hm
    rw [h1] at hlen
    have hne : old ≠ [] := by intro h0; rw [h0] at hlen; simp at hlen; omega
    obtain ⟨d, t, rfl⟩ : ∃ d t, old = d :: t := List.exists_cons_of_ne_nil hne
    rw [List.cons_append] at hm ⊢
    simp only [Rx.subGo]
    rw [hm]
    simp only
    rw [h1, h3]
    simp only [List.length_cons, Nat.add_sub_cancel]
    rw [Rx.subGo_skip r f t.length _ t rest rfl, ← ih]
  | @miss c rest out hno _ ih =>
    intro bef
    simp only [Rx.subGo]
    cases hm : r.matchAt bef (c :: rest) with
    | none => simp only; rw [← ih]
    | some m =>
      exfalso
      have hl : (r.matchAt bef (c :: rest)).isSome = true := by rw [hm]; rfl
      rw [Rx.matchAt_isSome] at hl
      obtain ⟨t, post, ht, hlang⟩ := hl
      obtain ⟨old, rest', new, he, hrule⟩ := some_rule bef t post hlang
      exact hno old rest' new (by rw [ht, he]) hrule

theorem Rx.rewritten_iff {r : Rx} {f : RMatch → Str} {rule : Str → Str → Str → Prop} (hr : 0 < r.minLen)
    (hit : ∀ bef old rest new, rule old rest new →
      ∃ m, r.matchAt bef (old ++ rest) = some m ∧ m.text = old ∧ m.post = rest ∧ f m = new)
    (some_rule : ∀ bef t post, r.Lang bef t → ∃ old rest new, t ++ post = old ++ rest ∧ rule old rest new) {s out : Str} :
    Rewritten rule s out ↔ out = r.sub f s :=
  ⟨Rx.rewritten_sub hr hit some_rule, fun h => h ▸ Rx.sub_rewritten hr hit some_rule s⟩

end Crm
