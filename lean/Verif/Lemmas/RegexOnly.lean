import Verif.Lemmas.RegexLang

/-! # Which characters a match and its groups consist of -/

namespace Crm

/-- Every character that the expression can match satisfies `Q`. -/
def Rx.Only (Q : Char → Prop) : Rx → Prop
  | .eps => True
  | .cls p => ∀ c, p c = true → Q c
  | .seq a b => a.Only Q ∧ b.Only Q
  | .alt a b => a.Only Q ∧ b.Only Q
  | .star a => a.Only Q
  | .grp _ a => a.Only Q
  | .notAfter _ => True

/-- From one state to another only such characters are consumed and captured. -/
def Passes (Q : Char → Prop) (s s' : MSt) : Prop :=
  ∃ t, Consumes s s' t ∧ (∀ c ∈ t, Q c) ∧ ∀ g ∈ s'.caps, g ∈ s.caps ∨ ∀ c ∈ g.2.2, Q c

theorem Passes.refl (Q : Char → Prop) (s : MSt) : Passes Q s s := ⟨[], .refl _, by simp, fun g hg => .inl hg⟩

theorem Passes.trans {Q : Char → Prop} {a b c : MSt} (h1 : Passes Q a b) (h2 : Passes Q b c) : Passes Q a c := by
  obtain ⟨t, ht, hq, hc⟩ := h1
  obtain ⟨u, hu, hr, hd⟩ := h2
  refine ⟨t ++ u, ht.trans hu, ?_, ?_⟩
  · intro c hc
    rcases List.mem_append.1 hc with h | h
    · exact hq c h
    · exact hr c h
  · intro g hg
    rcases hd g hg with h | h
    · exact hc g h
    · exact .inr h

theorem starRun_passes {Q : Char → Prop} {f : MSt → List MSt} (hf : ∀ s, ∀ s' ∈ f s, Passes Q s s') :
    ∀ n s, ∀ s' ∈ starRun f n s, Passes Q s s'
  | 0, s, s', h => by
    simp only [starRun, List.mem_singleton] at h
    exact h ▸ .refl Q s
  | n + 1, s, s', h => by
    simp only [starRun, List.mem_append, List.mem_flatMap, List.mem_singleton] at h
    rcases h with ⟨s1, h1, h2⟩ | rfl
    · split at h2
      · exact (hf s s1 h1).trans (starRun_passes hf n s1 s' h2)
      · cases h2
    · exact .refl Q s'

theorem Rx.run_passes {Q : Char → Prop} (r : Rx) (hr : r.Only Q) : ∀ s, ∀ s' ∈ r.run s, Passes Q s s' := by
  induction r with
  | eps =>
    intro s s' h
    simp only [Rx.run, List.mem_singleton] at h
    exact h ▸ .refl Q s
  | cls p =>
    intro s s' h
    simp only [Rx.run] at h
    split at h
    · cases h
    · rename_i c cs heq
      split at h
      · rename_i hp
        simp only [List.mem_singleton] at h
        subst h
        exact ⟨[c], ⟨by simp [heq], by simp⟩, by simpa using hr c hp, fun g hg => .inl hg⟩
      · cases h
  | seq a b iha ihb =>
    intro s s' h
    simp only [Rx.run, List.mem_flatMap] at h
    obtain ⟨s1, h1, h2⟩ := h
    exact (iha hr.1 s s1 h1).trans (ihb hr.2 s1 s' h2)
  | alt a b iha ihb =>
    intro s s' h
    simp only [Rx.run, List.mem_append] at h
    rcases h with h | h
    · exact iha hr.1 s s' h
    · exact ihb hr.2 s s' h
  | star a ih =>
    intro s s' h
    exact starRun_passes (ih hr) _ s s' h
  | grp n a ih =>
    intro s s' h
    simp only [Rx.run, List.mem_map] at h
    obtain ⟨s1, h1, rfl⟩ := h
    obtain ⟨t, ht, hq, hc⟩ := ih hr s s1 h1
    refine ⟨t, ht, hq, ?_⟩
    intro g hg
    rcases List.mem_cons.1 hg with rfl | hg
    · right
      have hb : s1.bef = t.reverse ++ s.bef := ht.2
      intro c hc
      rw [hb] at hc
      simp at hc
      exact hq c hc
    · exact hc g hg
  | notAfter c =>
    intro s s' h
    simp only [Rx.run] at h
    split at h
    · simp only [List.mem_singleton] at h
      exact h ▸ .refl Q s
    · split at h
      · cases h
      · simp only [List.mem_singleton] at h
        exact h ▸ .refl Q s

theorem Rx.matchAt_only {Q : Char → Prop} {r : Rx} (hr : r.Only Q) {bef aft : Str} {m : RMatch} (h : r.matchAt bef aft = some m) :
    (∀ c ∈ m.text, Q c) ∧ ∀ g ∈ m.caps, ∀ c ∈ g.2.2, Q c := by
  unfold Rx.matchAt at h
  split at h
  · cases h
  · rename_i s ss heq
    injection h with h
    obtain ⟨t, ht, hq, hc⟩ := Rx.run_passes r hr ⟨bef, aft, []⟩ s (by rw [heq]; simp)
    subst h
    have h1 : aft = t ++ s.aft := ht.1
    have : aft.take (aft.length - s.aft.length) = t := by rw [h1]; simp
    simp only [this]
    refine ⟨hq, fun g hg => ?_⟩
    rcases hc g hg with h | h
    · cases h
    · exact h

theorem Rx.searchFrom_only {Q : Char → Prop} {r : Rx} (hr : r.Only Q) {m : RMatch} :
    ∀ {aft bef : Str}, r.searchFrom bef aft = some m → (∀ c ∈ m.text, Q c) ∧ ∀ g ∈ m.caps, ∀ c ∈ g.2.2, Q c
  | [], bef, h => Rx.matchAt_only hr h
  | c :: cs, bef, h => by
    simp only [Rx.searchFrom] at h
    split at h
    · rename_i m' hm
      injection h with h
      exact h ▸ Rx.matchAt_only hr hm
    · exact Rx.searchFrom_only hr h

/-- What a search finds, and each of its groups, consists of such characters. -/
theorem Rx.search_only {Q : Char → Prop} {r : Rx} (hr : r.Only Q) {s : Str} {m : RMatch} (h : r.search s = some m) :
    (∀ c ∈ m.text, Q c) ∧ ∀ n t, m.group n = some t → ∀ c ∈ t, Q c := by
  obtain ⟨h1, h2⟩ := Rx.searchFrom_only hr h
  refine ⟨h1, fun n t ht => ?_⟩
  simp only [RMatch.group, Option.map_eq_some_iff] at ht
  obtain ⟨g, hg, rfl⟩ := ht
  exact h2 g (List.mem_of_find?_eq_some hg)

end Crm
