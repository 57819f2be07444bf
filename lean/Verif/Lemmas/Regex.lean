import Verif.Lemmas.Str
import Verif.Model.Regex

/-! Lemmas about the regular expression matcher. -/

namespace Crm

/-- Least number of characters a match consumes. -/
def Rx.minLen : Rx → Nat
  | .eps => 0
  | .cls _ => 1
  | .seq a b => a.minLen + b.minLen
  | .alt a b => min a.minLen b.minLen
  | .star _ => 0
  | .grp _ a => a.minLen
  | .notAfter _ => 0

/-- `s'` is reached from `s` by consuming `t`. -/
def Consumes (s s' : MSt) (t : Str) : Prop := s.aft = t ++ s'.aft ∧ s'.bef = t.reverse ++ s.bef

theorem Consumes.refl (s : MSt) : Consumes s s [] := ⟨rfl, rfl⟩

theorem Consumes.trans {s s' s'' : MSt} {t t' : Str} (h : Consumes s s' t) (h' : Consumes s' s'' t') :
    Consumes s s'' (t ++ t') :=
  ⟨by rw [h.1, h'.1]; simp, by rw [h'.2, h.2]; simp⟩

theorem starRun_consumes {f : MSt → List MSt} (hf : ∀ s, ∀ s' ∈ f s, ∃ t, Consumes s s' t) (n : Nat) (s : MSt) :
    ∀ s' ∈ starRun f n s, ∃ t, Consumes s s' t := by
  induction n generalizing s with
  | zero => intro s' h; simp [starRun] at h; subst h; exact ⟨[], .refl _⟩
  | succ n ih =>
    intro s' h
    simp only [starRun, List.mem_append, List.mem_flatMap, List.mem_singleton] at h
    rcases h with ⟨s1, h1, h2⟩ | rfl
    · split at h2
      · obtain ⟨t1, ht1⟩ := hf s s1 h1
        obtain ⟨t2, ht2⟩ := ih s1 s' h2
        exact ⟨_, ht1.trans ht2⟩
      · simp at h2
    · exact ⟨[], .refl _⟩

/-- A run consumes a prefix of what is left, at least `minLen` long. -/
theorem Rx.run_consumes (r : Rx) (s : MSt) : ∀ s' ∈ r.run s, ∃ t, Consumes s s' t ∧ r.minLen ≤ t.length := by
  induction r generalizing s with
  | eps => intro s' h; simp [Rx.run] at h; subst h; exact ⟨[], .refl _, Nat.le_refl _⟩
  | cls p =>
    intro s' h
    simp only [Rx.run] at h
    split at h
    · simp at h
    · rename_i c cs hc
      split at h
      · simp at h; subst h; exact ⟨[c], ⟨by simp [hc], rfl⟩, Nat.le_refl _⟩
      · simp at h
  | seq a b iha ihb =>
    intro s' h
    simp only [Rx.run, List.mem_flatMap] at h
    obtain ⟨s1, h1, h2⟩ := h
    obtain ⟨t1, ht1, hl1⟩ := iha s s1 h1
    obtain ⟨t2, ht2, hl2⟩ := ihb s1 s' h2
    exact ⟨t1 ++ t2, ht1.trans ht2, by simp [Rx.minLen]; omega⟩
  | alt a b iha ihb =>
    intro s' h
    simp only [Rx.run, List.mem_append] at h
    rcases h with h | h
    · obtain ⟨t, ht, hl⟩ := iha s s' h; exact ⟨t, ht, by simp [Rx.minLen]; omega⟩
    · obtain ⟨t, ht, hl⟩ := ihb s s' h; exact ⟨t, ht, by simp [Rx.minLen]; omega⟩
  | star a ih =>
    intro s' h
    obtain ⟨t, ht⟩ := starRun_consumes (fun s s' h => let ⟨t, ht, _⟩ := ih s s' h; ⟨t, ht⟩) _ _ s' h
    exact ⟨t, ht, Nat.zero_le _⟩
  | grp n a ih =>
    intro s' h
    simp only [Rx.run, List.mem_map] at h
    obtain ⟨s1, h1, rfl⟩ := h
    obtain ⟨t, ht, hl⟩ := ih s s1 h1
    exact ⟨t, ht, hl⟩
  | notAfter c =>
    intro s' h
    simp only [Rx.run] at h
    split at h
    · simp at h; subst h; exact ⟨[], .refl _, Nat.le_refl _⟩
    · split at h
      · simp at h
      · simp at h; subst h; exact ⟨[], .refl _, Nat.le_refl _⟩

/-- A match splits the text. -/
theorem Rx.matchAt_split {r : Rx} {bef aft : Str} {m : RMatch} (h : r.matchAt bef aft = some m) :
    m.pre = bef.reverse ∧ aft = m.text ++ m.post ∧ r.minLen ≤ m.text.length := by
  unfold Rx.matchAt at h
  split at h
  · cases h
  · rename_i s ss heq
    injection h with h
    obtain ⟨t, ht, hl⟩ := r.run_consumes ⟨bef, aft, []⟩ s (by rw [heq]; simp)
    subst h
    have h1 : aft = t ++ s.aft := ht.1
    have : aft.take (aft.length - s.aft.length) = t := by rw [h1]; simp
    simp only [this]
    exact ⟨trivial, h1, hl⟩

theorem Rx.searchFrom_split {r : Rx} {bef aft : Str} {m : RMatch} (h : r.searchFrom bef aft = some m) :
    bef.reverse ++ aft = m.pre ++ m.text ++ m.post ∧ r.minLen ≤ m.text.length := by
  induction aft generalizing bef with
  | nil =>
    simp only [Rx.searchFrom] at h
    obtain ⟨h1, h2, h3⟩ := Rx.matchAt_split h
    exact ⟨by rw [h1, List.append_assoc, ← h2], h3⟩
  | cons c cs ih =>
    simp only [Rx.searchFrom] at h
    split at h
    · rename_i m' hm
      injection h with h; subst h
      obtain ⟨h1, h2, h3⟩ := Rx.matchAt_split hm
      exact ⟨by rw [h1, List.append_assoc, ← h2], h3⟩
    · obtain ⟨h1, h2⟩ := ih h
      exact ⟨by simpa using h1, h2⟩

theorem Rx.search_split {r : Rx} {s : Str} {m : RMatch} (h : r.search s = some m) :
    s = m.pre ++ m.text ++ m.post ∧ r.minLen ≤ m.text.length := by
  simpa using Rx.searchFrom_split h

/-! ### `sub` and `findall` -/

/-- Alternate pieces of plain text with inserted texts. -/
def weave : Str → List (Str × Str) → Str
  | p, [] => p
  | p, (x, q) :: rest => p ++ x ++ weave q rest

theorem Rx.subGo_skip (r : Rx) (f : RMatch → Str) (k : Nat) (bef t rest : Str) (h : t.length = k) :
    r.subGo f k bef (t ++ rest) = r.subGo f 0 (t.reverse ++ bef) rest := by
  induction t generalizing k bef with
  | nil => simp at h; subst h; rfl
  | cons c cs ih =>
    cases k with
    | zero => simp at h
    | succ k => simp only [List.cons_append, Rx.subGo]; rw [ih k _ (by simpa using h)]; simp

theorem Rx.findallGo_skip (r : Rx) (k : Nat) (bef t rest : Str) (h : t.length = k) :
    r.findallGo k bef (t ++ rest) = r.findallGo 0 (t.reverse ++ bef) rest := by
  induction t generalizing k bef with
  | nil => simp at h; subst h; rfl
  | cons c cs ih =>
    cases k with
    | zero => simp at h
    | succ k => simp only [List.cons_append, Rx.findallGo]; rw [ih k _ (by simpa using h)]; simp

/-- Substituting a constant and listing the matches take the same decomposition of the text. -/
theorem Rx.sub_findall_weave (r : Rx) (hr : 0 < r.minLen) (f : Str) (bef s : Str) :
    ∃ p rest, s = weave p rest ∧ r.findallGo 0 bef s = rest.map (·.1) ∧
      r.subGo (fun _ => f) 0 bef s = weave p (rest.map fun xq => (f, xq.2)) := by
  suffices ∀ n s bef, s.length ≤ n → ∃ p rest, s = weave p rest ∧ r.findallGo 0 bef s = rest.map (·.1) ∧
      r.subGo (fun _ => f) 0 bef s = weave p (rest.map fun xq => (f, xq.2)) from this s.length s bef (Nat.le_refl _)
  intro n
  induction n with
  | zero =>
    intro s bef h
    have : s = [] := by simpa using h
    subst this
    exact ⟨[], [], rfl, rfl, rfl⟩
  | succ n ih =>
    intro s bef h
    cases s with
    | nil => exact ⟨[], [], rfl, rfl, rfl⟩
    | cons c cs =>
      simp only [Rx.findallGo, Rx.subGo]
      cases hm : r.matchAt bef (c :: cs) with
      | none =>
        obtain ⟨p, rest, h1, h2, h3⟩ := ih cs (c :: bef) (by simpa using h)
        cases rest with
        | nil => exact ⟨c :: p, [], by simp [weave, h1], h2, by simp only [h3]; simp [weave]⟩
        | cons xq rest =>
          exact ⟨c :: p, xq :: rest, by simp [weave, h1], h2, by simp only [h3]; simp [weave]⟩
      | some m =>
        obtain ⟨hpre, hsplit, hlen⟩ := Rx.matchAt_split hm
        have hne : m.text ≠ [] := by intro h0; rw [h0] at hlen; simp at hlen; omega
        obtain ⟨d, t, ht⟩ : ∃ d t, m.text = d :: t := List.exists_cons_of_ne_nil hne
        rw [ht] at hsplit
        simp only [List.cons_append, List.cons.injEq] at hsplit
        obtain ⟨rfl, hcs⟩ := hsplit
        have hlt : m.post.length ≤ n := by
          have : cs.length = t.length + m.post.length := by rw [hcs]; simp
          simp at h; omega
        obtain ⟨p, rest, h1, h2, h3⟩ := ih m.post (t.reverse ++ c :: bef) hlt
        refine ⟨[], (m.text, p) :: rest, ?_, ?_, ?_⟩
        · simp [weave, ht, hcs, ← h1]
        · simp only [ht, List.length_cons, Nat.add_sub_cancel, List.map_cons]
          rw [hcs, Rx.findallGo_skip r t.length _ t m.post rfl, h2]
        · simp only [ht, List.length_cons, Nat.add_sub_cancel, List.map_cons, weave, List.nil_append]
          rw [hcs, Rx.subGo_skip r _ t.length _ t m.post rfl, h3]

/-! ### Greedy iteration of a character class -/

/-- States after consuming `k, k-1, …, 0` characters. -/
def downTo (s : MSt) : Nat → List MSt
  | 0 => [s]
  | k + 1 => ⟨(s.aft.take (k + 1)).reverse ++ s.bef, s.aft.drop (k + 1), s.caps⟩ :: downTo s k

theorem downTo_step (s : MSt) (c : Char) (cs : Str) (h : s.aft = c :: cs) (k : Nat) :
    downTo s (k + 1) = downTo ⟨c :: s.bef, cs, s.caps⟩ k ++ [s] := by
  induction k with
  | zero => simp [downTo, h]
  | succ k ih =>
    rw [downTo, ih, downTo]
    simp [h]

theorem run_star_cls (p : Char → Bool) (s : MSt) : (Rx.star (.cls p)).run s = downTo s (s.aft.takeWhile p).length := by
  simp only [Rx.run]
  suffices ∀ n s, s.aft.length ≤ n → starRun (Rx.cls p).run n s = downTo s (s.aft.takeWhile p).length from
    this _ s (Nat.le_refl _)
  intro n
  induction n with
  | zero =>
    intro s h
    have : s.aft = [] := by simpa using h
    simp [starRun, this, downTo]
  | succ n ih =>
    intro s h
    cases hs : s.aft with
    | nil => simp [starRun, Rx.run, hs, downTo]
    | cons c cs =>
      by_cases hc : p c = true
      · have hrun : (Rx.cls p).run s = [⟨c :: s.bef, cs, s.caps⟩] := by simp [Rx.run, hs, hc]
        simp only [starRun, hrun, hs, hc, if_true, List.flatMap_cons, List.flatMap_nil, List.append_nil,
          List.length_cons, List.takeWhile_cons]
        rw [if_pos (by omega), ih ⟨c :: s.bef, cs, s.caps⟩ (by simp [hs] at h; simpa using h),
          downTo_step s c cs hs]
      · simp [starRun, Rx.run, hs, hc, downTo]

end Crm
