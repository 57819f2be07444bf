import Verif.Lemmas.Regex

/-! The selector expression `\[.*\]`. -/

namespace Crm

theorem chr_run_nil {c : Char} {s : MSt} (h : s.aft[0]? ≠ some c) : (Rx.chr c).run s = [] := by
  simp only [Rx.chr, Rx.run]
  split
  · rfl
  · rename_i d cs hd
    rw [hd] at h
    simp at h
    simp [h]

theorem chr_run_cons {c : Char} {s : MSt} {cs : Str} (h : s.aft = c :: cs) :
    (Rx.chr c).run s = [⟨c :: s.bef, cs, s.caps⟩] := by
  simp [Rx.chr, Rx.run, h]

theorem downTo_none (c : Char) (s : MSt) (k : Nat) (h : ∀ j ≤ k, s.aft[j]? ≠ some c) :
    (downTo s k).flatMap (Rx.chr c).run = [] := by
  induction k with
  | zero => simp [downTo, chr_run_nil (h 0 (Nat.le_refl _))]
  | succ k ih =>
    simp only [downTo, List.flatMap_cons]
    rw [ih (fun j hj => h j (by omega)), chr_run_nil (by simpa using h (k + 1) (Nat.le_refl _))]
    rfl

theorem downTo_some (c : Char) (s : MSt) (k j : Nat) (hj : j ≤ k) (h1 : s.aft[j]? = some c)
    (h2 : ∀ i, j < i → i ≤ k → s.aft[i]? ≠ some c) :
    ∃ tl, (downTo s k).flatMap (Rx.chr c).run =
      ⟨(s.aft.take (j + 1)).reverse ++ s.bef, s.aft.drop (j + 1), s.caps⟩ :: tl := by
  induction k with
  | zero =>
    obtain rfl : j = 0 := by omega
    cases hs : s.aft with
    | nil => rw [hs] at h1; simp at h1
    | cons d ds =>
      rw [hs] at h1; simp at h1; subst h1
      exact ⟨[], by simp [downTo, chr_run_cons hs]⟩
  | succ k ih =>
    simp only [downTo, List.flatMap_cons]
    by_cases hjk : j = k + 1
    · subst hjk
      have hlt : k + 1 < s.aft.length := by
        rcases Nat.lt_or_ge (k + 1) s.aft.length with h | h
        · exact h
        · rw [List.getElem?_eq_none h] at h1; cases h1
      have hd : s.aft.drop (k + 1) = c :: s.aft.drop (k + 1 + 1) := by
        rw [List.drop_eq_getElem_cons hlt]
        rw [List.getElem?_eq_getElem hlt] at h1
        injection h1 with h1; rw [h1]
      refine ⟨(downTo s k).flatMap (Rx.chr c).run, ?_⟩
      rw [chr_run_cons (cs := s.aft.drop (k + 1 + 1)) hd]
      simp only [List.cons_append, List.nil_append, List.cons.injEq, and_true]
      congr 1
      rw [List.take_add_one (i := k + 1), h1]
      simp
    · obtain ⟨tl, htl⟩ := ih (by omega) (fun i hi hik => h2 i hi (by omega))
      rw [htl, chr_run_nil (by simpa using h2 (k + 1) (by omega) (Nat.le_refl _))]
      exact ⟨tl, rfl⟩

theorem selector_run (s : MSt) :
    Regex.selector.run s =
      match s.aft with
      | [] => []
      | c :: cs => if c = '[' then
          (downTo ⟨c :: s.bef, cs, s.caps⟩ (cs.takeWhile (· != '\n')).length).flatMap (Rx.chr ']').run
        else [] := by
  simp only [Regex.selector, Rx.cat, Rx.run]
  cases hs : s.aft with
  | nil => simp [Rx.chr, Rx.run, hs]
  | cons c cs =>
    by_cases hc : c = '['
    · subst hc
      rw [chr_run_cons hs]
      simp only [List.flatMap_cons, List.flatMap_nil, List.append_nil, if_true]
      have := run_star_cls (fun c => c != '\n') ⟨'[' :: s.bef, cs, s.caps⟩
      simp only [Rx.run] at this
      simp only [Rx.dot, Rx.run, this]
    · rw [chr_run_nil (by simp [hs, hc])]
      simp [hc]

/-- No match at a position that is not followed by a bracketed text. -/
theorem selector_matchAt_none {bef : Str} {c : Char} {cs : Str} (h : c ≠ '[' ∨ ']' ∉ cs) :
    Regex.selector.matchAt bef (c :: cs) = none := by
  unfold Rx.matchAt
  rw [selector_run]
  simp only
  by_cases hc : c = '['
  · simp only [hc, if_true]
    rw [downTo_none]
    intro j _ hj
    rcases h with h | h
    · exact h hc
    · exact h (List.mem_of_getElem? hj)
  · simp [hc]

/-- Greedy match up to the last closing bracket (on text without line feeds). -/
theorem selector_matchAt_some {bef body post : Str} (hn : '\n' ∉ body ++ ']' :: post) (hp : ']' ∉ post) :
    Regex.selector.matchAt bef ('[' :: (body ++ ']' :: post)) = some ⟨bef.reverse, '[' :: (body ++ [']']), post, []⟩ := by
  unfold Rx.matchAt
  rw [selector_run]
  simp only [if_true]
  have htw : (body ++ ']' :: post).takeWhile (· != '\n') = body ++ ']' :: post := by
    apply takeWhile_all
    intro x hx
    have : x ≠ '\n' := fun h => hn (h ▸ hx)
    simp [this]
  rw [htw]
  obtain ⟨tl, htl⟩ := downTo_some ']' ⟨'[' :: bef, body ++ ']' :: post, []⟩ (body ++ ']' :: post).length body.length
    (by simp) (by simp) (by
      intro i hi _ h
      rw [List.getElem?_append_right (by omega)] at h
      have : ∃ k, i - body.length = k + 1 := ⟨i - body.length - 1, by omega⟩
      obtain ⟨k, hk⟩ := this
      rw [hk] at h
      simp at h
      exact hp (List.mem_of_getElem? h))
  rw [htl]
  simp only [Option.some.injEq, RMatch.mk.injEq, true_and]
  simp
  have : body.length + (post.length + 1) + 1 - post.length = body.length + 2 := by omega
  rw [this, show body.length + 2 = (body.length + 1) + 1 from rfl, List.take_succ_cons]
  have h2 : body ++ ']' :: post = (body ++ [']']) ++ post := by simp
  rw [h2, List.take_append_of_le_length (by simp), List.take_of_length_le (by simp)]

theorem selector_searchFrom_none {bef s : Str} (h : '[' ∉ s) : Regex.selector.searchFrom bef s = none := by
  induction s generalizing bef with
  | nil =>
    simp only [Rx.searchFrom, Rx.matchAt]
    rw [selector_run]
  | cons c cs ih =>
    simp only [List.mem_cons, not_or] at h
    simp only [Rx.searchFrom]
    rw [selector_matchAt_none (Or.inl (fun h' => h.1 h'.symm))]
    exact ih h.2

theorem selector_searchFrom_none' {bef s : Str} (h : ']' ∉ s) : Regex.selector.searchFrom bef s = none := by
  induction s generalizing bef with
  | nil =>
    simp only [Rx.searchFrom, Rx.matchAt]
    rw [selector_run]
  | cons c cs ih =>
    simp only [List.mem_cons, not_or] at h
    simp only [Rx.searchFrom]
    rw [selector_matchAt_none (Or.inr h.2)]
    exact ih h.2

theorem selector_searchFrom_some {bef pre body post : Str} (hn : '\n' ∉ body ++ ']' :: post) (hp : ']' ∉ post)
    (hpre : '[' ∉ pre) :
    Regex.selector.searchFrom bef (pre ++ '[' :: (body ++ ']' :: post)) =
      some ⟨bef.reverse ++ pre, '[' :: (body ++ [']']), post, []⟩ := by
  induction pre generalizing bef with
  | nil =>
    simp only [List.nil_append, Rx.searchFrom]
    rw [selector_matchAt_some hn hp]
    simp
  | cons c cs ih =>
    simp only [List.mem_cons, not_or] at hpre
    simp only [List.cons_append, Rx.searchFrom]
    rw [selector_matchAt_none (Or.inl (fun h' => hpre.1 h'.symm))]
    simp only
    rw [ih hpre.2]
    simp

/-- Every text without line feeds either has no selector, or splits at the first opening and the last closing bracket. -/
theorem selector_cases (s : Str) :
    ('[' ∉ s) ∨ (∃ a b, s = a ++ '[' :: b ∧ '[' ∉ a ∧ ']' ∉ b) ∨
      (∃ pre body post, s = pre ++ '[' :: (body ++ ']' :: post) ∧ '[' ∉ pre ∧ ']' ∉ post) := by
  by_cases h : '[' ∈ s
  · right
    obtain ⟨a, b, rfl, ha⟩ : ∃ a b, s = a ++ '[' :: b ∧ '[' ∉ a := by
      obtain ⟨a, b, h1, h2⟩ := List.append_of_mem h |> fun _ => List.eq_append_cons_of_mem h
      exact ⟨a, b, h1, h2⟩
    by_cases hb : ']' ∈ b
    · right
      obtain ⟨x, y, h1, h2⟩ := List.eq_append_cons_of_mem (List.mem_reverse.2 hb)
      refine ⟨a, y.reverse, x.reverse, ?_, ha, by simpa using h2⟩
      have := congrArg List.reverse h1
      simp at this
      rw [this]
    · left; exact ⟨a, b, rfl, ha, hb⟩
  · left; exact h

/-- The selector on a line: from the first `[` to the last `]`. -/
theorem selector_search_iff {s : Str} (hn : '\n' ∉ s) (pre text post : Str) :
    (∃ caps, Regex.selector.search s = some ⟨pre, text, post, caps⟩) ↔
      s = pre ++ text ++ post ∧ '[' ∉ pre ∧ ']' ∉ post ∧ ∃ body, text = '[' :: (body ++ [']']) := by
  constructor
  · rintro ⟨caps, h⟩
    rcases selector_cases s with h0 | ⟨a, b, rfl, ha, hb⟩ | ⟨p, body, q, rfl, hp, hq⟩
    · rw [Rx.search, selector_searchFrom_none h0] at h; cases h
    · exfalso
      rw [Rx.search] at h
      have : ∀ bef, Regex.selector.searchFrom bef (a ++ '[' :: b) = none := by
        intro bef
        clear h hn
        induction a generalizing bef with
        | nil =>
          simp only [List.nil_append, Rx.searchFrom]
          rw [selector_matchAt_none (Or.inr hb)]
          exact selector_searchFrom_none' hb
        | cons c cs ih =>
          simp only [List.mem_cons, not_or] at ha
          simp only [List.cons_append, Rx.searchFrom]
          rw [selector_matchAt_none (Or.inl (fun h' => ha.1 h'.symm))]
          exact ih ha.2 _
      rw [this] at h; cases h
    · rw [Rx.search, selector_searchFrom_some (fun h' => hn (List.mem_append_right _ (List.mem_cons_of_mem _ h'))) hq hp] at h
      simp at h
      obtain ⟨rfl, rfl, rfl, rfl⟩ := h
      exact ⟨by simp, hp, hq, body, rfl⟩
  · rintro ⟨rfl, hp, hq, body, rfl⟩
    refine ⟨[], ?_⟩
    have : pre ++ ('[' :: (body ++ [']'])) ++ post = pre ++ '[' :: (body ++ ']' :: post) := by simp
    rw [this] at hn ⊢
    rw [Rx.search, selector_searchFrom_some (fun h' => hn (List.mem_append_right _ (List.mem_cons_of_mem _ h'))) hq hp]
    simp

/-- No selector on a line: no `[` followed by a `]`. -/
theorem selector_search_none_iff {s : Str} (hn : '\n' ∉ s) :
    Regex.selector.search s = none ↔ ∀ a b, s = a ++ '[' :: b → ']' ∉ b := by
  constructor
  · intro h a b hs hb
    rcases selector_cases s with h0 | ⟨a', b', h1, ha', hb'⟩ | ⟨p, body, q, h1, hp, hq⟩
    · exact h0 (by simp [hs])
    · -- first '[' is at a', so b is a suffix of b'
      rw [hs] at h1
      rcases List.append_eq_append_iff.1 h1 with ⟨x, rfl, h2⟩ | ⟨x, rfl, h2⟩
      · cases x with
        | nil => simp at h2; exact hb' (h2 ▸ hb)
        | cons y ys => simp at h2; simp [← h2.1] at ha'
      · cases x with
        | nil => simp at h2; exact hb' (h2 ▸ hb)
        | cons y ys => simp at h2; exact hb' (by rw [h2.2]; simp [hb])
    · have := (selector_search_iff hn p ('[' :: (body ++ [']'])) q).2 ⟨by simp [h1], hp, hq, body, rfl⟩
      obtain ⟨caps, hc⟩ := this
      rw [h] at hc; cases hc
  · intro h
    cases hm : Regex.selector.search s with
    | none => rfl
    | some m =>
      exfalso
      obtain ⟨h1, h2, h3, body, h4⟩ := (selector_search_iff hn m.pre m.text m.post).1 ⟨m.caps, hm⟩
      exact h m.pre (body ++ ']' :: m.post) (by rw [h1, h4]; simp) (by simp)

end Crm
