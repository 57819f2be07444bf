import Verif.Lemmas.Regex

/-! # The language of a regular expression, and the matcher's agreement with it -/

namespace Crm

/-- Some number of pieces, each in the language of its place (the text in front of it, reversed). -/
inductive StarLang (L : Str → Str → Prop) : Str → Str → Prop
  | nil (bef : Str) : StarLang L bef []
  | cons (bef t u : Str) : L bef t → StarLang L (t.reverse ++ bef) u → StarLang L bef (t ++ u)

/-- `r.Lang bef t`: the expression matches exactly the text `t`, when `bef` (reversed) stands in front of it. -/
def Rx.Lang : Rx → Str → Str → Prop
  | .eps, _, t => t = []
  | .cls p, _, t => ∃ c, t = [c] ∧ p c = true
  | .seq a b, bef, t => ∃ u v, t = u ++ v ∧ a.Lang bef u ∧ b.Lang (u.reverse ++ bef) v
  | .alt a b, bef, t => a.Lang bef t ∨ b.Lang bef t
  | .star a, bef, t => StarLang a.Lang bef t
  | .grp _ a, bef, t => a.Lang bef t
  | .notAfter c, bef, t => t = [] ∧ bef.head? ≠ some c

theorem starRun_sound {f : MSt → List MSt} {L : Str → Str → Prop}
    (hf : ∀ s, ∀ s' ∈ f s, ∃ t, Consumes s s' t ∧ L s.bef t) (n : Nat) (s : MSt) :
    ∀ s' ∈ starRun f n s, ∃ t, Consumes s s' t ∧ StarLang L s.bef t := by
  induction n generalizing s with
  | zero => intro s' h; simp [starRun] at h; subst h; exact ⟨[], .refl _, .nil _⟩
  | succ n ih =>
    intro s' h
    simp only [starRun, List.mem_append, List.mem_flatMap, List.mem_singleton] at h
    rcases h with ⟨s1, h1, h2⟩ | rfl
    · split at h2
      · obtain ⟨t1, ht1, hl1⟩ := hf s s1 h1
        obtain ⟨t2, ht2, hl2⟩ := ih s1 s' h2
        refine ⟨_, ht1.trans ht2, .cons _ _ _ hl1 ?_⟩
        rw [← ht1.2]; exact hl2
      · simp at h2
    · exact ⟨[], .refl _, .nil _⟩

/-- Everything the matcher finds is in the language. -/
theorem Rx.run_sound (r : Rx) (s : MSt) : ∀ s' ∈ r.run s, ∃ t, Consumes s s' t ∧ r.Lang s.bef t := by
  induction r generalizing s with
  | eps => intro s' h; simp [Rx.run] at h; subst h; exact ⟨[], .refl _, rfl⟩
  | cls p =>
    intro s' h
    simp only [Rx.run] at h
    split at h
    · simp at h
    · rename_i c cs hc
      split at h
      · rename_i hp
        simp at h; subst h; exact ⟨[c], ⟨by simp [hc], rfl⟩, c, rfl, hp⟩
      · simp at h
  | seq a b iha ihb =>
    intro s' h
    simp only [Rx.run, List.mem_flatMap] at h
    obtain ⟨s1, h1, h2⟩ := h
    obtain ⟨t1, ht1, hl1⟩ := iha s s1 h1
    obtain ⟨t2, ht2, hl2⟩ := ihb s1 s' h2
    exact ⟨_, ht1.trans ht2, t1, t2, rfl, hl1, by rw [← ht1.2]; exact hl2⟩
  | alt a b iha ihb =>
    intro s' h
    simp only [Rx.run, List.mem_append] at h
    rcases h with h | h
    · obtain ⟨t, h1, h2⟩ := iha s s' h; exact ⟨t, h1, Or.inl h2⟩
    · obtain ⟨t, h1, h2⟩ := ihb s s' h; exact ⟨t, h1, Or.inr h2⟩
  | star a ih =>
    intro s' h
    exact starRun_sound (fun s s' h => ih s s' h) _ s s' h
  | grp n a ih =>
    intro s' h
    simp only [Rx.run, List.mem_map] at h
    obtain ⟨s1, h1, rfl⟩ := h
    obtain ⟨t, ht, hl⟩ := ih s s1 h1
    exact ⟨t, ht, hl⟩
  | notAfter c =>
    intro s' h
    simp only [Rx.run] at h
    split at h
    · rename_i hb; simp at h; subst h; exact ⟨[], .refl _, rfl, by simp [hb]⟩
    · rename_i b bs hb
      split at h
      · simp at h
      · rename_i hne
        simp at h; subst h; exact ⟨[], .refl _, rfl, by simpa [hb] using hne⟩

/-- Everything in the language is found by the matcher, if not first. -/
theorem Rx.run_complete (r : Rx) (s : MSt) (t rest : Str) (hs : s.aft = t ++ rest) (h : r.Lang s.bef t) :
    ∃ s' ∈ r.run s, Consumes s s' t := by
  induction r generalizing s t rest with
  | eps => simp only [Rx.Lang] at h; subst h; exact ⟨s, by simp [Rx.run], .refl _⟩
  | cls p =>
    obtain ⟨c, rfl, hp⟩ := h
    exact ⟨⟨c :: s.bef, rest, s.caps⟩, by simp [Rx.run, hs, hp], by simp [Consumes, hs]⟩
  | seq a b iha ihb =>
    obtain ⟨u, v, rfl, hu, hv⟩ := h
    obtain ⟨s1, h1, c1⟩ := iha s u (v ++ rest) (by rw [hs]; simp) hu
    have e1 : s1.aft = v ++ rest := by
      have := c1.1; rw [hs, List.append_assoc] at this
      exact (List.append_cancel_left this).symm
    obtain ⟨s2, h2, c2⟩ := ihb s1 v rest e1 (by rw [c1.2]; exact hv)
    exact ⟨s2, List.mem_flatMap.2 ⟨s1, h1, h2⟩, c1.trans c2⟩
  | alt a b iha ihb =>
    rcases h with h | h
    · obtain ⟨s', h1, h2⟩ := iha s t rest hs h; exact ⟨s', List.mem_append_left _ h1, h2⟩
    · obtain ⟨s', h1, h2⟩ := ihb s t rest hs h; exact ⟨s', List.mem_append_right _ h1, h2⟩
  | star a ih =>
    suffices key : ∀ bef t, StarLang a.Lang bef t → ∀ (n : Nat) (s : MSt) (rest : Str), s.bef = bef → s.aft = t ++ rest →
        s.aft.length ≤ n → ∃ s' ∈ starRun a.run n s, Consumes s s' t from
      key s.bef t h _ s rest rfl hs (Nat.le_refl _)
    intro bef t hst
    induction hst with
    | nil bef =>
      intro n s rest _ _ _
      refine ⟨s, ?_, .refl _⟩
      cases n <;> simp [starRun]
    | cons bef u v hu hv ihv =>
      intro n s rest hb ha hn
      cases u with
      | nil =>
        simp only [List.reverse_nil, List.nil_append] at ihv
        exact ihv n s rest hb ha hn
      | cons c cs =>
        obtain ⟨s1, h1, c1⟩ := ih s (c :: cs) (v ++ rest) (by rw [ha]; simp) (by rw [hb]; exact hu)
        have e1 : s1.aft = v ++ rest := by
          have := c1.1; rw [ha, List.append_assoc] at this
          exact (List.append_cancel_left this).symm
        have hlt : s1.aft.length < s.aft.length := by rw [c1.1]; simp; omega
        cases n with
        | zero => omega
        | succ n =>
          obtain ⟨s2, h2, c2⟩ := ihv n s1 rest (by rw [c1.2, hb]) e1 (by omega)
          refine ⟨s2, ?_, c1.trans c2⟩
          simp only [starRun, List.mem_append, List.mem_flatMap, List.mem_singleton]
          exact Or.inl ⟨s1, h1, by rw [if_pos hlt]; exact h2⟩
  | grp n a ih =>
    obtain ⟨s', h1, h2⟩ := ih s t rest hs h
    exact ⟨_, List.mem_map_of_mem h1, h2⟩
  | notAfter c =>
    obtain ⟨rfl, hne⟩ := h
    refine ⟨s, ?_, .refl _⟩
    simp only [Rx.run]
    split
    · simp
    · rename_i b bs hb
      rw [hb] at hne
      rw [if_neg (by simpa using hne)]
      simp

theorem Rx.matchAt_isSome (r : Rx) (bef aft : Str) :
    (r.matchAt bef aft).isSome = true ↔ ∃ t rest, aft = t ++ rest ∧ r.Lang bef t := by
  unfold Rx.matchAt
  constructor
  · intro h
    split at h
    · cases h
    · rename_i s l hl
      obtain ⟨t, ht, hL⟩ := r.run_sound ⟨bef, aft, []⟩ s (by rw [hl]; simp)
      exact ⟨t, s.aft, ht.1, hL⟩
  · rintro ⟨t, rest, hs, hL⟩
    obtain ⟨s', h1, _⟩ := r.run_complete ⟨bef, aft, []⟩ t rest hs hL
    split
    · rename_i hl; rw [hl] at h1; cases h1
    · rfl

theorem Rx.searchFrom_isSome (r : Rx) (aft : Str) : ∀ bef, (r.searchFrom bef aft).isSome = true ↔
    ∃ pre t rest, aft = pre ++ t ++ rest ∧ r.Lang (pre.reverse ++ bef) t := by
  induction aft with
  | nil =>
    intro bef
    simp only [Rx.searchFrom]
    rw [Rx.matchAt_isSome]
    constructor
    · rintro ⟨t, rest, h, hL⟩; exact ⟨[], t, rest, by simpa using h, hL⟩
    · rintro ⟨pre, t, rest, h, hL⟩
      have h' := h.symm
      simp only [List.append_eq_nil_iff] at h'
      obtain ⟨⟨rfl, rfl⟩, rfl⟩ := h'
      exact ⟨[], [], rfl, hL⟩
  | cons c cs ih =>
    intro bef
    simp only [Rx.searchFrom]
    have hm := Rx.matchAt_isSome r bef (c :: cs)
    constructor
    · intro h
      split at h
      · rename_i m hx
        obtain ⟨t, rest, h1, h2⟩ := hm.1 (by rw [hx]; rfl)
        exact ⟨[], t, rest, by simpa using h1, h2⟩
      · obtain ⟨pre, t, rest, h1, h2⟩ := (ih (c :: bef)).1 h
        exact ⟨c :: pre, t, rest, by simp [h1], by simpa using h2⟩
    · rintro ⟨pre, t, rest, h1, h2⟩
      split
      · rfl
      · rename_i hx
        rw [hx] at hm
        cases pre with
        | nil => exact absurd (hm.2 ⟨t, rest, by simpa using h1, h2⟩) (by simp)
        | cons d ds =>
          simp only [List.cons_append, List.cons.injEq] at h1
          obtain ⟨rfl, h1⟩ := h1
          exact (ih (c :: bef)).2 ⟨ds, t, rest, h1, by simpa using h2⟩

/-- `re.search` succeeds exactly if some part of the text is in the language. -/
theorem Rx.test_iff (r : Rx) (s : Str) : r.test s = true ↔ ∃ pre t post, s = pre ++ t ++ post ∧ r.Lang pre.reverse t := by
  unfold Rx.test Rx.search
  rw [Rx.searchFrom_isSome]
  simp

/-- `re.match` succeeds exactly if some beginning of the text is in the language. -/
theorem Rx.matchStart_iff (r : Rx) (s : Str) : (r.matchStart s).isSome = true ↔ ∃ t post, s = t ++ post ∧ r.Lang [] t :=
  Rx.matchAt_isSome r [] s

/-! ### Languages of the building blocks -/

theorem Rx.lang_chr (c : Char) (bef t : Str) : (Rx.chr c).Lang bef t ↔ t = [c] := by
  simp only [Rx.chr, Rx.Lang]
  constructor
  · rintro ⟨d, rfl, h⟩; simp at h; rw [h]
  · rintro rfl; exact ⟨c, rfl, by simp⟩

theorem Rx.lang_lit (s bef t : Str) : (Rx.lit s).Lang bef t ↔ t = s := by
  induction s generalizing bef t with
  | nil => rfl
  | cons c cs ih =>
    cases cs with
    | nil => exact Rx.lang_chr c bef t
    | cons d ds =>
      simp only [Rx.lit, Rx.Lang]
      constructor
      · rintro ⟨u, v, rfl, hu, hv⟩
        rw [Rx.lang_chr] at hu; rw [ih] at hv; subst hu; subst hv; rfl
      · rintro rfl
        exact ⟨[c], d :: ds, rfl, (Rx.lang_chr c _ _).2 rfl, (ih _ _).2 rfl⟩

theorem Rx.lang_star_cls (p : Char → Bool) (bef t : Str) : (Rx.star (.cls p)).Lang bef t ↔ ∀ c ∈ t, p c = true := by
  simp only [Rx.Lang]
  constructor
  · intro h
    induction h with
    | nil => simp
    | cons bef u v hu hv ih =>
      obtain ⟨c, rfl, hc⟩ := hu
      intro d hd
      rcases List.mem_append.1 hd with hd | hd
      · simp at hd; subst hd; exact hc
      · exact ih d hd
  · intro h
    induction t generalizing bef with
    | nil => exact .nil _
    | cons c cs ih =>
      exact .cons bef [c] cs ⟨c, rfl, h c (by simp)⟩ (ih _ (fun d hd => h d (by simp [hd])))

theorem Rx.lang_opt (r : Rx) (bef t : Str) : (Rx.opt r).Lang bef t ↔ r.Lang bef t ∨ t = [] := by
  simp [Rx.opt, Rx.Lang]

theorem Rx.lang_plus_cls (p : Char → Bool) (bef t : Str) :
    (Rx.plus (.cls p)).Lang bef t ↔ t ≠ [] ∧ ∀ c ∈ t, p c = true := by
  simp only [Rx.plus]
  constructor
  · rintro ⟨u, v, rfl, ⟨c, rfl, hc⟩, hv⟩
    rw [Rx.lang_star_cls] at hv
    exact ⟨by simp, by simpa using ⟨hc, hv⟩⟩
  · rintro ⟨hne, h⟩
    cases t with
    | nil => exact absurd rfl hne
    | cons c cs =>
      exact ⟨[c], cs, rfl, ⟨c, rfl, h c (by simp)⟩, (Rx.lang_star_cls p _ _).2 (fun d hd => h d (by simp [hd]))⟩

end Crm
