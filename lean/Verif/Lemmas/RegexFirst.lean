import Verif.Lemmas.RegexLang

/-! # The match the engine finds first -/

namespace Crm

/-- The first way to match. -/
def Rx.first (r : Rx) (s : MSt) : Option MSt := (r.run s).head?

/-- The state after consuming `t`. -/
def MSt.eat (s : MSt) (t rest : Str) : MSt := ⟨t.reverse ++ s.bef, rest, s.caps⟩

theorem Rx.first_seq {a b : Rx} {s s1 s2 : MSt} (h1 : a.first s = some s1) (h2 : b.first s1 = some s2) :
    (Rx.seq a b).first s = some s2 := by
  unfold Rx.first at *
  simp only [Rx.run]
  cases ha : a.run s with
  | nil => rw [ha] at h1; cases h1
  | cons x xs =>
    rw [ha] at h1
    simp only [List.head?_cons, Option.some.injEq] at h1
    subst h1
    cases hb : b.run x with
    | nil => rw [hb] at h2; cases h2
    | cons y ys => rw [hb] at h2; simpa [hb] using h2

theorem Rx.first_cls {p : Char → Bool} {s : MSt} {c : Char} {rest : Str} (h : s.aft = c :: rest) (hc : p c = true) :
    (Rx.cls p).first s = some (s.eat [c] rest) := by
  simp [Rx.first, Rx.run, h, hc, MSt.eat]

theorem Rx.first_lit {s : MSt} (t rest : Str) (h : s.aft = t ++ rest) : (Rx.lit t).first s = some (s.eat t rest) := by
  induction t generalizing s with
  | nil =>
    simp only [List.nil_append] at h
    simp [Rx.lit, Rx.first, Rx.run, MSt.eat, ← h]
  | cons c t ih =>
    cases t with
    | nil => exact Rx.first_cls h (by simp)
    | cons d t =>
      have h1 : (Rx.chr c).first s = some (s.eat [c] ((d :: t) ++ rest)) := Rx.first_cls h (by simp)
      refine (Rx.first_seq h1 (ih (s := s.eat [c] ((d :: t) ++ rest)) rfl)).trans ?_
      simp [MSt.eat]

theorem Rx.first_star (p : Char → Bool) (s : MSt) :
    (Rx.star (.cls p)).first s = some (s.eat (s.aft.takeWhile p) (s.aft.dropWhile p)) := by
  unfold Rx.first
  rw [run_star_cls]
  have hd : s.aft.drop (s.aft.takeWhile p).length = s.aft.dropWhile p :=
    (fun a b l (h : a ++ b = l) => by subst h; simp : ∀ a b l : Str, a ++ b = l → l.drop a.length = b) _ _ _
      (List.takeWhile_append_dropWhile (p := p))
  have ht : s.aft.take (s.aft.takeWhile p).length = s.aft.takeWhile p :=
    (fun a b l (h : a ++ b = l) => by subst h; simp : ∀ a b l : Str, a ++ b = l → l.take a.length = a) _ _ _
      (List.takeWhile_append_dropWhile (p := p))
  cases hk : (s.aft.takeWhile p).length with
  | zero =>
    have : s.aft.takeWhile p = [] := List.eq_nil_of_length_eq_zero hk
    rw [this] at hd
    simp only [List.length_nil, List.drop_zero] at hd
    simp [downTo, MSt.eat, this, ← hd]
  | succ k =>
    rw [hk] at hd ht
    simp only [downTo, List.head?_cons, hd, ht, MSt.eat]

theorem Rx.first_plus {p : Char → Bool} {s : MSt} {c : Char} {rest : Str} (h : s.aft = c :: rest) (hc : p c = true) :
    (Rx.plus (.cls p)).first s = some (s.eat (s.aft.takeWhile p) (s.aft.dropWhile p)) := by
  refine (Rx.first_seq (Rx.first_cls h hc) (Rx.first_star p _)).trans ?_
  simp [MSt.eat, h, hc]

theorem Rx.first_grp {a : Rx} {s s' : MSt} (n : Nat) (h : a.first s = some s') :
    (Rx.grp n a).first s =
      some { s' with caps := (n, s.bef.length, (s'.bef.take (s'.bef.length - s.bef.length)).reverse) :: s'.caps } := by
  unfold Rx.first at *
  simp only [Rx.run, List.head?_map, h, Option.map_some]

theorem Rx.first_alt_left {a : Rx} (b : Rx) {s s' : MSt} (h : a.first s = some s') : (Rx.alt a b).first s = some s' := by
  unfold Rx.first at *
  simp only [Rx.run, List.head?_append, h, Option.some_or]

theorem Rx.first_alt_right {a : Rx} (b : Rx) {s : MSt} (h : a.run s = []) : (Rx.alt a b).first s = b.first s := by
  unfold Rx.first
  simp only [Rx.run, h, List.nil_append]

/-- A greedy iteration gives back characters until what follows it matches. -/
theorem Rx.first_star_seq {p : Char → Bool} {b : Rx} {s s2 : MSt} {t rest : Str} (hs : s.aft = t ++ rest)
    (ht : ∀ c ∈ t, p c = true) (hb : b.first (s.eat t rest) = some s2)
    (hno : ∀ x y, x ≠ [] → rest = x ++ y → b.run (s.eat (t ++ x) y) = []) :
    (Rx.seq (.star (.cls p)) b).first s = some s2 := by
  have key : ∀ n, t.length ≤ n → ((downTo s n).flatMap b.run).head? = some s2 := by
    intro n
    induction n with
    | zero =>
      intro hn
      have h0 : t = [] := by simpa using hn
      subst h0
      simp only [List.nil_append] at hs
      simp only [downTo, List.flatMap_cons, List.flatMap_nil, List.append_nil]
      unfold Rx.first at hb
      rw [← hb]
      congr 2
      simp [MSt.eat, ← hs]
    | succ n ih =>
      intro hn
      simp only [downTo, List.flatMap_cons]
      have hst : (⟨(s.aft.take (n + 1)).reverse ++ s.bef, s.aft.drop (n + 1), s.caps⟩ : MSt) =
          s.eat (s.aft.take (n + 1)) (s.aft.drop (n + 1)) := rfl
      by_cases he : n + 1 = t.length
      · have h1 : s.aft.take (n + 1) = t := by rw [hs, he]; simp
        have h2 : s.aft.drop (n + 1) = rest := by rw [hs, he]; simp
        rw [hst, h1, h2]
        unfold Rx.first at hb
        rw [List.head?_append, hb]
        rfl
      · by_cases hx : rest.take (n + 1 - t.length) = []
        · -- nothing is left: the same state as one step earlier
          have hr : rest = [] := by
            cases rest with
            | nil => rfl
            | cons c cs =>
              have : n + 1 - t.length = (n - t.length) + 1 := by omega
              rw [this] at hx
              cases hx
          subst hr
          rw [List.append_nil] at hs
          have h1 : s.aft.take (n + 1) = t := by rw [hs]; exact List.take_of_length_le (by omega)
          have h2 : s.aft.drop (n + 1) = [] := by rw [hs]; exact List.drop_of_length_le (by omega)
          rw [hst, h1, h2]
          unfold Rx.first at hb
          rw [List.head?_append, hb]
          rfl
        · have h1 : s.aft.take (n + 1) = t ++ rest.take (n + 1 - t.length) := by
            rw [hs, List.take_append, List.take_of_length_le (by omega)]
          have h2 : s.aft.drop (n + 1) = rest.drop (n + 1 - t.length) := by
            rw [hs, List.drop_append, List.drop_of_length_le (by omega), List.nil_append]
          rw [hst, h1, h2, hno _ _ hx (List.take_append_drop _ _).symm, List.nil_append]
          exact ih (by omega)
  have hle : t.length ≤ (s.aft.takeWhile p).length := by
    rw [hs]
    have : (t ++ rest).takeWhile p = t ++ rest.takeWhile p := by
      clear hs hb hno key
      induction t with
      | nil => rfl
      | cons c t ih => simp [ht c (by simp), ih (fun d hd => ht d (by simp [hd]))]
    rw [this]; simp
  unfold Rx.first
  rw [Rx.run, run_star_cls]
  exact key _ hle

theorem Rx.run_nil {r : Rx} {s : MSt} (h : ∀ t rest, s.aft = t ++ rest → ¬ r.Lang s.bef t) : r.run s = [] := by
  cases hr : r.run s with
  | nil => rfl
  | cons x xs =>
    obtain ⟨t, ht, hl⟩ := r.run_sound s x (by rw [hr]; simp)
    exact absurd hl (h t x.aft ht.1)

/-- A search skips what does not match. -/
theorem Rx.searchFrom_skip (r : Rx) (bef a rest : Str)
    (h : ∀ x y, a = x ++ y → y ≠ [] → r.matchAt (x.reverse ++ bef) (y ++ rest) = none) :
    r.searchFrom bef (a ++ rest) = r.searchFrom (a.reverse ++ bef) rest := by
  induction a generalizing bef with
  | nil => rfl
  | cons c cs ih =>
    rw [List.cons_append, Rx.searchFrom]
    have := h [] (c :: cs) rfl (by simp)
    simp only [List.reverse_nil, List.nil_append, List.cons_append] at this
    rw [this]
    simp only
    rw [ih (c :: bef) (fun x y hxy hy => by
      have := h (c :: x) y (by simp [hxy]) hy
      simpa using this)]
    simp

theorem Rx.searchFrom_matchAt {r : Rx} {bef aft : Str} {m : RMatch} (h : r.matchAt bef aft = some m) :
    r.searchFrom bef aft = some m := by
  cases aft with
  | nil => exact h
  | cons c cs => rw [Rx.searchFrom, h]

theorem Rx.matchAt_first' {r : Rx} {bef aft : Str} {s : MSt} (h : r.first ⟨bef, aft, []⟩ = some s) :
    r.matchAt bef aft = some ⟨bef.reverse, aft.take (aft.length - s.aft.length), s.aft, s.caps⟩ := by
  unfold Rx.first at h
  unfold Rx.matchAt
  cases hr : r.run ⟨bef, aft, []⟩ with
  | nil => rw [hr] at h; cases h
  | cons x xs =>
    rw [hr] at h
    simp only [List.head?_cons, Option.some.injEq] at h
    subst h
    rfl

theorem Rx.matchAt_none {r : Rx} {bef aft : Str} (h : ∀ t rest, aft = t ++ rest → ¬ r.Lang bef t) : r.matchAt bef aft = none := by
  unfold Rx.matchAt
  rw [Rx.run_nil h]

theorem Rx.matchAt_first {r : Rx} {bef aft t rest : Str} (h : r.first ⟨bef, aft, []⟩ = some ((⟨bef, aft, []⟩ : MSt).eat t rest))
    (ha : aft = t ++ rest) : r.matchAt bef aft = some ⟨bef.reverse, t, rest, []⟩ := by
  unfold Rx.first at h
  unfold Rx.matchAt
  cases hr : r.run ⟨bef, aft, []⟩ with
  | nil => rw [hr] at h; cases h
  | cons x xs =>
    rw [hr] at h
    simp only [List.head?_cons, Option.some.injEq] at h
    subst h
    simp [MSt.eat, ha]

theorem Rx.findallGo_mem (r : Rx) (hr : 0 < r.minLen) {bef s e : Str} (he : e ∈ r.findallGo 0 bef s) :
    ∃ pre aft m, s = pre ++ aft ∧ r.matchAt (pre.reverse ++ bef) aft = some m ∧ m.text = e := by
  suffices ∀ n s bef, s.length ≤ n → e ∈ r.findallGo 0 bef s →
      ∃ pre aft m, s = pre ++ aft ∧ r.matchAt (pre.reverse ++ bef) aft = some m ∧ m.text = e from
    this s.length s bef (Nat.le_refl _) he
  intro n
  induction n with
  | zero =>
    intro s bef h he
    have : s = [] := by simpa using h
    subst this
    cases he
  | succ n ih =>
    intro s bef h he
    cases s with
    | nil => cases he
    | cons c cs =>
      simp only [Rx.findallGo] at he
      cases hm : r.matchAt bef (c :: cs) with
      | none =>
        rw [hm] at he
        obtain ⟨pre, aft, m, h1, h2, h3⟩ := ih cs (c :: bef) (by simpa using h) he
        exact ⟨c :: pre, aft, m, by simp [h1], by simpa using h2, h3⟩
      | some m =>
        rw [hm] at he
        simp only [List.mem_cons] at he
        rcases he with rfl | he
        · exact ⟨[], c :: cs, m, rfl, hm, rfl⟩
        · obtain ⟨hpre, hsplit, hlen⟩ := Rx.matchAt_split hm
          have hne : m.text ≠ [] := by intro h0; rw [h0] at hlen; simp at hlen; omega
          obtain ⟨d, t, ht⟩ : ∃ d t, m.text = d :: t := List.exists_cons_of_ne_nil hne
          rw [ht] at hsplit he
          simp only [List.cons_append, List.cons.injEq] at hsplit
          obtain ⟨rfl, hcs⟩ := hsplit
          simp only [List.length_cons, Nat.add_sub_cancel] at he
          rw [hcs, Rx.findallGo_skip r t.length _ t m.post rfl] at he
          have hlt : m.post.length ≤ n := by
            have : cs.length = t.length + m.post.length := by rw [hcs]; simp
            simp at h; omega
          obtain ⟨pre, aft, m', h1, h2, h3⟩ := ih m.post (t.reverse ++ c :: bef) hlt he
          exact ⟨c :: t ++ pre, aft, m', by simp [hcs, h1], by simpa using h2, h3⟩

theorem Rx.findallGo_nil (r : Rx) {bef s : Str} :
    r.findallGo 0 bef s = [] ↔ ∀ pre c aft, s = pre ++ c :: aft → r.matchAt (pre.reverse ++ bef) (c :: aft) = none := by
  induction s generalizing bef with
  | nil => simp [Rx.findallGo]
  | cons c cs ih =>
    simp only [Rx.findallGo]
    cases hm : r.matchAt bef (c :: cs) with
    | some m =>
      simp only [reduceCtorEq, false_iff]
      intro h
      have := h [] c cs rfl
      rw [List.reverse_nil, List.nil_append, hm] at this
      cases this
    | none =>
      simp only [ih]
      constructor
      · intro h pre d aft hs
        cases pre with
        | nil => simp only [List.nil_append, List.cons.injEq] at hs; obtain ⟨rfl, rfl⟩ := hs; exact hm
        | cons e pre =>
          simp only [List.cons_append, List.cons.injEq] at hs
          obtain ⟨rfl, hs⟩ := hs
          simpa using h pre d aft hs
      · intro h pre d aft hs
        simpa using h (c :: pre) d aft (by simp [hs])

end Crm
