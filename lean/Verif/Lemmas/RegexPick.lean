import Verif.Lemmas.PyVersion
import Verif.Spec.PreProcess

/-! # The match the engine finds first, when more is to be matched behind it -/

namespace Crm
open Spec

/-- The ways to match, and then to go on. -/
def Rx.pick (r : Rx) (k : MSt → List MSt) (s : MSt) : List MSt := (r.run s).flatMap k

theorem Rx.pick_seq (a b : Rx) (k : MSt → List MSt) (s : MSt) : (Rx.seq a b).pick k s = a.pick (b.pick k) s := by
  simp only [Rx.pick, Rx.run, List.flatMap_assoc]
  rfl

theorem Rx.pick_grp (n : Nat) (a : Rx) (k : MSt → List MSt) (s : MSt) : (Rx.grp n a).pick k s =
    a.pick (fun s' => k { s' with caps := (n, s.bef.length, (s'.bef.take (s'.bef.length - s.bef.length)).reverse) :: s'.caps }) s := by
  simp only [Rx.pick, Rx.run, List.flatMap_map]

theorem Rx.pick_seq' (a b : Rx) (k : MSt → List MSt) : (Rx.seq a b).pick k = a.pick (b.pick k) :=
  funext fun s => Rx.pick_seq a b k s

theorem Rx.pick_alt (a b : Rx) (k : MSt → List MSt) (s : MSt) : (Rx.alt a b).pick k s = a.pick k s ++ b.pick k s := by
  simp only [Rx.pick, Rx.run, List.flatMap_append]

theorem Rx.pick_eps (k : MSt → List MSt) (s : MSt) : Rx.eps.pick k s = k s := by
  simp [Rx.pick, Rx.run]

theorem Rx.pick_left {a b : Rx} {k : MSt → List MSt} {s x : MSt} (h : (a.pick k s).head? = some x) :
    ((Rx.alt a b).pick k s).head? = some x := by
  rw [Rx.pick_alt, List.head?_append, h]
  rfl

/-- The text of a group. -/
theorem grp_text {bef g x : Str} (h : x = g.reverse ++ bef) : (x.take (x.length - bef.length)).reverse = g := by
  subst h
  simp

theorem Rx.pick_cls {p : Char → Bool} {c : Char} (hc : p c = true) (k : MSt → List MSt) (bef rest : Str) (caps) :
    (Rx.cls p).pick k ⟨bef, c :: rest, caps⟩ = k ⟨c :: bef, rest, caps⟩ := by
  simp [Rx.pick, Rx.run, hc]

theorem Rx.pick_lit (t : Str) (k : MSt → List MSt) (bef rest : Str) (caps) :
    (Rx.lit t).pick k ⟨bef, t ++ rest, caps⟩ = k ⟨t.reverse ++ bef, rest, caps⟩ := by
  induction t generalizing bef with
  | nil => simp [Rx.lit, Rx.pick, Rx.run]
  | cons c t ih =>
    cases t with
    | nil => simpa [Rx.lit, Rx.chr] using Rx.pick_cls (p := (· == c)) (c := c) (by simp) k bef rest caps
    | cons d t =>
      rw [Rx.lit, Rx.pick_seq, Rx.chr, List.cons_append, Rx.pick_cls (by simp), ih]
      simp

theorem Rx.pick_nil {r : Rx} {k : MSt → List MSt} {s : MSt}
    (h : ∀ t rest caps, s.aft = t ++ rest → r.Lang s.bef t → k ⟨t.reverse ++ s.bef, rest, caps⟩ = []) : r.pick k s = [] := by
  simp only [Rx.pick, List.flatMap_eq_nil_iff]
  intro s' hs
  obtain ⟨t, ⟨h1, h2⟩, hl⟩ := Rx.run_sound r s s' hs
  have := h t s'.aft s'.caps h1 hl
  rw [← h2] at this
  exact this

theorem Rx.pick_right {a b : Rx} {k : MSt → List MSt} {s x : MSt} (hn : ∀ t rest, s.aft = t ++ rest → ¬ a.Lang s.bef t)
    (h : (b.pick k s).head? = some x) : ((Rx.alt a b).pick k s).head? = some x := by
  rw [Rx.pick_alt, Rx.pick_nil (r := a) fun t rest _ he hl => absurd hl (hn t rest he)]
  exact h

/-- A greedy iteration gives back characters until what follows it matches. -/
theorem Rx.pick_star {p : Char → Bool} {k : MSt → List MSt} {bef t rest : Str} {caps} {x : MSt}
    (ht : ∀ c ∈ t, p c = true) (hb : (k ⟨t.reverse ++ bef, rest, caps⟩).head? = some x)
    (hno : ∀ u v, u ≠ [] → (∀ c ∈ u, p c = true) → rest = u ++ v → k ⟨(t ++ u).reverse ++ bef, v, caps⟩ = []) :
    ((Rx.star (.cls p)).pick k ⟨bef, t ++ rest, caps⟩).head? = some x := by
  have htw : (t ++ rest).takeWhile p = t ++ rest.takeWhile p := by
    clear hb hno
    induction t with
    | nil => rfl
    | cons c t ih => simp [ht c (by simp), ih (fun d hd => ht d (by simp [hd]))]
  have key : ∀ n, t.length ≤ n → n ≤ t.length + (rest.takeWhile p).length →
      ((downTo ⟨bef, t ++ rest, caps⟩ n).flatMap k).head? = some x := by
    intro n
    induction n with
    | zero =>
      intro hn _
      have h0 : t = [] := by simpa using hn
      subst h0
      simp only [downTo, List.flatMap_cons, List.flatMap_nil, List.append_nil]
      simpa using hb
    | succ n ih =>
      intro hn hle
      simp only [downTo, List.flatMap_cons]
      by_cases he : n + 1 = t.length
      · have h1 : (t ++ rest).take (n + 1) = t := by rw [he]; simp
        have h2 : (t ++ rest).drop (n + 1) = rest := by rw [he]; simp
        rw [h1, h2, List.head?_append, hb]
        rfl
      · have h1 : (t ++ rest).take (n + 1) = t ++ rest.take (n + 1 - t.length) := by
          rw [List.take_append, List.take_of_length_le (by omega)]
        have h2 : (t ++ rest).drop (n + 1) = rest.drop (n + 1 - t.length) := by
          rw [List.drop_append, List.drop_of_length_le (by omega), List.nil_append]
        have h3 : rest.take (n + 1 - t.length) <+: rest.takeWhile p :=
          List.prefix_of_prefix_length_le (List.take_prefix _ _) (List.takeWhile_prefix p) (by rw [List.length_take]; omega)
        rw [h1, h2, hno _ _ ?_ ?_ (List.take_append_drop _ _).symm, List.nil_append]
        · exact ih (by omega) (by omega)
        · intro h0
          have h4 : (rest.takeWhile p).length ≤ rest.length := (List.takeWhile_prefix p).length_le
          have := congrArg List.length h0
          simp only [List.length_take, List.length_nil] at this
          omega
        · intro c hc
          exact List.all_eq_true.1 (List.all_takeWhile (l := rest) (p := p)) c (h3.subset hc)
  unfold Rx.pick
  rw [run_star_cls]
  simp only [htw, List.length_append]
  exact key _ (by omega) (Nat.le_refl _)

theorem Rx.pick_star_all {p : Char → Bool} {k : MSt → List MSt} {bef t rest : Str} {caps} {x : MSt}
    (ht : ∀ c ∈ t, p c = true) (hr : ∀ c, rest.head? = some c → p c = false)
    (hb : (k ⟨t.reverse ++ bef, rest, caps⟩).head? = some x) :
    ((Rx.star (.cls p)).pick k ⟨bef, t ++ rest, caps⟩).head? = some x := by
  refine Rx.pick_star ht hb fun u v hu hp he => ?_
  cases u with
  | nil => exact absurd rfl hu
  | cons c u =>
    have := hr c (by rw [he]; rfl)
    rw [hp c (by simp)] at this
    cases this

theorem dot_iff (c : Char) : (c != '\n') = true ↔ c ≠ '\n' := by simp

theorem noBreak_iff {t : Str} : (∀ c ∈ t, (c != '\n') = true) ↔ NoBreak t := by
  unfold NoBreak
  constructor
  · intro h hm; exact absurd (h _ hm) (by decide)
  · intro h c hc; rw [dot_iff]; rintro rfl; exact h hc

/-- `.*` goes to the last place where the rest matches. -/
theorem Rx.pick_dots {P : Str → Prop} {k : MSt → List MSt} {bef t rest : Str} {caps} {x : MSt} (h : UpToLast P t rest)
    (hb : (k ⟨t.reverse ++ bef, rest, caps⟩).head? = some x)
    (hno : ∀ bef v caps, ¬ P v → k ⟨bef, v, caps⟩ = []) :
    ((Rx.star Rx.dot).pick k ⟨bef, t ++ rest, caps⟩).head? = some x :=
  Rx.pick_star (noBreak_iff.2 h.1) hb fun u v hu hp he => hno _ _ _ (h.2.2 u v he hu (noBreak_iff.1 hp))

theorem Rx.first_pick {r : Rx} {s x : MSt} (h : (r.pick (fun s => [s]) s).head? = some x) : r.first s = some x := by
  have : r.pick (fun s => [s]) s = r.run s := by simp [Rx.pick]
  rw [this] at h
  exact h

/-- There is a last place. -/
theorem upToLast_exists {P : Str → Prop} {x m : Str} (hx : NoBreak x) (hm : P m) :
    ∃ x' m', x ++ m = x' ++ m' ∧ x <+: x' ∧ UpToLast P x' m' := by
  suffices ∀ n x m, m.length ≤ n → NoBreak x → P m → ∃ x' m', x ++ m = x' ++ m' ∧ x <+: x' ∧ UpToLast P x' m' from
    this _ x m (Nat.le_refl _) hx hm
  intro n
  induction n with
  | zero =>
    intro x m hl hx hm
    have h0 : m = [] := by simpa using hl
    subst h0
    refine ⟨x, [], rfl, List.prefix_refl _, hx, hm, fun y z he hy _ _ => ?_⟩
    have := congrArg List.length he
    cases y with
    | nil => exact hy rfl
    | cons _ _ => simp at this
  | succ n ih =>
    intro x m hl hx hm
    by_cases h : ∃ y z, m = y ++ z ∧ y ≠ [] ∧ NoBreak y ∧ P z
    · obtain ⟨y, z, rfl, hy, hb, hz⟩ := h
      obtain ⟨x', m', h1, h2, h3⟩ := ih (x ++ y) z (by
        cases y with
        | nil => exact absurd rfl hy
        | cons _ _ => simp at hl; omega) (by
          unfold NoBreak at *
          simp [hx, hb]) hz
      exact ⟨x', m', by rw [← h1, List.append_assoc], (List.prefix_append x y).trans h2, h3⟩
    · refine ⟨x, m, rfl, List.prefix_refl _, hx, hm, fun y z he hy hb hz => h ⟨y, z, he, hy, hb, hz⟩⟩

end Crm
