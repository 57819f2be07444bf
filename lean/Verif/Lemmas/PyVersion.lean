import Verif.Lemmas.Rewrite
import Verif.Model.Convert
import Verif.Lemmas.OneLine

/-! # The expressions that recognise Python versions in a selector -/

namespace Crm
open Spec

theorem Rx.first_cls_eat {p : Char → Bool} {bef : Str} {c : Char} {rest : Str} {caps} (hc : p c = true) :
    (Rx.cls p).first ⟨bef, c :: rest, caps⟩ = some ⟨c :: bef, rest, caps⟩ := by
  simpa [MSt.eat] using Rx.first_cls (s := ⟨bef, c :: rest, caps⟩) rfl hc

theorem takeWhile_before {p : Char → Bool} {t rest : Str} (ht : ∀ c ∈ t, p c = true) (hr : ∀ c, rest.head? = some c → p c = false) :
    (t ++ rest).takeWhile p = t ∧ (t ++ rest).dropWhile p = rest := by
  induction t with
  | nil =>
    cases rest with
    | nil => exact ⟨rfl, rfl⟩
    | cons c cs => simp [hr c rfl]
  | cons c t ih =>
    obtain ⟨h1, h2⟩ := ih (fun d hd => ht d (by simp [hd]))
    simp [ht c (by simp), h1, h2]

theorem Rx.first_star_eat {p : Char → Bool} {bef t rest : Str} {caps} (ht : ∀ c ∈ t, p c = true)
    (hr : ∀ c, rest.head? = some c → p c = false) :
    (Rx.star (.cls p)).first ⟨bef, t ++ rest, caps⟩ = some ⟨t.reverse ++ bef, rest, caps⟩ := by
  obtain ⟨h1, h2⟩ := takeWhile_before ht hr
  rw [Rx.first_star]
  simp [MSt.eat, h1, h2]

theorem Rx.first_plus_eat {p : Char → Bool} {bef t rest : Str} {caps} (hne : t ≠ []) (ht : ∀ c ∈ t, p c = true)
    (hr : ∀ c, rest.head? = some c → p c = false) :
    (Rx.plus (.cls p)).first ⟨bef, t ++ rest, caps⟩ = some ⟨t.reverse ++ bef, rest, caps⟩ := by
  obtain ⟨h1, h2⟩ := takeWhile_before ht hr
  cases t with
  | nil => exact absurd rfl hne
  | cons c t =>
    rw [Rx.first_plus (c := c) (rest := t ++ rest) rfl (ht c (by simp))]
    simp only at h1 h2 ⊢
    rw [h1, h2]; rfl

theorem Rx.first_lit_eat {bef rest : Str} {caps} (t : Str) :
    (Rx.lit t).first ⟨bef, t ++ rest, caps⟩ = some ⟨t.reverse ++ bef, rest, caps⟩ := Rx.first_lit t rest rfl

theorem Rx.first_grp_eat {a : Rx} {bef t aft rest : Str} {caps} (n : Nat)
    (h : a.first ⟨bef, aft, caps⟩ = some ⟨t.reverse ++ bef, rest, caps⟩) :
    (Rx.grp n a).first ⟨bef, aft, caps⟩ = some ⟨t.reverse ++ bef, rest, (n, bef.length, t) :: caps⟩ := by
  rw [Rx.first_grp n h]; simp

theorem Rx.grp_alt_left {a b c : Rx} {n : Nat} {s x : MSt} (h : ((Rx.grp n a).seq c).first s = some x) :
    ((Rx.grp n (.alt a b)).seq c).first s = some x := by
  unfold Rx.first at *
  simp only [Rx.run, List.map_append, List.flatMap_append, List.head?_append] at *
  rw [h]; rfl

theorem Rx.grp_alt_right {a b c : Rx} {n : Nat} {s : MSt} (h : ((Rx.grp n a).seq c).run s = []) :
    ((Rx.grp n (.alt a b)).seq c).first s = ((Rx.grp n b).seq c).first s := by
  unfold Rx.first at *
  simp only [Rx.run, List.map_append, List.flatMap_append] at *
  rw [h]; rfl

theorem oneOf_major {c : Char} (h : c = '2' ∨ c = '3') : (§"32").contains c = true := by
  rcases h with rfl | rfl <;> decide

theorem major_oneOf {c : Char} (h : (§"32").contains c = true) : c = '2' ∨ c = '3' := by
  simp only [List.contains_iff_mem] at h
  have : c ∈ ['3', '2'] := h
  simp at this
  exact this.symm

theorem major_not_space {c : Char} (h : c = '2' ∨ c = '3') : isSpace c = false := by
  rcases h with rfl | rfl <;> decide

/-- What follows the operator in `py >= 36`. -/
def verTail : Rx := .seq (.star Rx.ws) (.seq (.grp 2 (Rx.oneOf §"32")) (.grp 3 (Rx.plus Rx.digit)))

theorem verTail_first {gap minor rest bef : Str} {major : Char} {caps} (hg : ∀ c ∈ gap, isSpace c = true)
    (hm : major = '2' ∨ major = '3') (hn : Minor minor rest) :
    ∃ b p q, verTail.first ⟨bef, gap ++ ([major] ++ (minor ++ rest)), caps⟩ = some ⟨b, rest, (3, p, minor) :: (2, q, [major]) :: caps⟩ := by
  refine ⟨_, _, _, Rx.first_seq (Rx.first_star_eat hg ?_) (Rx.first_seq (Rx.first_grp_eat (t := [major]) 2 (Rx.first_cls_eat (oneOf_major hm)))
    (Rx.first_grp_eat 3 (Rx.first_plus_eat hn.1 hn.2.1 hn.2.2)))⟩
  intro c hc
  simp only [List.cons_append, List.nil_append, List.head?_cons, Option.some.injEq] at hc
  subst hc
  exact major_not_space hm

theorem verTail_lang {bef t : Str} (h : verTail.Lang bef t) : ∃ gap major minor, t = gap ++ ([major] ++ minor) ∧
    (∀ c ∈ gap, isSpace c = true) ∧ (major = '2' ∨ major = '3') ∧ minor ≠ [] ∧ ∀ c ∈ minor, isDigitC c = true := by
  obtain ⟨gap, _, rfl, h1, _, minor, rfl, ⟨major, rfl, h2⟩, h3⟩ := h
  rw [show Rx.ws = Rx.cls isSpace from rfl, Rx.lang_star_cls] at h1
  have h3 := (Rx.lang_plus_cls _ _ _).1 h3
  exact ⟨gap, major, minor, rfl, h1, major_oneOf h2, h3.1, h3.2⟩

theorem op_then_tail_nil {bef rest : Str} {x : Char} {caps} :
    ((Rx.grp 1 (Rx.lit [x])).seq verTail).run ⟨bef, x :: '=' :: rest, caps⟩ = [] := by
  apply Rx.run_nil
  rintro t rest' he ⟨u, v, rfl, h1, h2⟩
  have h1 := (Rx.lang_lit _ _ _).1 h1
  subst h1
  obtain ⟨gap, major, minor, rfl, hg, hm, _, _⟩ := verTail_lang h2
  simp only [List.cons_append, List.nil_append, List.append_assoc, List.cons.injEq, true_and] at he
  cases gap with
  | nil =>
    simp only [List.nil_append, List.cons.injEq] at he
    rcases hm with hm | hm <;> simp [hm] at he
  | cons c cs =>
    simp only [List.cons_append, List.cons.injEq] at he
    have := hg c (by simp)
    rw [← he.1] at this
    exact absurd this (by decide)

theorem op_other_nil {bef rest : Str} {x y : Char} {l : Str} {caps} (h : x ≠ y) :
    ((Rx.grp 1 (Rx.lit (x :: l))).seq verTail).run ⟨bef, y :: rest, caps⟩ = [] := by
  apply Rx.run_nil
  rintro t rest' he ⟨u, v, rfl, h1, h2⟩
  have h1 := (Rx.lang_lit _ _ _).1 h1
  subst h1
  simp only [List.cons_append, List.cons.injEq] at he
  exact h he.1.symm

theorem op_second_nil {bef rest : Str} {x y z : Char} {l : Str} {caps} (h : x ≠ y) :
    ((Rx.grp 1 (Rx.lit (z :: x :: l))).seq verTail).run ⟨bef, z :: y :: rest, caps⟩ = [] := by
  apply Rx.run_nil
  rintro t rest' he ⟨u, v, rfl, h1, h2⟩
  have h1 := (Rx.lang_lit _ _ _).1 h1
  subst h1
  simp only [List.cons_append, List.cons.injEq] at he
  exact h he.2.1.symm

def opRx : Rx := Rx.alts [Rx.lit §"<", Rx.lit §">", Rx.lit §"<=", Rx.lit §">=", Rx.lit §"==", Rx.lit §"!="]

theorem op_first {gap minor rest bef op : Str} {major : Char} {caps} (ho : op ∈ [§"<", §">", §"<=", §">=", §"==", §"!="])
    (hg : ∀ c ∈ gap, isSpace c = true) (hm : major = '2' ∨ major = '3') (hn : Minor minor rest) :
    ∃ b p q r, ((Rx.grp 1 opRx).seq verTail).first ⟨bef, op ++ (gap ++ ([major] ++ (minor ++ rest))), caps⟩ =
      some ⟨b, rest, (3, p, minor) :: (2, q, [major]) :: (1, r, op) :: caps⟩ := by
  have base : ∀ o : Str, ∃ b p q r, ((Rx.grp 1 (Rx.lit o)).seq verTail).first ⟨bef, o ++ (gap ++ ([major] ++ (minor ++ rest))), caps⟩ =
      some ⟨b, rest, (3, p, minor) :: (2, q, [major]) :: (1, r, o) :: caps⟩ := by
    intro o
    obtain ⟨b, p, q, h⟩ := verTail_first (bef := o.reverse ++ bef) (caps := (1, bef.length, o) :: caps) hg hm hn
    exact ⟨b, p, q, bef.length, Rx.first_seq (Rx.first_grp_eat 1 (Rx.first_lit_eat o)) h⟩
  obtain ⟨b, p, q, r, h⟩ := base op
  refine ⟨b, p, q, r, ?_⟩
  simp only [opRx, Rx.alts]
  simp only [List.mem_cons, List.not_mem_nil, or_false] at ho
  rcases ho with rfl | rfl | rfl | rfl | rfl | rfl
  · exact Rx.grp_alt_left h
  · simp only [List.cons_append, List.nil_append] at h ⊢
    rw [Rx.grp_alt_right (op_other_nil (x := '<') (y := '>') (by decide))]
    exact Rx.grp_alt_left h
  · simp only [List.cons_append, List.nil_append] at h ⊢
    rw [Rx.grp_alt_right (op_then_tail_nil (x := '<')),
      Rx.grp_alt_right (op_other_nil (x := '>') (y := '<') (by decide))]
    exact Rx.grp_alt_left h
  · simp only [List.cons_append, List.nil_append] at h ⊢
    rw [Rx.grp_alt_right (op_other_nil (x := '<') (y := '>') (by decide)), Rx.grp_alt_right (op_then_tail_nil (x := '>')),
      Rx.grp_alt_right (op_other_nil (x := '<') (y := '>') (by decide))]
    exact Rx.grp_alt_left h
  · simp only [List.cons_append, List.nil_append] at h ⊢
    rw [Rx.grp_alt_right (op_other_nil (x := '<') (y := '=') (by decide)),
      Rx.grp_alt_right (op_other_nil (x := '>') (y := '=') (by decide)),
      Rx.grp_alt_right (op_other_nil (x := '<') (y := '=') (by decide)),
      Rx.grp_alt_right (op_other_nil (x := '>') (y := '=') (by decide))]
    exact Rx.grp_alt_left h
  · simp only [List.cons_append, List.nil_append] at h ⊢
    rw [Rx.grp_alt_right (op_other_nil (x := '<') (y := '!') (by decide)),
      Rx.grp_alt_right (op_other_nil (x := '>') (y := '!') (by decide)),
      Rx.grp_alt_right (op_other_nil (x := '<') (y := '!') (by decide)),
      Rx.grp_alt_right (op_other_nil (x := '>') (y := '!') (by decide)),
      Rx.grp_alt_right (op_other_nil (x := '=') (y := '!') (by decide))]
    exact h

theorem op_not_space {op : Str} (ho : op ∈ [§"<", §">", §"<=", §">=", §"==", §"!="]) (rest : Str) :
    ∀ c, (op ++ rest).head? = some c → isSpace c = false := by
  simp only [List.mem_cons, List.not_mem_nil, or_false] at ho
  rcases ho with rfl | rfl | rfl | rfl | rfl | rfl <;> intro c hc <;> cases hc <;> decide

theorem matchAt_of_first {r : Rx} {bef old rest b : Str} {caps} (h : r.first ⟨bef, old ++ rest, []⟩ = some ⟨b, rest, caps⟩) :
    r.matchAt bef (old ++ rest) = some ⟨bef.reverse, old, rest, caps⟩ := by
  rw [Rx.matchAt_first' h]
  simp

/-- The longest run of digits. -/
theorem minor_extend (minor post : Str) (h1 : minor ≠ []) (h2 : ∀ c ∈ minor, isDigitC c = true) :
    ∃ minor' rest, minor ++ post = minor' ++ rest ∧ Minor minor' rest := by
  refine ⟨minor ++ post.takeWhile isDigitC, post.dropWhile isDigitC, by simp [List.takeWhile_append_dropWhile], by simp [h1], ?_, ?_⟩
  · intro c hc
    rcases List.mem_append.1 hc with h | h
    · exact h2 c h
    · exact List.all_eq_true.1 (List.all_takeWhile (l := post) (p := isDigitC)) c h
  · intro c hc
    have := List.head?_dropWhile_not isDigitC post
    rw [hc] at this
    simpa using this

theorem compared_sub (s out : Str) : Rewritten Compared s out ↔ out = Regex.selectorPythonVersion.sub
    (fun m => §"match(python, \"" ++ m.grpS 1 ++ m.grpS 2 ++ §"." ++ m.grpS 3 ++ §"\")") s := by
  apply Rx.rewritten_iff (by decide)
  · rintro bef old rest new ⟨gap, op, gap', major, minor, rfl, hg, hg', ho, hm, hn, rfl⟩
    obtain ⟨b, p, q, r, h⟩ := op_first (bef := gap.reverse ++ ((§"py").reverse ++ bef)) (caps := []) ho hg' hm hn
    have : Regex.selectorPythonVersion.first ⟨bef, (§"py" ++ gap ++ op ++ gap' ++ [major] ++ minor) ++ rest, []⟩ =
        some ⟨b, rest, [(3, p, minor), (2, q, [major]), (1, r, op)]⟩ := by
      simp only [List.append_assoc]
      exact Rx.first_seq (Rx.first_lit_eat §"py") (Rx.first_seq (Rx.first_star_eat hg (op_not_space ho _)) h)
    refine ⟨_, matchAt_of_first this, rfl, rfl, ?_⟩
    simp [RMatch.grpS, RMatch.group, pyMatch]
  · rintro bef t post ⟨_, _, rfl, h1, gap, _, rfl, h2, op, _, rfl, h3, h4⟩
    have h1 := (Rx.lang_lit _ _ _).1 h1
    rw [show Rx.ws = Rx.cls isSpace from rfl, Rx.lang_star_cls] at h2
    obtain ⟨gap', major, minor, rfl, hg', hm, hne, hd⟩ := verTail_lang h4
    obtain ⟨minor', rest, he, hn⟩ := minor_extend minor post hne hd
    refine ⟨§"py" ++ gap ++ op ++ gap' ++ [major] ++ minor', rest, _, ?_, gap, op, gap', major, minor', rfl, h2, hg', ?_, hm, hn, rfl⟩
    · rw [h1]; simp only [List.append_assoc, he]
    · rcases h3 with h | h | h | h | h | h <;> rw [(Rx.lang_lit _ _ _).1 h] <;> simp

theorem named_sub (s out : Str) : Rewritten Named s out ↔ out = Regex.selectorPythonEq.sub
    (fun m => §"match(python, \"==" ++ m.grpS 1 ++ §"." ++ m.grpS 2 ++ §"\")") s := by
  apply Rx.rewritten_iff (by decide)
  · rintro bef old rest new ⟨major, minor, rfl, hm, hn, rfl⟩
    obtain ⟨b, p, q, h⟩ : ∃ b p q, Regex.selectorPythonEq.first ⟨bef, (§"py" ++ [major] ++ minor) ++ rest, []⟩ =
        some ⟨b, rest, [(2, p, minor), (1, q, [major])]⟩ := by
      simp only [List.append_assoc]
      exact ⟨_, _, _, Rx.first_seq (Rx.first_lit_eat §"py") (Rx.first_seq (Rx.first_grp_eat (t := [major]) 1 (Rx.first_cls_eat (oneOf_major hm)))
        (Rx.first_grp_eat 2 (Rx.first_plus_eat hn.1 hn.2.1 hn.2.2)))⟩
    refine ⟨_, matchAt_of_first h, rfl, rfl, ?_⟩
    simp [RMatch.grpS, RMatch.group, pyMatch]
  · rintro bef t post ⟨_, _, rfl, h1, _, minor, rfl, ⟨major, rfl, h2⟩, h3⟩
    have h1 := (Rx.lang_lit _ _ _).1 h1
    have h3 := (Rx.lang_plus_cls _ _ _).1 h3
    obtain ⟨minor', rest, he, hn⟩ := minor_extend minor post h3.1 h3.2
    refine ⟨§"py" ++ [major] ++ minor', rest, _, ?_, major, minor', rfl, major_oneOf h2, hn, rfl⟩
    rw [h1]; simp only [List.append_assoc, he]

theorem word_sub (w new : Str) (hw : 0 < (Rx.lit w).minLen) (s out : Str) :
    Rewritten (Word w new) s out ↔ out = (Rx.lit w).sub (fun _ => new) s := by
  apply Rx.rewritten_iff hw
  · rintro bef old rest new' ⟨rfl, rfl⟩
    exact ⟨_, matchAt_of_first (Rx.first_lit_eat _), rfl, rfl, rfl⟩
  · intro bef t post h
    have h := (Rx.lang_lit _ _ _).1 h
    exact ⟨t, post, new, rfl, h, rfl⟩

/-- What stands in front of the first replacement was there before. -/
theorem rewritten_prefix {t o s : Str} (h : Rewritten Named s (t ++ o)) (ht : 'm' ∉ t) : ∃ s', s = t ++ s' := by
  induction t generalizing s with
  | nil => exact ⟨s, rfl⟩
  | cons c t ih =>
    generalize he : (c :: t) ++ o = out at h
    cases h with
    | done => cases he
    | @hit old rest new out hrule _ =>
      obtain ⟨_, _, _, _, _, rfl⟩ := hrule
      simp only [List.cons_append, pyMatch, List.append_assoc, List.cons.injEq] at he
      exact absurd (by simp [he.1]) ht
    | @miss d rest out _ hr =>
      simp only [List.cons_append, List.cons.injEq] at he
      obtain ⟨rfl, rfl⟩ := he
      obtain ⟨s', rfl⟩ := ih hr (by simp_all)
      exact ⟨s', rfl⟩

/-- In the new text, `py` occurs only in `python`. -/
theorem py_not_in_new {what post x rest : Str} {m : Char} (hw : 'p' ∉ what) (hm : m ≠ 't')
    (he : pyMatch what ++ post = x ++ (§"py" ++ m :: rest)) : ∃ x', post = x' ++ (§"py" ++ m :: rest) := by
  have peels : ∀ (w l x : Str), 'p' ∉ w → w ++ l = x ++ (§"py" ++ m :: rest) → ∃ x', x = w ++ x' ∧ l = x' ++ (§"py" ++ m :: rest) := by
    intro w
    induction w with
    | nil => intro l x _ h; exact ⟨x, rfl, h⟩
    | cons c w ih =>
      intro l x hp h
      cases x with
      | nil => simp at h; exact absurd (by simp [h.1]) hp
      | cons d x =>
        simp only [List.cons_append, List.cons.injEq] at h
        obtain ⟨rfl, h⟩ := h
        obtain ⟨x'', rfl, h''⟩ := ih l x (by intro hc; exact hp (by simp [hc])) h
        exact ⟨x'', rfl, h''⟩
  have hpos : pyMatch what ++ post = §"match(" ++ ('p' :: (§"ython, \"" ++ what ++ §"\")" ++ post)) := by simp [pyMatch]
  rw [hpos] at he
  obtain ⟨x, _, he⟩ := peels _ _ _ (by decide) he
  cases x with
  | nil => simp at he; exact absurd he.1.symm hm
  | cons d x =>
    simp only [List.cons_append, List.cons.injEq] at he
    obtain ⟨_, he⟩ := he
    obtain ⟨x, _, he⟩ := peels (§"ython, \"" ++ what ++ §"\")") post x (by
      intro hp
      simp only [List.mem_append, or_assoc] at hp
      rcases hp with hp | hp | hp
      · exact absurd hp (by decide)
      · exact hw hp
      · exact absurd hp (by decide)) (by simpa using he)
    exact ⟨x, he⟩

/-- After the second rewriting no version name is left. -/
theorem no_named_left {s out : Str} (h : Rewritten Named s out) (x rest : Str) (m d : Char) (hm : m = '2' ∨ m = '3')
    (hd : isDigitC d = true) : out ≠ x ++ (§"py" ++ [m] ++ d :: rest) := by
  induction h generalizing x with
  | done => simp
  | @hit old r new out hrule _ ih =>
    intro he
    obtain ⟨major, minor, _, hmaj, hn, rfl⟩ := hrule
    obtain ⟨x', h2⟩ := py_not_in_new (m := m) (rest := d :: rest) (what := §"==" ++ [major] ++ §"." ++ minor) (by
      intro hp
      simp only [List.mem_append, List.mem_cons, List.not_mem_nil, or_false] at hp
      rcases hp with (((hp | hp) | hp) | hp) | hp
      · exact absurd hp (by decide)
      · exact absurd hp (by decide)
      · rcases hmaj with rfl | rfl <;> exact absurd hp (by decide)
      · exact absurd hp (by decide)
      · exact absurd (hn.2.1 _ hp) (by decide)) (by rcases hm with rfl | rfl <;> decide) (by simpa using he)
    exact ih x' (by simpa using h2)
  | @miss c r out hno hr ih =>
    intro he
    cases x with
    | cons d' x => simp only [List.cons_append, List.cons.injEq] at he; exact ih x he.2
    | nil =>
      simp only [List.nil_append, List.cons_append, List.cons.injEq] at he
      obtain ⟨rfl, rfl⟩ := he
      obtain ⟨s', hs'⟩ := rewritten_prefix (t := ['y', m, d]) (o := rest) (by simpa using hr) (by
        intro hp
        simp only [List.mem_cons, List.not_mem_nil, or_false] at hp
        rcases hp with hp | hp | hp
        · exact absurd hp (by decide)
        · rcases hm with rfl | rfl <;> exact absurd hp (by decide)
        · subst hp; exact absurd hd (by decide))
      obtain ⟨minor', rest', he', hn⟩ := minor_extend [d] s' (by simp) (by simpa using hd)
      refine hno (§"py" ++ [m] ++ minor') rest' _ ?_ ⟨m, minor', rfl, hm, hn, rfl⟩
      rw [hs']
      simp only [List.cons_append, List.nil_append] at he' ⊢
      rw [he']

/-- The pass that looks for `not py27` finds nothing, since `py27` is gone by then. -/
theorem ne_pass_idle {s out : Str} (h : Rewritten Named s out) (f : RMatch → Str) : Regex.selectorPythonNe.sub f out = out := by
  apply sub_none
  intro b a ha
  apply Rx.matchAt_none
  rintro t rest rfl ⟨_, _, rfl, h1, _, minor, rfl, ⟨major, rfl, h2⟩, h3⟩
  have h1 := (Rx.lang_lit _ _ _).1 h1
  have h3 := (Rx.lang_plus_cls _ _ _).1 h3
  obtain ⟨x, hx⟩ := ha
  cases minor with
  | nil => exact h3.1 rfl
  | cons d ds =>
    refine no_named_left h (x ++ §"not ") (ds ++ rest) major d (major_oneOf h2) (h3.2 d (by simp)) ?_
    rw [← hx, h1]
    simp

end Crm
