import Verif.Lemmas.RegexPick
import Verif.Spec.PreProcess

/-! # The expressions that change the text of a recipe before a conversion -/

namespace Crm
open Spec

theorem only_iff {p : Char → Bool} {t : Str} : Only p t ↔ ∀ c ∈ t, p c = true := Iff.rfl

theorem lang_dots {bef t : Str} : (Rx.star Rx.dot).Lang bef t ↔ NoBreak t := by
  rw [show Rx.dot = Rx.cls (fun c => c != '\n') from rfl, Rx.lang_star_cls, noBreak_iff]

theorem lang_ws {bef t : Str} : (Rx.star Rx.ws).Lang bef t ↔ Only isSpace t := by
  rw [show Rx.ws = Rx.cls isSpace from rfl, Rx.lang_star_cls]; rfl

/-! ## The end of a statement -/

/-- `\)\s*` and the end of a statement. -/
def closingRx (stop : Str) : Rx := .seq (Rx.chr ')') (.seq (.star Rx.ws) (Rx.lit stop))

theorem closing_lang {stop bef t : Str} : (closingRx stop).Lang bef t ↔ ∃ v, t = §")" ++ v ++ stop ∧ Only isSpace v := by
  constructor
  · rintro ⟨_, _, rfl, h1, v, _, rfl, h2, h3⟩
    exact ⟨v, by rw [(Rx.lang_chr _ _ _).1 h1, (Rx.lang_lit _ _ _).1 h3]; simp, lang_ws.1 h2⟩
  · rintro ⟨v, rfl, hv⟩
    exact ⟨§")", v ++ stop, by simp, (Rx.lang_chr _ _ _).2 rfl, v, stop, rfl, lang_ws.2 hv, (Rx.lang_lit _ _ _).2 rfl⟩

theorem closing_nil {stop bef z : Str} {caps} {k : MSt → List MSt} (h : ¬ Closing stop z) :
    (closingRx stop).pick k ⟨bef, z, caps⟩ = [] := by
  apply Rx.pick_nil
  intro t rest caps he hl
  obtain ⟨v, rfl, hv⟩ := closing_lang.1 hl
  exact absurd ⟨v, rest, he, hv⟩ h

theorem closing_pick {stop bef v rest : Str} {c : Char} {caps} {k : MSt → List MSt} {x : MSt} (hv : Only isSpace v)
    (hs : stop.head? = some c) (hc : isSpace c = false)
    (hk : (k ⟨stop.reverse ++ (v.reverse ++ (')' :: bef)), rest, caps⟩).head? = some x) :
    ((closingRx stop).pick k ⟨bef, §")" ++ v ++ stop ++ rest, caps⟩).head? = some x := by
  unfold closingRx
  simp only [Rx.pick_seq', Rx.chr, List.append_assoc, List.cons_append, List.nil_append]
  rw [Rx.pick_cls (by decide)]
  refine Rx.pick_star_all hv ?_ ?_
  · intro d hd
    rw [List.head?_append, hs] at hd
    injection hd with hd
    exact hd ▸ hc
  · rw [Rx.pick_lit]; exact hk

/-! ## Dots in statements -/

/-- `\.(.*\(.*\)\s*%\})` -/
def dotCallRx : Rx := .seq (Rx.chr '.') (.grp 2 (.seq (.star Rx.dot) (.seq (Rx.chr '(') (.seq (.star Rx.dot) (closingRx §"%}")))))

theorem dotCall_nil {bef z : Str} {caps} {k : MSt → List MSt} (h : ¬ DottedCall z) : dotCallRx.pick k ⟨bef, z, caps⟩ = [] := by
  apply Rx.pick_nil
  rintro t rest caps he ⟨_, _, rfl, h1, p, _, rfl, h2, _, _, rfl, h3, q, _, rfl, h4, h5⟩
  obtain ⟨v, rfl, hv⟩ := closing_lang.1 h5
  rw [(Rx.lang_chr _ _ _).1 h1, (Rx.lang_chr _ _ _).1 h3] at he
  refine absurd ⟨p, q, §")" ++ v ++ §"%}" ++ rest, ?_, lang_dots.1 h2, lang_dots.1 h4, v, rest, rfl, hv⟩ h
  simpa using he

/-- A text that holds a character, split at its last place. -/
theorem split_last {c : Char} {t : Str} (h : c ∈ t) : ∃ a b, t = a ++ c :: b ∧ c ∉ b := by
  induction t with
  | nil => cases h
  | cons d t ih =>
    by_cases ht : c ∈ t
    · obtain ⟨a, b, rfl, hb⟩ := ih ht
      exact ⟨d :: a, b, rfl, hb⟩
    · have : c = d := by simpa [ht] using h
      subst this
      exact ⟨[], t, rfl, ht⟩

theorem noBreak_append {a b : Str} : NoBreak (a ++ b) ↔ NoBreak a ∧ NoBreak b := by
  unfold NoBreak; simp

/-- The character taken is the last one in front of the last place. -/
theorem char_last {P : Str → Prop} {c : Char} {b b1 b2 m : Str} (hb : UpToLast P b m) (he : b = b1 ++ c :: b2) (hl : c ∉ b2) :
    UpToLast (fun z => ∃ q r, z = c :: (q ++ r) ∧ NoBreak q ∧ P r) b1 (c :: (b2 ++ m)) := by
  have hn := hb.1
  rw [he, noBreak_append] at hn
  have hn2 : c ≠ '\n' ∧ NoBreak b2 := by
    have := hn.2
    unfold NoBreak at *
    simp at this
    exact ⟨fun h => this.1 h.symm, this.2⟩
  refine ⟨hn.1, ⟨b2, m, rfl, hn2.2, hb.2.1⟩, ?_⟩
  rintro y z hyz hy hyn ⟨q, r, rfl, hq, hr⟩
  have hcq : NoBreak (c :: q) := by
    unfold NoBreak at *
    simp only [List.mem_cons, not_or]
    exact ⟨fun h => hn2.1 h.symm, hq⟩
  cases y with
  | nil => exact hy rfl
  | cons d y =>
    simp only [List.cons_append, List.cons.injEq] at hyz
    obtain ⟨rfl, hyz⟩ := hyz
    rcases List.append_eq_append_iff.1 hyz with ⟨u, h1, h2⟩ | ⟨u, h1, h2⟩
    · refine hb.2.2 (u ++ c :: q) r (by rw [h2]; simp) (by simp) ?_ hr
      rw [noBreak_append]
      refine ⟨?_, hcq⟩
      rw [h1] at hyn
      unfold NoBreak at *
      simp at hyn
      exact hyn.2.2
    · cases u with
      | nil =>
        simp only [List.nil_append] at h2
        exact hb.2.2 (c :: q) r (by rw [← h2]; simp) (by simp) hcq hr
      | cons e u =>
        simp only [List.cons_append, List.cons.injEq] at h2
        exact hl (by rw [h1, ← h2.1]; simp)

theorem head_not_space {c : Char} {rest : Str} (h : isSpace c = false) :
    ∀ d, (c :: rest).head? = some d → isSpace d = false := by
  intro d hd
  injection hd with hd
  exact hd ▸ h

theorem dotCall_pick {bef b v rest : Str} {caps} {k : MSt → List MSt} {x : MSt} (hp : '(' ∈ b) (hv : Only isSpace v)
    (hb : UpToLast (Closing §"%}") b (§")" ++ v ++ §"%}" ++ rest))
    (hk : (k ⟨(b ++ §")" ++ v ++ §"%}").reverse ++ ('.' :: bef), rest, (2, bef.length + 1, b ++ §")" ++ v ++ §"%}") :: caps⟩).head? = some x) :
    (dotCallRx.pick k ⟨bef, §"." ++ b ++ §")" ++ v ++ §"%}" ++ rest, caps⟩).head? = some x := by
  obtain ⟨b1, b2, rfl, hl⟩ := split_last hp
  unfold dotCallRx
  simp only [Rx.pick_seq', Rx.chr, List.append_assoc, List.cons_append, List.nil_append]
  rw [Rx.pick_cls (by decide), Rx.pick_grp]
  simp only [Rx.pick_seq']
  have h1 := char_last hb rfl hl
  simp only [List.append_assoc, List.cons_append, List.nil_append] at h1 hb
  refine Rx.pick_dots h1 ?_ ?_
  · rw [Rx.pick_cls (by decide)]
    have h2 : UpToLast (Closing §"%}") b2 (§")" ++ v ++ §"%}" ++ rest) := by
      have hn := hb.1
      rw [noBreak_append] at hn
      refine ⟨by have := hn.2; unfold NoBreak at *; simp at this; exact this, ?_⟩
      simpa using hb.2
    have he : b2 ++ (')' :: (v ++ ('%' :: '}' :: rest))) = b2 ++ (§")" ++ v ++ §"%}" ++ rest) := by simp
    rw [he]
    refine Rx.pick_dots h2 (closing_pick hv rfl (by decide) ?_) (fun _ _ _ h => closing_nil h)
    rw [grp_text (g := (b1 ++ '(' :: b2) ++ §")" ++ v ++ §"%}") (by simp)]
    simpa using hk
  · intro bef v caps hn
    apply Rx.pick_nil
    intro t rest caps he hl
    have hl := (Rx.lang_chr _ _ _).1 hl
    subst hl
    apply Rx.pick_nil
    intro t rest' caps he' hl
    apply closing_nil
    intro hc
    exact hn ⟨t, rest', by rw [show v = '(' :: rest from he, show rest = t ++ rest' from he'], lang_dots.1 hl, hc⟩

theorem dotInSet_sub (s out : Str) : Rewritten DotInSet s out ↔
    out = Regex.preProcessDotAssignment.sub (fun m => m.grpS 1 ++ §" | " ++ m.grpS 2) s := by
  apply Rx.rewritten_iff (by decide)
  · rintro bef old rest new ⟨w, a, b, v, rfl, hw, ha, hb, hv, hda, hdb, rfl⟩
    obtain ⟨a1, a2, rfl, hl⟩ := split_last ha
    have hfirst : Regex.preProcessDotAssignment.first
        ⟨bef, (§"{%" ++ w ++ §"set" ++ (a1 ++ '=' :: a2) ++ §"." ++ b ++ §")" ++ v ++ §"%}") ++ rest, []⟩ =
        some ⟨(b ++ §")" ++ v ++ §"%}").reverse ++ ('.' :: ((§"{%" ++ w ++ §"set" ++ (a1 ++ '=' :: a2)).reverse ++ bef)), rest,
          [(2, ((§"{%" ++ w ++ §"set" ++ (a1 ++ '=' :: a2)).reverse ++ bef).length + 1, b ++ §")" ++ v ++ §"%}"),
           (1, bef.length, §"{%" ++ w ++ §"set" ++ (a1 ++ '=' :: a2))]⟩ := by
      apply Rx.first_pick
      show (Rx.pick (Rx.seq (Rx.grp 1 _) dotCallRx) _ _).head? = _
      rw [Rx.pick_seq, Rx.pick_grp]
      simp only [Rx.cat, Rx.pick_seq', Rx.chr, List.append_assoc]
      rw [Rx.pick_lit]
      refine Rx.pick_star_all hw (head_not_space (by decide)) ?_
      rw [Rx.pick_lit]
      have h1 := char_last hda rfl hl
      simp only [List.append_assoc, List.cons_append, List.nil_append] at h1 hda ⊢
      refine Rx.pick_dots h1 ?_ ?_
      · rw [Rx.pick_cls (by decide)]
        have h2 : UpToLast DottedCall a2 (§"." ++ b ++ §")" ++ v ++ §"%}" ++ rest) := by
          have hn := hda.1
          rw [noBreak_append] at hn
          refine ⟨by have := hn.2; unfold NoBreak at *; simp at this; exact this, ?_⟩
          simpa using hda.2
        have : a2 ++ ('.' :: (b ++ (')' :: (v ++ ('%' :: '}' :: rest))))) = a2 ++ (§"." ++ b ++ §")" ++ v ++ §"%}" ++ rest) := by simp
        rw [this]
        refine Rx.pick_dots h2 ?_ (fun _ _ _ h => dotCall_nil h)
        rw [grp_text (g := §"{%" ++ w ++ §"set" ++ (a1 ++ '=' :: a2)) (by simp)]
        refine dotCall_pick hb hv hdb ?_
        simp
      · intro bef v caps hn
        apply Rx.pick_nil
        intro t rest caps he hl
        have hl := (Rx.lang_chr _ _ _).1 hl
        subst hl
        apply Rx.pick_nil
        intro t rest' caps he' hl
        apply dotCall_nil
        intro hc
        exact hn ⟨t, rest', by rw [show v = '=' :: rest from he, show rest = t ++ rest' from he'], lang_dots.1 hl, hc⟩
    refine ⟨_, matchAt_of_first hfirst, rfl, rfl, ?_⟩
    simp [RMatch.grpS, RMatch.group]
  · rintro bef t post ⟨_, _, rfl, ⟨_, _, rfl, h1, w, _, rfl, h2, _, _, rfl, h3, a1, _, rfl, h4, _, a2, rfl, h5, h6⟩,
      _, _, rfl, h7, p, _, rfl, h8, _, _, rfl, h9, q, _, rfl, h10, h11⟩
    obtain ⟨v, rfl, hv⟩ := closing_lang.1 h11
    rw [(Rx.lang_lit _ _ _).1 h1, (Rx.lang_lit _ _ _).1 h3, (Rx.lang_chr _ _ _).1 h5, (Rx.lang_chr _ _ _).1 h7, (Rx.lang_chr _ _ _).1 h9]
    have h2 := lang_ws.1 h2
    have h4 := lang_dots.1 h4
    have h6 := lang_dots.1 h6
    have h8 := lang_dots.1 h8
    have h10 := lang_dots.1 h10
    have ha : NoBreak (a1 ++ §"=" ++ a2) := by
      rw [noBreak_append, noBreak_append]; exact ⟨⟨h4, by unfold NoBreak; decide⟩, h6⟩
    obtain ⟨a, m, e1, ⟨a', e2⟩, hda⟩ := upToLast_exists (P := DottedCall)
      (m := §"." ++ p ++ §"(" ++ q ++ (§")" ++ v ++ §"%}" ++ post)) ha ⟨p, q, _, rfl, h8, h10, v, post, rfl, hv⟩
    obtain ⟨p', q', r', rfl, hp', hq', hr'⟩ := hda.2.1
    have hb : NoBreak (p' ++ §"(" ++ q') := by
      rw [noBreak_append, noBreak_append]; exact ⟨⟨hp', by unfold NoBreak; decide⟩, hq'⟩
    obtain ⟨b, m', e3, ⟨b', e4⟩, hdb⟩ := upToLast_exists hb hr'
    obtain ⟨v', rest, rfl, hv'⟩ := hdb.2.1
    have e5 : §"." ++ p' ++ §"(" ++ q' ++ r' = §"." ++ b ++ §")" ++ v' ++ §"%}" ++ rest := by
      have := congrArg (fun z => '.' :: z) e3
      simpa using this
    rw [e5] at e1 hda
    refine ⟨§"{%" ++ w ++ §"set" ++ a ++ §"." ++ b ++ §")" ++ v' ++ §"%}", rest, _, ?_, w, a, b, v', rfl, h2, ?_, ?_, hv', hda, hdb, rfl⟩
    · have := congrArg (fun z => §"{%" ++ w ++ §"set" ++ z) e1
      simpa using this
    · rw [← e2]; simp
    · rw [← e4]; simp

/-! ## Dots in substitutions -/

/-- `\.([a-zA-Z0-9_]*\(.*\)\s*\}\})` -/
def dotMethodRx : Rx := .seq (Rx.chr '.') (.grp 2 (.seq (.star Rx.word) (.seq (Rx.chr '(') (.seq (.star Rx.dot) (closingRx §"}}")))))

theorem lang_word {bef t : Str} : (Rx.star Rx.word).Lang bef t ↔ Only nameChar t := by
  rw [show Rx.word = Rx.cls nameChar from rfl, Rx.lang_star_cls]; rfl

theorem dotMethod_nil {bef z : Str} {caps} {k : MSt → List MSt} (h : ¬ DottedMethod z) : dotMethodRx.pick k ⟨bef, z, caps⟩ = [] := by
  apply Rx.pick_nil
  rintro t rest caps he ⟨_, _, rfl, h1, p, _, rfl, h2, _, _, rfl, h3, q, _, rfl, h4, h5⟩
  obtain ⟨v, rfl, hv⟩ := closing_lang.1 h5
  rw [(Rx.lang_chr _ _ _).1 h1, (Rx.lang_chr _ _ _).1 h3] at he
  refine absurd ⟨p, q, §")" ++ v ++ §"}}" ++ rest, ?_, lang_word.1 h2, lang_dots.1 h4, v, rest, rfl, hv⟩ h
  simpa using he

theorem dotMethod_pick {bef f q v rest : Str} {caps} {k : MSt → List MSt} {x : MSt} (hf : Only nameChar f) (hv : Only isSpace v)
    (hq : UpToLast (Closing §"}}") q (§")" ++ v ++ §"}}" ++ rest))
    (hk : (k ⟨(f ++ §"(" ++ q ++ §")" ++ v ++ §"}}").reverse ++ ('.' :: bef), rest,
      (2, bef.length + 1, f ++ §"(" ++ q ++ §")" ++ v ++ §"}}") :: caps⟩).head? = some x) :
    (dotMethodRx.pick k ⟨bef, §"." ++ f ++ §"(" ++ q ++ §")" ++ v ++ §"}}" ++ rest, caps⟩).head? = some x := by
  unfold dotMethodRx
  simp only [Rx.pick_seq', Rx.chr, List.append_assoc, List.cons_append, List.nil_append]
  rw [Rx.pick_cls (by decide), Rx.pick_grp]
  simp only [Rx.pick_seq']
  refine Rx.pick_star_all (p := nameChar) hf ?_ ?_
  · intro d hd
    injection hd with hd
    rw [← hd]; decide
  rw [Rx.pick_cls (by decide)]
  have he : q ++ (')' :: (v ++ ('}' :: '}' :: rest))) = q ++ (§")" ++ v ++ §"}}" ++ rest) := by simp
  rw [he]
  refine Rx.pick_dots hq (closing_pick hv rfl (by decide) ?_) (fun _ _ _ h => closing_nil h)
  rw [grp_text (g := f ++ §"(" ++ q ++ §")" ++ v ++ §"}}") (by simp)]
  simpa using hk

/-- What is left over when the characters of one kind have been taken from the front. -/
theorem split_while (p : Char → Bool) (t : Str) : ∃ a b, t = a ++ b ∧ (∀ c ∈ a, p c = true) ∧ ∀ c, b.head? = some c → p c = false :=
  ⟨t.takeWhile p, t.dropWhile p, List.takeWhile_append_dropWhile.symm, fun c hc => List.all_eq_true.1 List.all_takeWhile c hc, by
    intro c hc
    induction t with
    | nil => cases hc
    | cons d t ih =>
      rw [List.dropWhile_cons] at hc
      split at hc
      · exact ih hc
      · injection hc with hc
        subst hc
        simpa using ‹¬ p d = true›⟩

theorem head_append {p : Char → Bool} {a rest : Str} {d : Char} (h : ∀ c, a.head? = some c → p c = false) (hd : p d = false) :
    ∀ c, (a ++ d :: rest).head? = some c → p c = false := by
  intro c hc
  cases a with
  | nil => injection hc with hc; exact hc ▸ hd
  | cons e a => exact h c hc

theorem Spec.UpToLast.tail {P : Str → Prop} {a b m : Str} (h : UpToLast P (a ++ b) m) : UpToLast P b m :=
  ⟨(noBreak_append.1 h.1).2, h.2⟩

theorem dotInSubstitution_sub (s out : Str) : Rewritten DotInSubstitution s out ↔
    out = Regex.preProcessDotSubstitution.sub (fun m => m.grpS 1 ++ §" | " ++ m.grpS 2) s := by
  apply Rx.rewritten_iff (by decide)
  · rintro bef old rest new ⟨w, a, f, q, v, rfl, hw, ha, hf, hv, hda, hdq, rfl⟩
    obtain ⟨a1, a2, rfl, h1, h2⟩ := split_while nameChar a
    have hfirst : Regex.preProcessDotSubstitution.first
        ⟨bef, (§"{{" ++ w ++ (a1 ++ a2) ++ §"." ++ f ++ §"(" ++ q ++ §")" ++ v ++ §"}}") ++ rest, []⟩ =
        some ⟨(f ++ §"(" ++ q ++ §")" ++ v ++ §"}}").reverse ++ ('.' :: ((§"{{" ++ w ++ (a1 ++ a2)).reverse ++ bef)), rest,
          [(2, ((§"{{" ++ w ++ (a1 ++ a2)).reverse ++ bef).length + 1, f ++ §"(" ++ q ++ §")" ++ v ++ §"}}"),
           (1, bef.length, §"{{" ++ w ++ (a1 ++ a2))]⟩ := by
      apply Rx.first_pick
      show (Rx.pick (Rx.seq (Rx.grp 1 _) dotMethodRx) _ _).head? = _
      rw [Rx.pick_seq, Rx.pick_grp]
      simp only [Rx.cat, Rx.pick_seq', Rx.chr, List.append_assoc]
      rw [Rx.pick_lit]
      refine Rx.pick_star_all hw ?_ ?_
      · rw [← List.append_assoc a1 a2]
        exact head_append ha (by decide)
      refine Rx.pick_star_all (p := nameChar) h1 (head_append h2 (by decide)) ?_
      have he : a2 ++ (§"." ++ (f ++ (§"(" ++ (q ++ (§")" ++ (v ++ (§"}}" ++ rest))))))) =
        a2 ++ (§"." ++ f ++ §"(" ++ q ++ §")" ++ v ++ §"}}" ++ rest) := by simp
      rw [he]
      refine Rx.pick_dots hda.tail ?_ (fun _ _ _ h => dotMethod_nil h)
      rw [grp_text (g := §"{{" ++ w ++ (a1 ++ a2)) (by simp)]
      refine dotMethod_pick hf hv hdq ?_
      simp
    refine ⟨_, matchAt_of_first hfirst, rfl, rfl, ?_⟩
    simp [RMatch.grpS, RMatch.group]
  · rintro bef t post ⟨_, _, rfl, ⟨_, _, rfl, h1, w, _, rfl, h2, a1, a2, rfl, h3, h4⟩,
      _, _, rfl, h7, p, _, rfl, h8, _, _, rfl, h9, q, _, rfl, h10, h11⟩
    obtain ⟨v, rfl, hv⟩ := closing_lang.1 h11
    rw [(Rx.lang_lit _ _ _).1 h1, (Rx.lang_chr _ _ _).1 h7, (Rx.lang_chr _ _ _).1 h9]
    have h2 := lang_ws.1 h2
    have h3 := lang_word.1 h3
    have h4 := lang_dots.1 h4
    have h8 := lang_word.1 h8
    have h10 := lang_dots.1 h10
    have hn : NoBreak (a1 ++ a2) := by
      rw [noBreak_append]
      refine ⟨fun hm => ?_, h4⟩
      have := h3 _ hm
      exact absurd this (by decide)
    generalize a1 ++ a2 = a0 at hn
    obtain ⟨w', a3, rfl, hw', ha3⟩ := split_while isSpace a0
    obtain ⟨a, m, e1, ⟨a', e2⟩, hda⟩ := upToLast_exists (P := DottedMethod)
      (m := §"." ++ p ++ §"(" ++ q ++ (§")" ++ v ++ §"}}" ++ post)) (noBreak_append.1 hn).2 ⟨p, q, _, rfl, h8, h10, v, post, rfl, hv⟩
    obtain ⟨p', q', r', rfl, hp', hq', hr'⟩ := hda.2.1
    obtain ⟨b, m', e3, ⟨b', e4⟩, hdb⟩ := upToLast_exists hq' hr'
    obtain ⟨v', rest, rfl, hv'⟩ := hdb.2.1
    have e5 : §"." ++ p' ++ §"(" ++ q' ++ r' = §"." ++ p' ++ §"(" ++ b ++ §")" ++ v' ++ §"}}" ++ rest := by
      have := congrArg (fun z => '.' :: (p' ++ ('(' :: z))) e3
      simpa using this
    rw [e5] at e1 hda
    refine ⟨§"{{" ++ (w ++ w') ++ a ++ §"." ++ p' ++ §"(" ++ b ++ §")" ++ v' ++ §"}}", rest, _, ?_, w ++ w', a, p', b, v', rfl,
      ?_, ?_, hp', hv', hda, hdb, rfl⟩
    · have := congrArg (fun z => §"{{" ++ w ++ w' ++ z) e1
      simpa using this
    · intro c hc
      rcases List.mem_append.1 hc with hc | hc
      · exact h2 c hc
      · exact hw' c hc
    · intro c hc
      rw [← e2] at hc
      cases a3 with
      | nil =>
        have e1 := congrArg List.head? e1
        rw [← e2] at e1
        cases a' with
        | nil => cases hc
        | cons d a' => injection e1 with e1; injection hc with hc; rw [← hc, ← e1]; decide
      | cons d a3 => exact ha3 c hc

/-! ## Parentheses -/

theorem lang_alts2 {bef t a b : Str} : (Rx.alts [Rx.lit a, Rx.lit b]).Lang bef t ↔ t = a ∨ t = b := by
  show ((Rx.lit a).Lang bef t ∨ (Rx.lit b).Lang bef t) ↔ _
  rw [Rx.lang_lit, Rx.lang_lit]

theorem emptyCall_sub (s out : Str) : Rewritten EmptyCall s out ↔ out = Regex.preProcessEmptyParens.sub (fun m => m.grpS 1) s := by
  apply Rx.rewritten_iff (by decide)
  · rintro bef old rest new ⟨w, f, hf, hw, rfl, rfl⟩
    have hsp : ∀ z, ∀ d, (f ++ z).head? = some d → isSpace d = false := by
      rcases hf with rfl | rfl <;> intro z <;> exact head_not_space (by decide)
    have hfirst : Regex.preProcessEmptyParens.first ⟨bef, (§"|" ++ w ++ f ++ §"()") ++ rest, []⟩ =
        some ⟨(§"|" ++ w ++ f ++ §"()").reverse ++ bef, rest,
          [(3, bef.length + (1 + w.length + 5), §"()"), (1, bef.length, §"|" ++ w ++ f), (2, bef.length + (1 + w.length), f)]⟩ := by
      apply Rx.first_pick
      show (Rx.pick (Rx.seq (Rx.grp 1 _) (Rx.grp 3 _)) _ _).head? = _
      rw [Rx.pick_seq, Rx.pick_grp]
      simp only [Rx.cat, Rx.pick_seq', Rx.chr, List.append_assoc, List.cons_append, List.nil_append]
      rw [Rx.pick_cls (by decide)]
      refine Rx.pick_star_all hw (hsp _) ?_
      rw [Rx.pick_grp]
      rcases hf with rfl | rfl
      · refine Rx.pick_left ?_
        rw [Rx.pick_lit, grp_text (g := §"lower") (by simp), Rx.pick_grp, grp_text (g := §"|" ++ w ++ §"lower") (by simp)]
        rw [show '(' :: ')' :: rest = §"()" ++ rest from rfl, Rx.pick_lit, grp_text (g := §"()") (by simp)]
        simp; omega
      · refine Rx.pick_right ?_ ?_
        · intro t r he hl
          rw [(Rx.lang_lit _ _ _).1 hl] at he
          injection he with he
          exact absurd he (by decide)
        show (Rx.pick (Rx.lit §"upper") _ _).head? = _
        rw [Rx.pick_lit, grp_text (g := §"upper") (by simp), Rx.pick_grp, grp_text (g := §"|" ++ w ++ §"upper") (by simp)]
        rw [show '(' :: ')' :: rest = §"()" ++ rest from rfl, Rx.pick_lit, grp_text (g := §"()") (by simp)]
        simp; omega
    refine ⟨_, matchAt_of_first hfirst, ?_, rfl, ?_⟩
    · simp
    · simp [RMatch.grpS, RMatch.group]
  · rintro bef t post ⟨_, _, rfl, ⟨_, _, rfl, h1, w, f, rfl, h2, h3⟩, h4⟩
    rw [(Rx.lang_chr _ _ _).1 h1, show _ = §"()" from (Rx.lang_lit _ _ _).1 h4]
    exact ⟨§"|" ++ w ++ f ++ §"()", post, _, by simp, w, f, lang_alts2.1 h3, lang_ws.1 h2, rfl, rfl⟩

/-! ## Quoted texts of more than one line -/

theorem quote_iff {c : Char} : (§"'\"").contains c = true ↔ isQuote c := by
  unfold isQuote; simp

/-- `(.*)['\"]` -/
def lastQuoteRx : Rx := .seq (.grp 4 (.star Rx.dot)) (Rx.oneOf §"'\"")

/-- `\\n(.*)['\"]` -/
def escapeRx : Rx := .seq (Rx.lit §"\\n") lastQuoteRx

/-- `:\s*['\"](.*)\\n(.*)['\"]` -/
def quotedRx : Rx := .seq (Rx.chr ':') (.seq (.star Rx.ws) (.seq (Rx.oneOf §"'\"") (.seq (.grp 3 (.star Rx.dot)) escapeRx)))

theorem quote_lang {bef t : Str} : (Rx.oneOf §"'\"").Lang bef t ↔ ∃ q, t = [q] ∧ isQuote q := by
  constructor
  · rintro ⟨c, rfl, hc⟩
    exact ⟨c, rfl, quote_iff.1 hc⟩
  · rintro ⟨c, rfl, hc⟩
    exact ⟨c, rfl, quote_iff.2 hc⟩

theorem quote_nil {bef z : Str} {caps} {k : MSt → List MSt} (h : ¬ QuoteNext z) : (Rx.oneOf §"'\"").pick k ⟨bef, z, caps⟩ = [] := by
  apply Rx.pick_nil
  intro t rest caps he hl
  obtain ⟨q, rfl, hq⟩ := quote_lang.1 hl
  exact absurd ⟨q, rest, he, hq⟩ h

theorem escape_lang {bef t : Str} : escapeRx.Lang bef t ↔ ∃ b q, t = §"\\n" ++ b ++ [q] ∧ NoBreak b ∧ isQuote q := by
  constructor
  · rintro ⟨_, _, rfl, h1, b, _, rfl, h2, h3⟩
    obtain ⟨q, rfl, hq⟩ := quote_lang.1 h3
    exact ⟨b, q, by rw [(Rx.lang_lit _ _ _).1 h1]; simp, lang_dots.1 h2, hq⟩
  · rintro ⟨b, q, rfl, hb, hq⟩
    exact ⟨§"\\n", b ++ [q], by simp, (Rx.lang_lit _ _ _).2 rfl, b, [q], rfl, lang_dots.2 hb, quote_lang.2 ⟨q, rfl, hq⟩⟩

theorem escape_nil {bef z : Str} {caps} {k : MSt → List MSt} (h : ¬ EscapeNext z) : escapeRx.pick k ⟨bef, z, caps⟩ = [] := by
  apply Rx.pick_nil
  intro t rest caps he hl
  obtain ⟨b, q, rfl, hb, hq⟩ := escape_lang.1 hl
  exact absurd ⟨b, q :: rest, by rw [show z = _ from he]; simp, hb, q, rest, rfl, hq⟩ h

theorem quoted_lang {bef t : Str} : quotedRx.Lang bef t ↔ ∃ g q a b q', t = §":" ++ g ++ [q] ++ a ++ §"\\n" ++ b ++ [q'] ∧
    Only isSpace g ∧ isQuote q ∧ NoBreak a ∧ NoBreak b ∧ isQuote q' := by
  constructor
  · rintro ⟨_, _, rfl, h1, g, _, rfl, h2, _, _, rfl, h3, a, _, rfl, h4, h5⟩
    obtain ⟨q, rfl, hq⟩ := quote_lang.1 h3
    obtain ⟨b, q', rfl, hb, hq'⟩ := escape_lang.1 h5
    exact ⟨g, q, a, b, q', by rw [(Rx.lang_chr _ _ _).1 h1]; simp, lang_ws.1 h2, hq, lang_dots.1 h4, hb, hq'⟩
  · rintro ⟨g, q, a, b, q', rfl, hg, hq, ha, hb, hq'⟩
    exact ⟨§":", g ++ ([q] ++ (a ++ (§"\\n" ++ b ++ [q']))), by simp, (Rx.lang_chr _ _ _).2 rfl, g, _, rfl, lang_ws.2 hg, [q], _, rfl,
      quote_lang.2 ⟨q, rfl, hq⟩, a, _, rfl, lang_dots.2 ha, escape_lang.2 ⟨b, q', rfl, hb, hq'⟩⟩

theorem quoted_nil {bef z : Str} {caps} {k : MSt → List MSt} (h : ¬ QuotedNext z) : quotedRx.pick k ⟨bef, z, caps⟩ = [] := by
  apply Rx.pick_nil
  intro t rest caps he hl
  obtain ⟨g, q, a, b, q', rfl, hg, hq, ha, hb, hq'⟩ := quoted_lang.1 hl
  exact absurd ⟨g, q, a, §"\\n" ++ b ++ q' :: rest, by rw [show z = _ from he]; simp, hg, hq, ha, b, q' :: rest, rfl, hb, q', rest, rfl, hq'⟩ h

theorem quotedLines_sub (s out : Str) : Rewritten QuotedLines s out ↔ out = Regex.preProcessQuotedMultiline.sub
    (fun m => m.grpS 1 ++ m.grpS 2 ++ §": |" ++ m.grpS 1 ++ §"  " ++ m.grpS 3 ++ m.grpS 1 ++ §"  " ++ m.grpS 4) s := by
  apply Rx.rewritten_iff (by decide)
  · rintro bef old rest new ⟨w, key, g, q, a, b, q', rfl, hw, hk, hg, hq, hdk, hda, hdb, rfl⟩
    have hfirst : Regex.preProcessQuotedMultiline.first
        ⟨bef, (w ++ key ++ §":" ++ g ++ [q] ++ a ++ §"\\n" ++ b ++ [q']) ++ rest, []⟩ =
        some ⟨(w ++ key ++ §":" ++ g ++ [q] ++ a ++ §"\\n" ++ b ++ [q']).reverse ++ bef, rest,
          [(4, ((w ++ key ++ §":" ++ g ++ [q] ++ a ++ §"\\n").reverse ++ bef).length, b),
           (3, ((w ++ key ++ §":" ++ g ++ [q]).reverse ++ bef).length, a), (2, (w.reverse ++ bef).length, key), (1, bef.length, w)]⟩ := by
      apply Rx.first_pick
      show (Rx.pick (Rx.seq (Rx.grp 1 _) (Rx.seq (Rx.grp 2 _) quotedRx)) _ _).head? = _
      rw [Rx.pick_seq, Rx.pick_grp]
      simp only [Rx.pick_seq', List.append_assoc]
      refine Rx.pick_star_all hw (head_append hk (by decide)) ?_
      rw [grp_text (g := w) (by simp), Rx.pick_grp]
      have he : key ++ (§":" ++ (g ++ ([q] ++ (a ++ (§"\\n" ++ (b ++ ([q'] ++ rest))))))) =
        key ++ (§":" ++ g ++ [q] ++ a ++ §"\\n" ++ b ++ [q'] ++ rest) := by simp
      rw [he]
      refine Rx.pick_dots hdk ?_ (fun _ _ _ h => quoted_nil h)
      rw [grp_text (g := key) (by simp)]
      unfold quotedRx
      simp only [Rx.pick_seq', Rx.chr, Rx.oneOf, List.append_assoc, List.cons_append, List.nil_append]
      rw [Rx.pick_cls (by decide)]
      refine Rx.pick_star_all hg (head_not_space ?_) ?_
      · rcases hq with rfl | rfl <;> decide
      rw [Rx.pick_cls (quote_iff.2 hq), Rx.pick_grp]
      have he : a ++ ('\\' :: 'n' :: (b ++ (q' :: rest))) = a ++ (§"\\n" ++ b ++ [q'] ++ rest) := by simp
      rw [he]
      refine Rx.pick_dots hda ?_ (fun _ _ _ h => escape_nil h)
      rw [grp_text (g := a) (by simp)]
      unfold escapeRx lastQuoteRx
      simp only [Rx.pick_seq', Rx.oneOf, List.append_assoc]
      rw [Rx.pick_lit, Rx.pick_grp]
      refine Rx.pick_dots hdb ?_ (fun _ _ _ h => quote_nil h)
      rw [grp_text (g := b) (by simp)]
      have hq' : isQuote q' := by
        obtain ⟨_, _, e, h⟩ := hdb.2.1
        injection e with e
        exact e ▸ h
      simp only [List.cons_append, List.nil_append]
      rw [Rx.pick_cls (quote_iff.2 hq')]
      simp
    refine ⟨_, matchAt_of_first hfirst, ?_, rfl, ?_⟩
    · simp
    · simp [RMatch.grpS, RMatch.group]
  · rintro bef t post ⟨w, _, rfl, h1, k0, _, rfl, h2, h3⟩
    obtain ⟨g, q, a, b, q', rfl, hg, hq, ha, hb, hq'⟩ := quoted_lang.1 h3
    have h1 := lang_ws.1 h1
    have h2 := lang_dots.1 h2
    obtain ⟨w', k1, rfl, hw', hk1⟩ := split_while isSpace k0
    obtain ⟨key, m, e1, ⟨k', e2⟩, hdk⟩ := upToLast_exists (P := QuotedNext)
      (m := §":" ++ g ++ [q] ++ a ++ (§"\\n" ++ b ++ (q' :: post))) (noBreak_append.1 h2).2
      ⟨g, q, a, _, rfl, hg, hq, ha, b, _, rfl, hb, q', post, rfl, hq'⟩
    obtain ⟨g2, q2, a0, r2, rfl, hg2, hq2, ha0, hr2⟩ := hdk.2.1
    obtain ⟨a2, m2, e3, -, hda⟩ := upToLast_exists ha0 hr2
    obtain ⟨b0, r3, rfl, hb0, hr3⟩ := hda.2.1
    obtain ⟨b2, m3, e4, -, hdb⟩ := upToLast_exists hb0 hr3
    obtain ⟨q3, rest, rfl, hq3⟩ := hdb.2.1
    have e5 : §"\\n" ++ b0 ++ r3 = §"\\n" ++ b2 ++ [q3] ++ rest := by
      have := congrArg (fun z => §"\\n" ++ z) e4
      simpa using this
    rw [e5] at e3 hda
    have e6 : §":" ++ g2 ++ [q2] ++ a0 ++ r2 = §":" ++ g2 ++ [q2] ++ a2 ++ §"\\n" ++ b2 ++ [q3] ++ rest := by
      have := congrArg (fun z => §":" ++ g2 ++ [q2] ++ z) e3
      simpa using this
    rw [e6] at e1 hdk
    refine ⟨(w ++ w') ++ key ++ §":" ++ g2 ++ [q2] ++ a2 ++ §"\\n" ++ b2 ++ [q3], rest, _, ?_, w ++ w', key, g2, q2, a2, b2, q3, rfl,
      ?_, ?_, hg2, hq2, hdk, hda, hdb, rfl⟩
    · have := congrArg (fun z => w ++ w' ++ z) e1
      simpa using this
    · intro c hc
      rcases List.mem_append.1 hc with hc | hc
      · exact h1 c hc
      · exact hw' c hc
    · intro c hc
      rw [← e2] at hc
      cases k1 with
      | nil =>
        have e1 := congrArg List.head? e1
        rw [← e2] at e1
        cases k' with
        | nil => cases hc
        | cons d k' => injection e1 with e1; injection hc with hc; rw [← hc, ← e1]; decide
      | cons d k1 => exact hk1 c hc

end Crm
