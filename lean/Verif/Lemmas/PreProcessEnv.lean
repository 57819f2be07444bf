import Verif.Lemmas.PreProcess
import Verif.Lemmas.TemplateExpr
import Verif.Props.References
import Verif.Props.Comments

/-! # `environ`, and the type of a hash, before a conversion -/

namespace Crm
open Spec

/-! ## What is found -/

/-- `(.*)("|')\]`, without the group of the key. -/
def keyEndRx : Rx := .seq (.grp 3 (Rx.oneOf §"\"'")) (Rx.chr ']')

theorem quote_iff' {c : Char} : (§"\"'").contains c = true ↔ isQuote c := by
  unfold isQuote; simp [or_comm]

theorem keyEnd_lang {bef t : Str} : keyEndRx.Lang bef t ↔ ∃ q, t = [q, ']'] ∧ isQuote q := by
  constructor
  · rintro ⟨_, _, rfl, ⟨c, rfl, hc⟩, h⟩
    exact ⟨c, by rw [(Rx.lang_chr _ _ _).1 h]; rfl, quote_iff'.1 hc⟩
  · rintro ⟨c, rfl, hc⟩
    exact ⟨[c], [']'], rfl, ⟨c, rfl, quote_iff'.2 hc⟩, (Rx.lang_chr _ _ _).2 rfl⟩

theorem keyEnd_nil {bef z : Str} {caps} {k : MSt → List MSt} (h : ¬ KeyEnd z) : keyEndRx.pick k ⟨bef, z, caps⟩ = [] := by
  apply Rx.pick_nil
  intro t rest caps he hl
  obtain ⟨q, rfl, hq⟩ := keyEnd_lang.1 hl
  exact absurd ⟨q, rest, he, hq⟩ h

theorem environ_hit {bef old rest : Str} {x : Char × Str} (h : EnvironUse old rest x) :
    ∃ m, Regex.preProcessEnviron.matchAt bef (old ++ rest) = some m ∧ m.text = old ∧ m.post = rest ∧
      m.grpS 1 = [x.1] ∧ m.grpS 2 = x.2 := by
  obtain ⟨q, key⟩ := x
  obtain ⟨w, q', rfl, hw0, hw, hq, hk⟩ := h
  simp only at *
  obtain ⟨c, w, rfl⟩ := List.exists_cons_of_ne_nil hw0
  have hq' : isQuote q' := by
    obtain ⟨_, _, e, h⟩ := hk.2.1
    injection e with e
    exact e ▸ h
  have hfirst : Regex.preProcessEnviron.first
      ⟨bef, ((c :: w) ++ §"environ[" ++ [q] ++ key ++ [q'] ++ §"]") ++ rest, []⟩ =
      some ⟨((c :: w) ++ §"environ[" ++ [q] ++ key ++ [q'] ++ §"]").reverse ++ bef, rest,
        [(3, (((c :: w) ++ §"environ[" ++ [q] ++ key).reverse ++ bef).length, [q']),
         (2, (((c :: w) ++ §"environ[" ++ [q]).reverse ++ bef).length, key),
         (1, (((c :: w) ++ §"environ[").reverse ++ bef).length, [q])]⟩ := by
    apply Rx.first_pick
    show (Rx.pick (Rx.seq (Rx.seq Rx.ws (Rx.star Rx.ws)) (Rx.seq (Rx.lit §"environ[") (Rx.seq (Rx.grp 1 _)
      (Rx.seq (Rx.grp 2 _) keyEndRx)))) _ _).head? = _
    simp only [Rx.pick_seq', List.append_assoc, List.cons_append, Rx.ws, Rx.oneOf]
    rw [Rx.pick_cls (hw c (by simp))]
    refine Rx.pick_star_all (fun d hd => hw d (by simp [hd])) (head_not_space (by decide)) ?_
    have he : 'e' :: 'n' :: 'v' :: 'i' :: 'r' :: 'o' :: 'n' :: '[' :: ([] ++ (q :: ([] ++ (key ++ (q' :: ([] ++ (']' :: ([] ++ rest)))))))) =
      §"environ[" ++ (q :: (key ++ ([q'] ++ §"]" ++ rest))) := by simp
    rw [he, Rx.pick_lit, Rx.pick_grp, Rx.pick_cls (quote_iff'.2 hq), grp_text (g := [q]) (by simp), Rx.pick_grp]
    refine Rx.pick_dots hk ?_ (fun _ _ _ h => keyEnd_nil h)
    rw [grp_text (g := key) (by simp)]
    unfold keyEndRx
    simp only [Rx.pick_seq', List.cons_append, List.nil_append, Rx.oneOf, Rx.chr]
    rw [Rx.pick_grp, Rx.pick_cls (quote_iff'.2 hq'), grp_text (g := [q']) (by simp), Rx.pick_cls (by decide)]
    simp
  refine ⟨_, matchAt_of_first hfirst, ?_, rfl, ?_, ?_⟩
  · simp
  · simp [RMatch.grpS, RMatch.group]
  · simp [RMatch.grpS, RMatch.group]

theorem environ_some {bef t post : Str} (h : Regex.preProcessEnviron.Lang bef t) :
    ∃ old rest x, t ++ post = old ++ rest ∧ EnvironUse old rest x := by
  obtain ⟨_, _, rfl, ⟨_, w, rfl, ⟨c, rfl, h1⟩, h2⟩, _, _, rfl, h3, _, _, rfl, ⟨q, rfl, hq⟩, key, _, rfl, h4, h5⟩ := h
  obtain ⟨q', rfl, hq'⟩ := keyEnd_lang.1 h5
  rw [(Rx.lang_lit _ _ _).1 h3]
  obtain ⟨key', m, e1, -, hk⟩ := upToLast_exists (P := KeyEnd) (m := q' :: ']' :: post) (lang_dots.1 h4) ⟨q', post, rfl, hq'⟩
  obtain ⟨q2, rest, rfl, hq2⟩ := hk.2.1
  refine ⟨(c :: w) ++ §"environ[" ++ [q] ++ key' ++ [q2] ++ §"]", rest, (q, key'), ?_, c :: w, q2, rfl, by simp, ?_, quote_iff'.1 hq, hk⟩
  · have := congrArg (fun z => (c :: w) ++ §"environ[" ++ [q] ++ z) e1
    simpa using this
  · intro d hd
    rcases List.mem_cons.1 hd with rfl | hd
    · exact h1
    · exact lang_ws.1 h2 d hd

/-- A pair, as the groups of a match. -/
def asGroups (x : Char × Str) : Str × Str := ([x.1], x.2)

section
attribute [local irreducible] Rx.matchAt

theorem groups_skip (k : Nat) (bef : Str) (c : Char) (cs : Str) : environGroups (k + 1) bef (c :: cs) = environGroups k (c :: bef) cs := rfl

theorem groups_some {bef : Str} {c : Char} {cs : Str} {m : RMatch} (h : Regex.preProcessEnviron.matchAt bef (c :: cs) = some m) :
    environGroups 0 bef (c :: cs) = (m.grpS 1, m.grpS 2) :: environGroups (m.text.length - 1) (c :: bef) cs := by
  have : environGroups 0 bef (c :: cs) = match Regex.preProcessEnviron.matchAt bef (c :: cs) with
    | some m => (m.grpS 1, m.grpS 2) :: environGroups (m.text.length - 1) (c :: bef) cs
    | none => environGroups 0 (c :: bef) cs := rfl
  rw [this, h]

theorem groups_none {bef : Str} {c : Char} {cs : Str} (h : Regex.preProcessEnviron.matchAt bef (c :: cs) = none) :
    environGroups 0 bef (c :: cs) = environGroups 0 (c :: bef) cs := by
  have : environGroups 0 bef (c :: cs) = match Regex.preProcessEnviron.matchAt bef (c :: cs) with
    | some m => (m.grpS 1, m.grpS 2) :: environGroups (m.text.length - 1) (c :: bef) cs
    | none => environGroups 0 (c :: bef) cs := rfl
  rw [this, h]

end

theorem environGroups_skip : ∀ (t bef rest : Str), environGroups t.length bef (t ++ rest) = environGroups 0 (t.reverse ++ bef) rest
  | [], _, _ => by simp
  | c :: t, bef, rest => by
    rw [List.length_cons, List.cons_append, groups_skip, environGroups_skip t, List.reverse_cons, List.append_assoc]
    rfl

theorem environ_len {bef s : Str} {m : RMatch} (h : Regex.preProcessEnviron.matchAt bef s = some m) : m.text ≠ [] := by
  obtain ⟨_, _, hlen⟩ := Rx.matchAt_split h
  intro h0
  rw [h0] at hlen
  have h1 : 0 < Regex.preProcessEnviron.minLen := by decide
  simp only [List.length_nil] at hlen
  omega

/-- What is found is what the groups are. -/
theorem found_groups {s : Str} {xs : List (Char × Str)} (h : Found EnvironUse s xs) : ∀ bef, environGroups 0 bef s = xs.map asGroups := by
  induction h with
  | done => intro _; rfl
  | @hit old rest x xs hx _ ih =>
    intro bef
    obtain ⟨m, hm, h1, h2, h3, h4⟩ := environ_hit (bef := bef) hx
    have hne := environ_len hm
    rw [h1] at hne
    obtain ⟨c, t, rfl⟩ := List.exists_cons_of_ne_nil hne
    rw [List.cons_append] at hm ⊢
    rw [groups_some hm, h1, h3, h4, List.length_cons, Nat.add_sub_cancel, environGroups_skip, ih]
    rfl
  | @miss c rest xs hno _ ih =>
    intro bef
    cases hm : Regex.preProcessEnviron.matchAt bef (c :: rest) with
    | none => rw [groups_none hm]; exact ih _
    | some m =>
      exfalso
      have hl : (Regex.preProcessEnviron.matchAt bef (c :: rest)).isSome = true := by rw [hm]; rfl
      rw [Rx.matchAt_isSome] at hl
      obtain ⟨t, post, ht, hlang⟩ := hl
      obtain ⟨old, rest', x, he, hx⟩ := environ_some (post := post) hlang
      exact hno old rest' x (by rw [ht, he]) hx

theorem found_exists (s : Str) : ∃ xs, Found EnvironUse s xs := by
  suffices ∀ n (s : Str), s.length ≤ n → ∃ xs, Found EnvironUse s xs from this _ s (Nat.le_refl _)
  intro n
  induction n with
  | zero =>
    intro s h
    have : s = [] := by simpa using h
    subst this
    exact ⟨[], .done⟩
  | succ n ih =>
    intro s h
    cases s with
    | nil => exact ⟨[], .done⟩
    | cons c cs =>
      by_cases hx : ∃ old rest x, c :: cs = old ++ rest ∧ EnvironUse old rest x
      · obtain ⟨old, rest, x, he, hx⟩ := hx
        have hne : old ≠ [] := by
          obtain ⟨w, _, rfl, hw, _⟩ := hx
          intro h0
          exact hw (by simp at h0)
        have hl := congrArg List.length he
        rw [List.length_append] at hl
        have := List.length_pos_iff.2 hne
        obtain ⟨xs, hxs⟩ := ih rest (by simp at h hl; omega)
        rw [he]
        exact ⟨_, .hit hx hxs⟩
      · obtain ⟨xs, hxs⟩ := ih cs (by simpa using h)
        exact ⟨xs, .miss (fun old rest x he h => hx ⟨old, rest, x, he, h⟩) hxs⟩

/-! ## One replacement -/

theorem replaceOne_first {old : Str} (new : Str) (ho : old ≠ []) (s : Str) : FirstReplaced old new s (replaceOne old new s) := by
  by_cases h : old <:+: s
  · left
    induction s with
    | nil => exact absurd (List.infix_nil.1 h) ho
    | cons c cs ih =>
      unfold replaceOne
      by_cases hp : old <+: c :: cs
      · rw [if_pos (List.isPrefixOf_iff_prefix.2 hp)]
        obtain ⟨b, hb⟩ := hp
        refine ⟨[], b, by rw [← hb]; simp, fun a' b' _ => by simp, ?_⟩
        rw [← hb]
        simp
      · rw [if_neg (by rwa [List.isPrefixOf_iff_prefix])]
        have hi : old <:+: cs := by
          rcases List.infix_cons_iff.1 h with h | h
          · exact absurd h hp
          · exact h
        obtain ⟨a, b, e1, e2, e3⟩ := ih hi
        refine ⟨c :: a, b, by rw [e1]; simp, fun a' b' he => ?_, by rw [e3]; simp⟩
        cases a' with
        | nil => exact absurd ⟨b', by simpa using he.symm⟩ hp
        | cons d a' =>
          simp only [List.cons_append, List.cons.injEq] at he
          have := e2 a' b' he.2
          simp
          exact this
  · exact Or.inr ⟨h, replaceOne_absent old new s h⟩

theorem firstReplaced_unique {old new s s1 s2 : Str} (h1 : FirstReplaced old new s s1) (h2 : FirstReplaced old new s s2) : s1 = s2 := by
  rcases h1 with ⟨a, b, e1, m1, rfl⟩ | ⟨n1, rfl⟩ <;> rcases h2 with ⟨a', b', e2, m2, rfl⟩ | ⟨n2, rfl⟩
  · have hl : a.length = a'.length := Nat.le_antisymm (m1 a' b' e2) (m2 a b e1)
    rw [e1, List.append_assoc, List.append_assoc] at e2
    have h3 := List.append_inj e2 hl
    rw [h3.1, List.append_cancel_left h3.2]
  · exact absurd ⟨a, b, e1.symm⟩ n2
  · exact absurd ⟨a', b', e2.symm⟩ n1
  · rfl

theorem firstReplaced_iff {old new s s' : Str} (ho : old ≠ []) : FirstReplaced old new s s' ↔ s' = replaceOne old new s :=
  ⟨fun h => firstReplaced_unique h (replaceOne_first new ho s), fun h => h ▸ replaceOne_first new ho s⟩

theorem environReplaced_iff {found : List (Char × Str)} {s s' : Str} : EnvironReplaced found s s' ↔
    s' = (found.map asGroups).foldl
      (fun content g => replaceOne (environReplacement g.1 g.2).1 (environReplacement g.1 g.2).2 content) s := by
  induction found generalizing s with
  | nil =>
    constructor
    · rintro ⟨⟩; rfl
    · rintro rfl; exact .nil
  | cons x found ih =>
    obtain ⟨q, key⟩ := x
    simp only [List.map_cons, List.foldl_cons]
    constructor
    · intro h
      cases h with
      | cons h1 h2 =>
        rw [firstReplaced_iff (by simp)] at h1
        rw [ih.1 h2, h1]
        rfl
    · intro h
      exact .cons ((firstReplaced_iff (by simp)).2 rfl) (ih.2 h)

/-! ## Removals -/

theorem removed_one {w s s' : Str} (hw : w ≠ []) : Rewritten (Word w []) s s' ↔ s' = replaceAll w [] s := by
  constructor
  · intro h
    induction h with
    | done => rfl
    | @hit old rest new out hr _ ih =>
      obtain ⟨rfl, rfl⟩ := hr
      rw [replaceAll_here _ _ _ hw, ih]
    | @miss c rest out hno _ ih =>
      have := replaceAll_skip w [] [c] rest (by
        intro x y hxy hy hp
        have : y = [c] := by
          cases x with
          | nil => exact hxy.symm
          | cons d x =>
            have hl := congrArg List.length hxy
            simp only [List.length_cons, List.length_append, List.length_nil] at hl
            exact absurd (List.length_eq_zero_iff.1 (by omega)) hy
        subst this
        obtain ⟨b, hb⟩ := hp
        exact hno w b [] hb.symm ⟨rfl, rfl⟩)
      rw [List.cons_append, List.nil_append] at this
      rw [this, ih]
      rfl
  · rintro rfl
    suffices ∀ n (s : Str), s.length ≤ n → Rewritten (Word w []) s (replaceAll w [] s) from this _ s (Nat.le_refl _)
    intro n
    induction n with
    | zero =>
      intro s h
      have : s = [] := by simpa using h
      subst this
      exact .done
    | succ n ih =>
      intro s h
      cases s with
      | nil => exact .done
      | cons c cs =>
        by_cases hp : w <+: c :: cs
        · obtain ⟨b, hb⟩ := hp
          have hl := congrArg List.length hb
          have := List.length_pos_iff.2 hw
          rw [← hb, replaceAll_here _ _ _ hw]
          refine .hit ⟨rfl, rfl⟩ (ih b ?_)
          simp at h hl; omega
        · have hs : replaceAll w [] (c :: cs) = c :: replaceAll w [] cs := by
            unfold replaceAll
            rw [replaceGo, if_neg (by rwa [List.isPrefixOf_iff_prefix])]
          rw [hs]
          refine .miss (fun old rest' new he hr => hp ⟨rest', by rw [← hr.1]; exact he.symm⟩) (ih cs (by simpa using h))

theorem removed_iff {ws : List Str} (hw : ∀ w ∈ ws, w ≠ []) {s s' : Str} : AllRemoved ws s s' ↔
    s' = ws.foldl (fun content variant => replaceAll variant [] content) s := by
  induction ws generalizing s with
  | nil =>
    constructor
    · rintro ⟨⟩; rfl
    · rintro rfl; exact .nil
  | cons w ws ih =>
    have ih := fun {s} => ih (fun w hm => hw w (by simp [hm])) (s := s)
    have h0 : w ≠ [] := hw w (by simp)
    constructor
    · intro h
      cases h with
      | cons h1 h2 =>
        rw [removed_one h0] at h1
        rw [ih.1 h2, h1]
        rfl
    · intro h
      exact .cons ((removed_one h0).2 rfl) (ih.2 h)

/-! ## The type of a hash -/

theorem hashKey_iff {old rest new : Str} : HashKey old rest new ↔ old ∈ hashKeys ∧ new = §"sha256:" := by
  constructor
  · rintro ⟨q, name, q', h1, h2, h3, rfl, rfl⟩
    refine ⟨?_, rfl⟩
    rcases h1 with rfl | rfl <;> rcases h2 with rfl | rfl | rfl <;> rcases h3 with rfl | rfl <;> decide
  · rintro ⟨h, rfl⟩
    simp only [hashKeys, List.mem_flatMap, List.mem_cons, List.not_mem_nil, or_false] at h
    obtain ⟨name, hn, rfl | rfl | rfl | rfl⟩ := h
    · exact ⟨[], name, [], Or.inl rfl, hn, Or.inl rfl, by simp, rfl⟩
    · exact ⟨§"'", name, [], Or.inr rfl, hn, Or.inl rfl, by simp, rfl⟩
    · exact ⟨[], name, §"'", Or.inl rfl, hn, Or.inr rfl, by simp, rfl⟩
    · exact ⟨§"'", name, §"'", Or.inr rfl, hn, Or.inr rfl, by simp, rfl⟩

theorem hashKey_sub (s out : Str) : Rewritten HashKey s out ↔ out = Regex.preProcessHashTypeKey.sub (fun _ => §"sha256:") s := by
  apply Rx.rewritten_iff (by decide)
  · intro bef old rest new h
    obtain ⟨h1, rfl⟩ := hashKey_iff.1 h
    obtain ⟨m, hm, ht⟩ := key_match (rest := rest) h1 bef
    obtain ⟨_, hs, _⟩ := Rx.matchAt_split hm
    rw [ht] at hs
    exact ⟨m, hm, ht, (List.append_cancel_left hs).symm, rfl⟩
  · intro bef t post h
    exact ⟨t, post, _, rfl, hashKey_iff.2 ⟨(hashKey_lang _ _).1 h, rfl⟩⟩

end Crm
