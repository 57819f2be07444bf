import Verif.Lemmas.DocText

/-! # The definitions at the top of a recipe -/

namespace Crm
open Spec Doc

theorem Rx.matchAt_lang {r : Rx} {bef aft : Str} {m : RMatch} (h : r.matchAt bef aft = some m) :
    r.Lang bef m.text ∧ aft = m.text ++ m.post := by
  unfold Rx.matchAt at h
  split at h
  · cases h
  · rename_i s l hr
    obtain ⟨t, ht, hl⟩ := r.run_sound ⟨bef, aft, []⟩ s (by rw [hr]; simp)
    simp only [Option.some.injEq] at h
    subst h
    have h1 : aft = t ++ s.aft := ht.1
    have h2 : aft.take (aft.length - s.aft.length) = t := by rw [h1]; simp
    exact ⟨by rw [h2]; exact hl, by rw [h2]; exact h1⟩

theorem cut_unique {c : Char} {a b x y : Str} (h : a ++ c :: x = b ++ c :: y) (ha : c ∉ a) (hb : c ∉ b) : a = b ∧ x = y := by
  induction a generalizing b with
  | nil =>
    cases b with
    | nil => simpa using h
    | cons d b =>
      simp only [List.nil_append, List.cons_append, List.cons.injEq] at h
      exact absurd (by rw [← h.1]; simp) hb
  | cons d a ih =>
    cases b with
    | nil =>
      simp only [List.nil_append, List.cons_append, List.cons.injEq] at h
      exact absurd (by rw [← h.1]; simp) ha
    | cons e b =>
      simp only [List.cons_append, List.cons.injEq] at h
      obtain ⟨rfl, h⟩ := h
      obtain ⟨rfl, rfl⟩ := ih h (fun hm => ha (by simp [hm])) (fun hm => hb (by simp [hm]))
      exact ⟨rfl, rfl⟩

/-! ## Finding things in a definition -/

theorem inStr2_append {c d : Char} {a b : Str} (ha : inStr [c, d] a = false) (hb : inStr [c, d] b = false)
    (h : ¬ (a.getLast? = some c ∧ b.head? = some d)) : inStr [c, d] (a ++ b) = false := by
  induction a with
  | nil => exact hb
  | cons x a ih =>
    rw [List.cons_append]
    cases a with
    | nil =>
      rw [List.nil_append]
      rw [inStr_false_iff] at hb ⊢
      intro s hs hp
      rcases List.suffix_cons_iff.1 hs with rfl | hs
      · obtain ⟨q, hq⟩ := hp
        simp only [List.cons_append, List.nil_append, List.cons.injEq] at hq
        apply h
        rw [← hq.2, ← hq.1]
        simp
      · exact hb s hs hp
    | cons y a =>
      have hi := ih (by
        rw [inStr_false_iff] at ha ⊢
        exact fun s hs => ha s (hs.trans (List.suffix_cons _ _))) (by simpa using h)
      rw [inStr_false_iff] at ha hi ⊢
      intro s hs hp
      rcases List.suffix_cons_iff.1 hs with rfl | hs
      · obtain ⟨q, hq⟩ := hp
        simp only [List.cons_append, List.nil_append, List.cons.injEq] at hq
        exact ha _ (List.suffix_refl _) ⟨a, by simp [← hq.1, ← hq.2.1]⟩
      · exact hi s hs hp

theorem inStr2_not_mem {c d : Char} {a : Str} (h : d ∉ a) : inStr [c, d] a = false := by
  rw [inStr_false_iff]
  rintro s ⟨p, hp⟩ ⟨q, hq⟩
  exact h (by rw [← hp, ← hq]; simp)

theorem findSub_first (p a b : Str) (h : ∀ x y, a = x ++ y → y ≠ [] → ¬ p <+: y ++ p ++ b) (hp : p ≠ []) :
    findSub p (a ++ p ++ b) = some a.length := by
  induction a with
  | nil =>
    cases p with
    | nil => exact absurd rfl hp
    | cons c p =>
      have : (c :: p).isPrefixOf (c :: (p ++ b)) = true := List.isPrefixOf_iff_prefix.2 ⟨b, rfl⟩
      rw [List.nil_append, List.cons_append, findSub, if_pos this]
      rfl
  | cons c a ih =>
    have hno : ¬ p.isPrefixOf (c :: (a ++ p ++ b)) = true := by
      rw [List.isPrefixOf_iff_prefix]
      have := h [] (c :: a) rfl (by simp)
      simpa using this
    have hc : c :: a ++ p ++ b = c :: (a ++ p ++ b) := by simp
    rw [hc, findSub, if_neg hno, ih (fun x y hxy hy => h (c :: x) y (by simp [hxy]) hy)]
    rfl

theorem findSub_char (c : Char) (a b : Str) (h : c ∉ a) : findSub [c] (a ++ c :: b) = some a.length := by
  have := findSub_first [c] a b (fun x y hxy hy hp => by
    obtain ⟨q, hq⟩ := hp
    cases y with
    | nil => exact hy rfl
    | cons d y =>
      simp only [List.cons_append, List.nil_append, List.cons.injEq] at hq
      exact h (by rw [hxy, ← hq.1]; simp)) (by simp)
  simpa using this

theorem findSub_close {a : Str} (b : Str) (h : inStr §"%}" a = false) : findSub §"%}" (a ++ §"%}" ++ b) = some a.length := by
  apply findSub_first _ _ _ _ (by simp)
  intro x y hxy hy hp
  rw [inStr_false_iff] at h
  obtain ⟨q, hq⟩ := hp
  cases y with
  | nil => exact hy rfl
  | cons d y =>
    cases y with
    | nil =>
      simp only [List.cons_append, List.nil_append, List.cons.injEq] at hq
      exact absurd hq.2.1 (by decide)
    | cons e y =>
      simp only [List.cons_append, List.nil_append, List.cons.injEq] at hq
      obtain ⟨rfl, rfl, _⟩ := hq
      exact h ('%' :: '}' :: y) ⟨x, hxy.symm⟩ ⟨y, rfl⟩

theorem isSpace_alnum {c : Char} (h : c.isAlphanum = true ∨ c = '_') : isSpace c = false := by
  rcases h with h | rfl
  · simp only [Char.isAlphanum, Char.isAlpha, Char.isUpper, Char.isLower, Char.isDigit, Bool.or_eq_true, Bool.and_eq_true,
      decide_eq_true_eq, UInt32.le_iff_toNat_le, ge_iff_le] at h
    have e : c.val.toNat = c.toNat := rfl
    simp only [e] at h
    have h' : (48 ≤ c.toNat ∧ c.toNat ≤ 57) ∨ (65 ≤ c.toNat ∧ c.toNat ≤ 90) ∨ (97 ≤ c.toNat ∧ c.toNat ≤ 122) := by
      rcases h with (h | h) | h
      · exact Or.inr (Or.inl ⟨h.1, h.2⟩)
      · exact Or.inr (Or.inr ⟨h.1, h.2⟩)
      · exact Or.inl ⟨h.1, h.2⟩
    simp only [isSpace, Bool.or_eq_false_iff, Bool.and_eq_false_iff, decide_eq_false_iff_not, beq_eq_false_iff_ne, ne_eq]
    clear h
    omega
  · rfl

theorem strip_name {k : Str} (h : ∀ c ∈ k, c.isAlphanum = true ∨ c = '_') : strip (§" " ++ k ++ §" ") = k := by
  apply strip_around _ _ _ (by decide) (by decide)
  exact ⟨fun c hc => isSpace_alnum (h c (List.mem_of_mem_head? hc)), fun c hc => isSpace_alnum (h c (List.mem_of_mem_getLast? hc))⟩

theorem name_char {k : Str} (h : ∀ c ∈ k, c.isAlphanum = true ∨ c = '_') (c : Char) (hc : (c.isAlphanum || c == '_') = false) : c ∉ k := by
  intro hm
  rcases h c hm with h' | rfl
  · rw [h'] at hc; cases hc
  · revert hc; decide

/-! ## The expression that removes statements -/

theorem lang_jinjaLine {bef t : Str} (h : Regex.jinjaV0Line.Lang bef t) : ∃ u, t = u ++ §"\n" ∧ '\n' ∉ u := by
  obtain ⟨u, v, rfl, hu, hv⟩ := h
  have hv' : v = ['\n'] := (Rx.lang_chr '\n' (u.reverse ++ bef) v).1 hv
  subst hv'
  refine ⟨u, rfl, ?_⟩
  have key : ∀ (o e : Str) (bef : Str), '\n' ∉ o → '\n' ∉ e → (Rx.cat [Rx.lit o, .star Rx.dot, Rx.lit e]).Lang bef u → '\n' ∉ u := by
    rintro o e bef ho he ⟨a, r, rfl, ha, x, b, rfl, hx, hb⟩
    rw [Rx.lang_lit] at ha
    have hx' := (Rx.lang_star_cls (fun c => c != '\n') _ _).1 hx
    have hb' : b = e := (Rx.lang_lit e _ b).1 hb
    subst ha; subst hb'
    simp only [List.mem_append, not_or]
    refine ⟨ho, ?_, he⟩
    intro hm
    have := hx' _ hm
    simp at this
  rcases (hu : _ ∨ _) with hu | hu
  · exact key _ _ _ (by decide) (by decide) hu
  · exact key _ _ _ (by decide) (by decide) hu

/-- Text with a statement on a line of its own. -/
theorem jinjaLine_def {bef x rest : Str} (hx : '\n' ∉ x) :
    ∃ m, Regex.jinjaV0Line.matchAt bef (§"{%" ++ x ++ §"%}" ++ '\n' :: rest) = some m ∧ m.text = §"{%" ++ x ++ §"%}" ++ §"\n" := by
  have hsome : (Regex.jinjaV0Line.matchAt bef (§"{%" ++ x ++ §"%}" ++ '\n' :: rest)).isSome = true := by
    rw [Rx.matchAt_isSome]
    refine ⟨§"{%" ++ x ++ §"%}" ++ §"\n", rest, by simp, ?_⟩
    refine ⟨§"{%" ++ x ++ §"%}", §"\n", rfl, Or.inl ?_, (Rx.lang_chr _ _ _).2 rfl⟩
    refine ⟨§"{%", x ++ §"%}", by simp, (Rx.lang_lit _ _ _).2 rfl, x, §"%}", rfl, (Rx.lang_star_cls _ _ _).2 ?_, (Rx.lang_lit _ _ _).2 rfl⟩
    intro c hc
    simp only [bne_iff_ne, ne_eq]
    rintro rfl; exact hx hc
  obtain ⟨m, hm⟩ := Option.isSome_iff_exists.1 hsome
  refine ⟨m, hm, ?_⟩
  obtain ⟨hl, hs⟩ := Rx.matchAt_lang hm
  obtain ⟨u, hu, hn⟩ := lang_jinjaLine hl
  rw [hu] at hs ⊢
  have hs' : (§"{%" ++ x ++ §"%}") ++ '\n' :: rest = u ++ '\n' :: m.post := by rw [hs]; simp
  obtain ⟨h1, _⟩ := cut_unique hs' (by simp [hx]) hn
  rw [h1]

/-! ## The expression that finds definitions -/

theorem lang_setLine {bef t : Str} (h : Regex.jinjaV0SetLine.Lang bef t) :
    ∃ a x w, t = §"{%" ++ a ++ x ++ §"%}" ++ w ++ §"\n" ∧ '%' ∉ a ∧ '\n' ∉ x ∧ ∀ c ∈ w, isSpace c = true := by
  obtain ⟨t1, r1, rfl, h1, t2, r2, rfl, h2, t3, r3, rfl, h3, t4, r4, rfl, h4, t5, r5, rfl, h5, t6, r6, rfl, h6, t7, r7, rfl, h7,
    t8, r8, rfl, h8, t9, r9, rfl, h9, t10, t11, rfl, h10, h11⟩ := h
  rw [Rx.lang_lit] at h1 h3 h9
  rw [Rx.lang_chr] at h7
  have h11' : t11 = ['\n'] := (Rx.lang_chr '\n' _ t11).1 h11
  have h2' := (Rx.lang_star_cls isSpace _ _).1 h2
  have h4' := (Rx.lang_star_cls isSpace _ _).1 h4
  have h6' := (Rx.lang_star_cls isSpace _ _).1 h6
  have h10' := (Rx.lang_star_cls isSpace _ _).1 h10
  have h8' := (Rx.lang_star_cls (fun c => c != '\n') _ _).1 h8
  have h5' := (Rx.lang_star_cls _ _ _).1 h5
  subst h1 h3 h9 h7 h11'
  refine ⟨t2 ++ §"set" ++ t4 ++ t5 ++ t6 ++ §"=", t8, t10, by simp, ?_, ?_, h10'⟩
  · have sp : isSpace '%' = false := by decide
    simp only [List.mem_append, not_or]
    refine ⟨⟨⟨⟨⟨?_, by decide⟩, ?_⟩, ?_⟩, ?_⟩, by decide⟩
    · intro hm; rw [h2' _ hm] at sp; cases sp
    · intro hm; rw [h4' _ hm] at sp; cases sp
    · intro hm; have := h5' _ hm; revert this; decide
    · intro hm; rw [h6' _ hm] at sp; cases sp
  · intro hm; have := h8' _ hm; simp at this

/-- The characters between the braces of a definition. -/
def inner (k : Str) (v : PyVal) : Str := §" set " ++ k ++ §" = " ++ written v ++ §" "

theorem defLine_inner (k : Str) (v : PyVal) : defLine k v = §"{%" ++ inner k v ++ §"%}" := by simp [defLine, inner]

/-- What is asked of one definition. -/
structure DefOk (k : Str) (v : PyVal) : Prop where
  name : ∀ c ∈ k, c.isAlphanum = true ∨ c = '_'
  newline : '\n' ∉ written v
  close : inStr §"%}" (written v) = false
  trimmed : strip (written v) = written v

theorem inner_newline {k : Str} {v : PyVal} (h : DefOk k v) : '\n' ∉ inner k v := by
  have := name_char h.name '\n' (by decide)
  simp [inner, this, h.newline]

theorem inner_close {k : Str} {v : PyVal} (h : DefOk k v) : inStr §"%}" (inner k v) = false := by
  have hk := name_char h.name '}' (by decide)
  unfold inner
  have h1 : inStr §"%}" (§" set " ++ k ++ §" = ") = false := inStr2_not_mem (by simp [hk])
  have h2 : inStr §"%}" (§" set " ++ k ++ §" = " ++ written v) = false := inStr2_append h1 h.close (by
    rintro ⟨h, _⟩
    have : (§" set " ++ k ++ §" = ").getLast? = some ' ' := by rw [List.getLast?_append]; rfl
    rw [this] at h
    exact absurd h (by decide))
  exact inStr2_append h2 (by decide) (by simp)

theorem setLine_match {bef rest : Str} {k : Str} {v : PyVal} (h : DefOk k v) :
    ∃ m u, Regex.jinjaV0SetLine.matchAt bef (defLine k v ++ '\n' :: rest) = some m ∧ m.text = defLine k v ++ '\n' :: u ∧
      rest = u ++ m.post ∧ ∀ c ∈ u, isSpace c = true := by
  have hsome : (Regex.jinjaV0SetLine.matchAt bef (defLine k v ++ '\n' :: rest)).isSome = true := by
    rw [Rx.matchAt_isSome]
    refine ⟨defLine k v ++ §"\n", rest, by simp, ?_⟩
    refine ⟨§"{%", _, ?_, (Rx.lang_lit _ _ _).2 rfl, §" ", §"set" ++ (§" " ++ (k ++ (§" " ++ (§"=" ++ (§" " ++ written v ++ §" " ++ (§"%}" ++ ([] ++ §"\n"))))))), rfl,
      (Rx.lang_star_cls _ _ _).2 (by decide), §"set", _, rfl, (Rx.lang_lit _ _ _).2 rfl, §" ", _, rfl,
      (Rx.lang_star_cls _ _ _).2 (by decide), k, _, rfl, (Rx.lang_star_cls _ _ _).2 ?_, §" ", _, rfl,
      (Rx.lang_star_cls _ _ _).2 (by decide), §"=", _, rfl, (Rx.lang_chr _ _ _).2 rfl, §" " ++ written v ++ §" ", _, rfl,
      (Rx.lang_star_cls _ _ _).2 ?_, §"%}", _, rfl, (Rx.lang_lit _ _ _).2 rfl, [], _, rfl,
      (Rx.lang_star_cls _ _ _).2 (by simp), (Rx.lang_chr _ _ _).2 rfl⟩
    · simp [defLine]
    · intro c hc
      rcases h.name c hc with h' | rfl
      · simp [h']
      · decide
    · intro c hc
      simp only [bne_iff_ne, ne_eq]
      rintro rfl
      simp only [List.mem_append] at hc
      rcases hc with (hc | hc) | hc
      · revert hc; decide
      · exact h.newline hc
      · revert hc; decide
  obtain ⟨m, hm⟩ := Option.isSome_iff_exists.1 hsome
  obtain ⟨hl, hs⟩ := Rx.matchAt_lang hm
  obtain ⟨a, x, w, ht, ha, hx, hw⟩ := lang_setLine hl
  rw [ht, defLine_inner] at hs
  have hs1 : inner k v ++ (§"%}" ++ '\n' :: rest) = a ++ (x ++ §"%}" ++ (w ++ §"\n" ++ m.post)) := by
    have : §"{%" ++ (inner k v ++ (§"%}" ++ '\n' :: rest)) = §"{%" ++ (a ++ (x ++ §"%}" ++ (w ++ §"\n" ++ m.post))) := by
      have h1 : §"{%" ++ inner k v ++ §"%}" ++ '\n' :: rest = §"{%" ++ (inner k v ++ (§"%}" ++ '\n' :: rest)) := by simp
      rw [← h1, hs]; simp
    exact List.append_cancel_left this
  -- the part in front of the equals sign lies inside the definition
  obtain ⟨r, hr, hs2⟩ : ∃ r, inner k v = a ++ r ∧ r ++ (§"%}" ++ '\n' :: rest) = x ++ §"%}" ++ (w ++ §"\n" ++ m.post) := by
    rcases List.append_eq_append_iff.1 hs1 with ⟨z, hz1, hz2⟩ | ⟨z, hz1, hz2⟩
    · cases z with
      | nil => exact ⟨[], by simpa using hz1.symm, by simpa using hz2⟩
      | cons d z =>
        simp only [List.cons_append, List.cons.injEq] at hz2
        exact absurd (by rw [hz1, ← hz2.1]; simp) ha
    · exact ⟨z, hz1, hz2.symm⟩
  -- the closing braces are those of the definition
  have hrx : r = x ∧ '\n' :: rest = w ++ §"\n" ++ m.post := by
    have hnl : '\n' ∉ inner k v := inner_newline h
    have hnr : '\n' ∉ r ++ §"%}" := by
      have : '\n' ∉ r := fun hm => hnl (by rw [hr]; simp [hm])
      simp [this]
    have hnx : '\n' ∉ x ++ §"%}" := by simp [hx]
    have hclose : inStr §"%}" r = false := by
      have := inner_close h
      rw [inStr_false_iff] at this ⊢
      exact fun s hs => this s (hs.trans (by rw [hr]; exact List.suffix_append _ _))
    have hs3 : (r ++ §"%}") ++ '\n' :: rest = (x ++ §"%}") ++ (w ++ §"\n" ++ m.post) := by rw [← hs2]; simp
    rcases List.append_eq_append_iff.1 hs3 with ⟨z, hz1, hz2⟩ | ⟨z, hz1, hz2⟩
    · cases z with
      | nil =>
        rw [List.append_nil] at hz1
        exact ⟨(List.append_cancel_right hz1).symm, by simpa using hz2⟩
      | cons d z =>
        simp only [List.cons_append, List.cons.injEq] at hz2
        exact absurd (by rw [hz1, ← hz2.1]; simp) hnx
    · cases z with
      | nil =>
        rw [List.append_nil] at hz1
        exact ⟨List.append_cancel_right hz1, by simpa using hz2.symm⟩
      | cons d z =>
        exfalso
        have h1 := findSub_close (a := r) [] hclose
        rw [List.append_nil, hz1] at h1
        -- a closing brace in front of the last one
        have h2 : r.length ≤ x.length := by
          have hle : ∀ (p a b : Str) (i : Nat), findSub p (a ++ p ++ b) = some i → p ≠ [] → i ≤ a.length := by
            intro p a
            induction a with
            | nil =>
              intro b i hi hp
              cases p with
              | nil => exact absurd rfl hp
              | cons c p =>
                have : (c :: p).isPrefixOf (c :: (p ++ b)) = true := List.isPrefixOf_iff_prefix.2 ⟨b, rfl⟩
                rw [List.nil_append, List.cons_append, findSub, if_pos this] at hi
                simp at hi; omega
            | cons c a ih =>
              intro b i hi hp
              have hc : c :: a ++ p ++ b = c :: (a ++ p ++ b) := by simp
              rw [hc, findSub] at hi
              split at hi
              · simp at hi; omega
              · cases hf : findSub p (a ++ p ++ b) with
                | none => rw [hf] at hi; cases hi
                | some j =>
                  rw [hf] at hi
                  simp only [Option.map_some, Option.some.injEq] at hi
                  have := ih b j hf hp
                  simp; omega
          exact hle §"%}" x (d :: z) _ h1 (by simp)
        have h3 := congrArg List.length hz1
        simp at h3
        omega
  obtain ⟨rfl, hw2⟩ := hrx
  obtain ⟨u, hu1, hu2⟩ : ∃ u, w ++ §"\n" = '\n' :: u ∧ ∀ c ∈ u, isSpace c = true := by
    cases w with
    | nil => exact ⟨[], rfl, by simp⟩
    | cons d w =>
      simp only [List.cons_append, List.cons.injEq] at hw2
      refine ⟨w ++ §"\n", by rw [hw2.1]; rfl, ?_⟩
      intro c hc
      rcases List.mem_append.1 hc with hc | hc
      · exact hw c (by simp [hc])
      · rw [List.mem_singleton.1 hc]; decide
  refine ⟨m, u, hm, ?_, ?_, hu2⟩
  · rw [ht, defLine_inner, hr, ← hu1]; simp
  · rw [hu1] at hw2
    simpa using hw2

theorem setLine_start {bef aft : Str} {m : RMatch} (h : Regex.jinjaV0SetLine.matchAt bef aft = some m) : §"{%" <+: aft := by
  obtain ⟨hl, hs⟩ := Rx.matchAt_lang h
  obtain ⟨a, x, w, ht, _⟩ := lang_setLine hl
  rw [ht] at hs
  exact ⟨a ++ x ++ §"%}" ++ w ++ §"\n" ++ m.post, by rw [hs]; simp⟩

/-! ## The variables of a text -/

/-- Lines, each with its line end. -/
def defText (vars : List (Str × PyVal)) (tail : Str) : Str := vars.foldr (fun kv acc => defLine kv.1 kv.2 ++ '\n' :: acc) tail

/-- Lines that start with the definitions. -/
inductive DefLines : List Str → List (Str × PyVal) → Prop
  | nil : DefLines [] []
  | cons {t kv ts vars} : (∃ u, t = defLine kv.1 kv.2 ++ '\n' :: u) → DefLines ts vars → DefLines (t :: ts) (kv :: vars)

theorem findall_defs (vars : List (Str × PyVal)) (hv : ∀ kv ∈ vars, DefOk kv.1 kv.2) (tail : Str) (ht : inStr §"{%" tail = false) (bef : Str) :
    ∃ ts : List Str, Regex.jinjaV0SetLine.findallGo 0 bef (defText vars tail) = ts ∧
      DefLines ts vars := by
  induction vars generalizing bef with
  | nil =>
    refine ⟨[], ?_, .nil⟩
    apply findall_none
    intro b a ha
    cases hm : Regex.jinjaV0SetLine.matchAt b a with
    | none => rfl
    | some m => exact absurd (setLine_start hm) (inStr_false_iff.1 ht a ha)
  | cons kv vars ih =>
    obtain ⟨m, u, hm, htext, hrest, hu⟩ := setLine_match (bef := bef) (rest := defText vars tail) (hv kv (by simp))
    have hstart : defText (kv :: vars) tail = defLine kv.1 kv.2 ++ '\n' :: defText vars tail := rfl
    obtain ⟨c, cs, hc⟩ : ∃ c cs, defLine kv.1 kv.2 = c :: cs := ⟨'{', _, rfl⟩
    have hgo : Regex.jinjaV0SetLine.findallGo 0 bef (defText (kv :: vars) tail) =
        m.text :: Regex.jinjaV0SetLine.findallGo 0 ((cs ++ '\n' :: u).reverse ++ c :: bef) m.post := by
      rw [hstart, hc, List.cons_append, Rx.findallGo]
      rw [hc, List.cons_append] at hm htext
      rw [hm]
      simp only
      have hlen : m.text.length - 1 = (cs ++ '\n' :: u).length := by rw [htext]; simp
      have hsplit : cs ++ '\n' :: defText vars tail = (cs ++ '\n' :: u) ++ m.post := by rw [hrest]; simp
      rw [hsplit, hlen, Rx.findallGo_skip _ _ _ _ _ rfl]
    -- what is left starts with the next definition
    have hpost : ∃ ts : List Str, Regex.jinjaV0SetLine.findallGo 0 ((cs ++ '\n' :: u).reverse ++ c :: bef) m.post = ts ∧
        DefLines ts vars := by
      cases vars with
      | nil =>
        refine ⟨[], ?_, .nil⟩
        apply findall_none
        intro b a ha
        cases hm : Regex.jinjaV0SetLine.matchAt b a with
        | none => rfl
        | some m' =>
          refine absurd (setLine_start hm) (inStr_false_iff.1 ht a (ha.trans ?_))
          have : tail = u ++ m.post := hrest
          rw [this]; exact List.suffix_append _ _
      | cons kv' vars =>
        have : u = [] := by
          cases u with
          | nil => rfl
          | cons d u =>
            have h1 : d = '{' := by
              have := hrest
              simp only [defText, List.foldr_cons, defLine, List.cons_append, List.cons.injEq] at this
              exact this.1.symm
            have := hu d (by simp)
            rw [h1] at this
            exact absurd this (by decide)
        subst this
        rw [List.nil_append] at hrest
        rw [← hrest]
        exact ih (fun kv hkv => hv kv (by simp [hkv])) _
    obtain ⟨ts, h1, h2⟩ := hpost
    exact ⟨m.text :: ts, by rw [hgo, h1], .cons ⟨u, htext⟩ h2⟩

/-- Name and value text of a definition. -/
theorem def_parts {k : Str} {v : PyVal} (h : DefOk k v) (u : Str) :
    let line := defLine k v ++ '\n' :: u
    let eq := (findSub §"=" line).getD 0
    strip (sliceS ((findSub §"set" line).getD 0 + 3) eq line) = k ∧
      strip (sliceS (eq + 1) ((findSub §"%}" line).getD 0) line) = written v := by
  intro line eq
  have hk := name_char h.name '=' (by decide)
  have hline : line = (§"{% set " ++ k ++ §" ") ++ '=' :: (§" " ++ written v ++ §" %}" ++ '\n' :: u) := by
    simp [line, defLine]
  have heq : findSub §"=" line = some (§"{% set " ++ k ++ §" ").length := by
    rw [hline]
    exact findSub_char '=' _ _ (by simp [hk])
  have hset : findSub §"set" line = some 3 := by
    simp [hline, findSub]
  have hclose : findSub §"%}" line = some (§"{%" ++ inner k v).length := by
    have h1 : inStr §"%}" (§"{%" ++ inner k v) = false := inStr2_append (by decide) (inner_close h) (by simp [inner])
    have h2 := findSub_close ('\n' :: u) h1
    have h3 : line = §"{%" ++ inner k v ++ §"%}" ++ '\n' :: u := by simp [line, defLine_inner]
    rw [h3]; exact h2
  have he : eq = (§"{% set " ++ k ++ §" ").length := by simp only [eq, heq, Option.getD_some]
  rw [he, hset, hclose]
  simp only [Option.getD_some]
  constructor
  · have : sliceS (3 + 3) (§"{% set " ++ k ++ §" ").length line = §" " ++ k ++ §" " := by
      unfold sliceS
      rw [hline, List.take_left']
      · simp
      · rfl
    rw [this]
    exact strip_name h.name
  · have : sliceS ((§"{% set " ++ k ++ §" ").length + 1) (§"{%" ++ inner k v).length line = §" " ++ written v ++ §" " := by
      unfold sliceS
      have h3 : line = §"{%" ++ inner k v ++ (§"%}" ++ '\n' :: u) := by simp [line, defLine_inner]
      rw [h3, List.take_left' rfl]
      have h4 : §"{%" ++ inner k v = (§"{% set " ++ k ++ §" " ++ §"=") ++ (§" " ++ written v ++ §" ") := by simp [inner]
      rw [h4, List.drop_left']
      simp
    rw [this]
    exact strip_around _ _ _ (by decide) (by decide) (h.trimmed ▸ strip_is_clean _)

theorem insertD_new {α : Type} (k : Str) (v : α) (d : List (Str × α)) (h : k ∉ d.map (·.1)) : insertD k v d = d ++ [(k, v)] := by
  induction d with
  | nil => rfl
  | cons kv d ih =>
    obtain ⟨k', v'⟩ := kv
    simp only [List.map_cons, List.mem_cons, not_or] at h
    simp only [insertD, if_neg (Ne.symm h.1), List.cons_append, ih h.2]

theorem Spec.Doc.Writable.defOk {E : Env} {vars : List (Str × PyVal)} (h : Writable E vars) : ∀ kv ∈ vars, DefOk kv.1 kv.2 :=
  fun kv hkv => ⟨h.name kv hkv, (h.oneLine kv hkv).1, (h.oneLine kv hkv).2, h.trimmed kv hkv⟩

/-- The variables read from a text with definitions at its top. -/
theorem initVars_defs (E : Env) (vars : List (Str × PyVal)) (h : Writable E vars) (tail : Str) (ht : inStr §"{%" tail = false) :
    initVarsV0 E (defText vars tail) = vars := by
  obtain ⟨ts, hts, hall⟩ := findall_defs vars h.defOk tail ht []
  unfold initVarsV0 Rx.findall
  rw [hts]
  have key : ∀ (ts : List Str) (vs : List (Str × PyVal)),
      DefLines ts vs →
      (∀ kv ∈ vs, kv ∈ vars) → ∀ tbl : List (Str × PyVal), ((tbl ++ vs).map (·.1)).Nodup →
      ts.foldl (init := tbl) (fun tbl line =>
        let eq := (findSub §"=" line).getD 0
        let key := strip (sliceS ((findSub §"set" line).getD 0 + 3) eq line)
        let value := strip (sliceS (eq + 1) ((findSub §"%}" line).getD 0) line)
        insertD key ((E.literalEval value).getD (.str value)) tbl) = tbl ++ vs := by
    intro ts vs hall
    induction hall with
    | nil => intro _ tbl _; simp
    | @cons t kv ts vs ht hts ih =>
      intro hmem tbl hnd
      obtain ⟨u, rfl⟩ := ht
      have hkv := hmem kv (by simp)
      have hp := def_parts (h.defOk kv hkv) u
      simp only at hp
      simp only [List.foldl_cons, hp.1, hp.2]
      have hval : (E.literalEval (written kv.2)).getD (.str (written kv.2)) = kv.2 := by
        rcases h.reads kv hkv with h' | ⟨h', h''⟩
        · rw [h']; rfl
        · rw [h']; exact h''.symm
      rw [hval, insertD_new]
      · have := ih (fun kv hkv => hmem kv (by simp [hkv])) (tbl ++ [(kv.1, kv.2)]) (by simpa using hnd)
        simpa using this
      · intro hm
        rw [List.map_append, List.nodup_append] at hnd
        exact hnd.2.2 _ hm _ (by simp) rfl
  simpa using key ts vars hall (fun _ h => h) [] (by simpa using h.distinct)

/-- Definitions are removed before the lines are read. -/
theorem sub_defs (vars : List (Str × PyVal)) (hv : ∀ kv ∈ vars, DefOk kv.1 kv.2) (tail : Str)
    (ht : inStr §"{%" tail = false ∧ inStr §"{#" tail = false) :
    Regex.jinjaV0Line.sub (fun _ => []) (defText vars tail) = tail := by
  unfold Rx.sub
  suffices ∀ bef, Regex.jinjaV0Line.subGo (fun _ => []) 0 bef (defText vars tail) = tail from this []
  induction vars with
  | nil =>
    intro bef
    apply sub_none
    intro b a ha
    cases hm : Regex.jinjaV0Line.matchAt b a with
    | none => rfl
    | some m =>
      rcases jinjaLine_matchAt hm with h' | h'
      · exact absurd h' (inStr_false_iff.1 ht.1 a ha)
      · exact absurd h' (inStr_false_iff.1 ht.2 a ha)
  | cons kv vars ih =>
    intro bef
    have hd := hv kv (by simp)
    obtain ⟨m, hm, htext⟩ := jinjaLine_def (bef := bef) (rest := defText vars tail) (inner_newline hd)
    rw [← defLine_inner] at hm htext
    have hstart : defText (kv :: vars) tail = defLine kv.1 kv.2 ++ '\n' :: defText vars tail := rfl
    obtain ⟨c, cs, hc⟩ : ∃ c cs, defLine kv.1 kv.2 = c :: cs := ⟨'{', _, rfl⟩
    rw [hstart, hc, List.cons_append, Rx.subGo]
    rw [hc, List.cons_append] at hm htext
    rw [hm]
    simp only [List.nil_append]
    have hlen : m.text.length - 1 = (cs ++ §"\n").length := by rw [htext]; simp
    have hsplit : cs ++ '\n' :: defText vars tail = (cs ++ §"\n") ++ defText vars tail := by simp
    rw [hsplit, hlen, Rx.subGo_skip _ _ _ _ _ _ rfl]
    exact ih (fun kv hkv => hv kv (by simp [hkv])) _

/-- The text of a recipe, definitions first. -/
theorem recipeText_defs (vars : List (Str × PyVal)) (ds : List Doc) :
    recipeText vars ds = defText vars (joinStr §"\n" ((if vars = [] then [] else [[]]) ++ documentLines ds)) := by
  unfold recipeText
  have key : ∀ (vs : List (Str × PyVal)) (ls : List Str), ls ≠ [] →
      joinStr §"\n" (vs.map (fun kv => defLine kv.1 kv.2) ++ ls) = defText vs (joinStr §"\n" ls) := by
    intro vs ls hls
    induction vs with
    | nil => rfl
    | cons kv vs ih =>
      rw [List.map_cons, List.cons_append, joinStr_cons _ _ _ (by simp [hls]), ih]
      simp [defText]
  by_cases h : vars = []
  · subst h; rfl
  · rw [List.append_assoc, key _ _ (by simp [h])]

theorem renderVars_defs (vars : List (Str × PyVal)) :
    Recipe.renderVars vars = vars.map (fun kv => defLine kv.1 kv.2) ++ (if vars = [] then [] else [[]]) := by
  have h1 : vars.map (fun kv => defLine kv.1 kv.2) = vars.map (fun kv => §"{% set " ++ kv.1 ++ §" = " ++
      (match kv.2 with | .str s => §"\"" ++ s ++ §"\"" | v => pyStr v) ++ §" %}") := by
    apply List.map_congr_left
    rintro ⟨k, v⟩ _
    cases v <;> rfl
  rw [h1]
  cases vars <;> rfl

end Crm
