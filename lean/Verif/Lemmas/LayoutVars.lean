import Verif.Lemmas.LayoutParse
import Verif.Lemmas.DocVars
import Verif.Lemmas.TemplateText

/-! # Definitions and remarks between the lines of a file -/

namespace Crm
open Spec Doc

/-! ## One definition -/

theorem Spec.Doc.FreeDef.setLine {k t line : Str} (h : FreeDef k t line) (bef : Str) : Regex.jinjaV0SetLine.Lang bef (line ++ §"\n") := by
  obtain ⟨w1, w2, w3, w4, w5, h1, h2, h3, h4, h5, hl⟩ := h.parts
  have hnl := h.oneLine
  refine ⟨§"{%", _, ?_, (Rx.lang_lit _ _ _).2 rfl, w1, §"set" ++ (w2 ++ (k ++ (w3 ++ (§"=" ++ (w4 ++ t ++ w5 ++ (§"%}" ++ ([] ++ §"\n"))))))), rfl,
    (Rx.lang_star_cls _ _ _).2 h1, §"set", _, rfl, (Rx.lang_lit _ _ _).2 rfl, w2, _, rfl,
    (Rx.lang_star_cls _ _ _).2 h2, k, _, rfl, (Rx.lang_star_cls _ _ _).2 ?_, w3, _, rfl,
    (Rx.lang_star_cls _ _ _).2 h3, §"=", _, rfl, (Rx.lang_chr _ _ _).2 rfl, w4 ++ t ++ w5, _, rfl,
    (Rx.lang_star_cls _ _ _).2 ?_, §"%}", _, rfl, (Rx.lang_lit _ _ _).2 rfl, [], _, rfl,
    (Rx.lang_star_cls _ _ _).2 (by simp), (Rx.lang_chr _ _ _).2 rfl⟩
  · simp [hl]
  · intro c hc
    rcases h.name c hc with h' | rfl
    · simp [h']
    · decide
  · intro c hc
    simp only [bne_iff_ne, ne_eq]
    rintro rfl
    apply hnl
    rw [hl]
    simp only [List.mem_append] at hc ⊢
    rcases hc with (hc | hc) | hc
    · exact Or.inl (Or.inl (Or.inl (Or.inr hc)))
    · exact Or.inl (Or.inl (Or.inr hc))
    · exact Or.inl (Or.inr hc)

theorem blank_not_mem {w : Str} (h : Doc.Blank w) {c : Char} (hc : isSpace c = false) : c ∉ w := by
  intro hm; rw [h c hm] at hc; cases hc

/-- The characters between the braces of a definition. -/
theorem Spec.Doc.FreeDef.braces {k t line : Str} (h : FreeDef k t line) :
    ∃ I, line = §"{%" ++ I ++ §"%}" ∧ '\n' ∉ I ∧ inStr §"%}" I = false ∧ I.head? ≠ some '}' := by
  obtain ⟨w1, w2, w3, w4, w5, h1, h2, h3, h4, h5, hl⟩ := h.parts
  refine ⟨w1 ++ §"set" ++ w2 ++ k ++ w3 ++ §"=" ++ (w4 ++ t ++ w5), by simp [hl], ?_, ?_, ?_⟩
  · intro hm; apply h.oneLine; rw [hl]
    simp only [List.mem_append] at hm ⊢
    rcases hm with hm | hm
    · rcases hm with ((((hm | hm) | hm) | hm) | hm) | hm <;> simp [hm]
    · rcases hm with (hm | hm) | hm <;> simp [hm]
  · have sp : isSpace '}' = false := by decide
    have hk := name_char h.name '}' (by decide)
    have hpre : '}' ∉ w1 ++ §"set" ++ w2 ++ k ++ w3 ++ §"=" := by
      simp [blank_not_mem h1 sp, blank_not_mem h2 sp, blank_not_mem h3 sp, hk]
    refine inStr2_append (inStr2_not_mem hpre) ?_ ?_
    · refine inStr2_append (inStr2_append (inStr2_not_mem (blank_not_mem h4 sp)) h.close ?_) (inStr2_not_mem (blank_not_mem h5 sp)) ?_
      · rintro ⟨ha, _⟩
        exact blank_not_mem h4 (c := '%') (by decide) (List.mem_of_mem_getLast? ha)
      · rintro ⟨_, hb⟩
        exact blank_not_mem h5 sp (List.mem_of_mem_head? hb)
    · rintro ⟨ha, _⟩
      rw [List.getLast?_append] at ha
      exact absurd ha (by simp)
  · cases w1 with
    | nil => simp
    | cons c w =>
      simp only [List.cons_append, List.head?_cons, ne_eq, Option.some.injEq]
      rintro rfl
      exact absurd (h1 '}' (by simp)) (by decide)

theorem setLine_match_free {bef rest I : Str} (hlang : Regex.jinjaV0SetLine.Lang bef (§"{%" ++ I ++ §"%}" ++ §"\n")) (hnl : '\n' ∉ I)
    (hcl : inStr §"%}" I = false) :
    ∃ m u, Regex.jinjaV0SetLine.matchAt bef (§"{%" ++ I ++ §"%}" ++ '\n' :: rest) = some m ∧ m.text = §"{%" ++ I ++ §"%}" ++ '\n' :: u ∧
      rest = u ++ m.post ∧ ∀ c ∈ u, isSpace c = true := by
  have hsome : (Regex.jinjaV0SetLine.matchAt bef (§"{%" ++ I ++ §"%}" ++ '\n' :: rest)).isSome = true := by
    rw [Rx.matchAt_isSome]
    exact ⟨§"{%" ++ I ++ §"%}" ++ §"\n", rest, by simp, hlang⟩
  obtain ⟨m, hm⟩ := Option.isSome_iff_exists.1 hsome
  obtain ⟨hl, hs⟩ := Rx.matchAt_lang hm
  obtain ⟨a, x, w, ht, ha, hx, hw⟩ := lang_setLine hl
  rw [ht] at hs
  have hs1 : I ++ (§"%}" ++ '\n' :: rest) = a ++ (x ++ §"%}" ++ (w ++ §"\n" ++ m.post)) := by
    have : §"{%" ++ (I ++ (§"%}" ++ '\n' :: rest)) = §"{%" ++ (a ++ (x ++ §"%}" ++ (w ++ §"\n" ++ m.post))) := by
      have h1 : §"{%" ++ I ++ §"%}" ++ '\n' :: rest = §"{%" ++ (I ++ (§"%}" ++ '\n' :: rest)) := by simp
      rw [← h1, hs]; simp
    exact List.append_cancel_left this
  obtain ⟨r, hr, hs2⟩ : ∃ r, I = a ++ r ∧ r ++ (§"%}" ++ '\n' :: rest) = x ++ §"%}" ++ (w ++ §"\n" ++ m.post) := by
    rcases List.append_eq_append_iff.1 hs1 with ⟨z, hz1, hz2⟩ | ⟨z, hz1, hz2⟩
    · cases z with
      | nil => exact ⟨[], by simpa using hz1.symm, by simpa using hz2⟩
      | cons d z =>
        simp only [List.cons_append, List.cons.injEq] at hz2
        exact absurd (by rw [hz1, ← hz2.1]; simp) ha
    · exact ⟨z, hz1, hz2.symm⟩
  have hrx : r = x ∧ '\n' :: rest = w ++ §"\n" ++ m.post := by
    have hnr : '\n' ∉ r ++ §"%}" := by
      have : '\n' ∉ r := fun hm => hnl (by rw [hr]; simp [hm])
      simp [this]
    have hnx : '\n' ∉ x ++ §"%}" := by simp [hx]
    have hclose : inStr §"%}" r = false := by
      rw [inStr_false_iff] at hcl ⊢
      exact fun s hs => hcl s (hs.trans (by rw [hr]; exact List.suffix_append _ _))
    have hs3 : (r ++ §"%}") ++ '\n' :: rest = (x ++ §"%}") ++ (w ++ §"\n" ++ m.post) := by rw [← hs2]; simp
    rcases List.append_eq_append_iff.1 hs3 with ⟨z, hz1, hz2⟩ | ⟨z, hz1, hz2⟩
    · cases z with
      | nil =>
        rw [List.append_nil] at hz1
        exact ⟨(List.append_cancel_right hz1).symm, by simpa using hz2⟩
      | cons d z =>
        simp only [List.cons_append, List.cons.injEq] at hz2
        exact absurd (by rw [hz1, ← hz2.1]; simp) hnx
    · cases z with
      | nil =>
        rw [List.append_nil] at hz1
        exact ⟨List.append_cancel_right hz1, by simpa using hz2.symm⟩
      | cons d z =>
        exfalso
        have h1 := findSub_close (a := r) [] hclose
        rw [List.append_nil, hz1] at h1
        have h2 : r.length ≤ x.length := by
          have hle : ∀ (p a b : Str) (i : Nat), findSub p (a ++ p ++ b) = some i → p ≠ [] → i ≤ a.length := by
            intro p a
            induction a with
            | nil =>
              intro b i hi hp
              cases p with
              | nil => exact absurd rfl hp
              | cons c p =>
                have : (c :: p).isPrefixOf (c :: (p ++ b)) = true := List.isPrefixOf_iff_prefix.2 ⟨b, rfl⟩
                rw [List.nil_append, List.cons_append, findSub, if_pos this] at hi
                simp at hi; omega
            | cons c a ih =>
              intro b i hi hp
              have hc : c :: a ++ p ++ b = c :: (a ++ p ++ b) := by simp
              rw [hc, findSub] at hi
              split at hi
              · simp at hi; omega
              · cases hf : findSub p (a ++ p ++ b) with
                | none => rw [hf] at hi; cases hi
                | some j =>
                  rw [hf] at hi
                  simp only [Option.map_some, Option.some.injEq] at hi
                  have := ih b j hf hp
                  simp; omega
          exact hle §"%}" x (d :: z) _ h1 (by simp)
        have h3 := congrArg List.length hz1
        simp at h3
        omega
  obtain ⟨rfl, hw2⟩ := hrx
  obtain ⟨u, hu1, hu2⟩ : ∃ u, w ++ §"\n" = '\n' :: u ∧ ∀ c ∈ u, isSpace c = true := by
    cases w with
    | nil => exact ⟨[], rfl, by simp⟩
    | cons d w =>
      simp only [List.cons_append, List.cons.injEq] at hw2
      refine ⟨w ++ §"\n", by rw [hw2.1]; rfl, ?_⟩
      intro c hc
      rcases List.mem_append.1 hc with hc | hc
      · exact hw c (by simp [hc])
      · rw [List.mem_singleton.1 hc]; decide
  refine ⟨m, u, hm, ?_, ?_, hu2⟩
  · rw [ht, hr, ← hu1]; simp
  · rw [hu1] at hw2
    simpa using hw2

/-- Name and value text of a definition. -/
theorem free_def_parts {k t ln : Str} (h : FreeDef k t ln) (u : Str) :
    let line := ln ++ '\n' :: u
    let eq := (findSub §"=" line).getD 0
    strip (sliceS ((findSub §"set" line).getD 0 + 3) eq line) = k ∧
      strip (sliceS (eq + 1) ((findSub §"%}" line).getD 0) line) = t := by
  intro line eq
  obtain ⟨w1, w2, w3, w4, w5, h1, h2, h3, h4, h5, hl⟩ := h.parts
  have hk := name_char h.name '=' (by decide)
  have sp : isSpace '=' = false := by decide
  have hline : line = (§"{%" ++ w1 ++ §"set" ++ w2 ++ k ++ w3) ++ '=' :: (w4 ++ t ++ w5 ++ §"%}" ++ '\n' :: u) := by
    simp [line, hl]
  have heq : findSub §"=" line = some (§"{%" ++ w1 ++ §"set" ++ w2 ++ k ++ w3).length := by
    rw [hline]
    exact findSub_char '=' _ _ (by simp [hk, blank_not_mem h1 sp, blank_not_mem h2 sp, blank_not_mem h3 sp])
  have hset : findSub §"set" line = some (§"{%" ++ w1).length := by
    have : line = (§"{%" ++ w1) ++ §"set" ++ (w2 ++ k ++ w3 ++ '=' :: (w4 ++ t ++ w5 ++ §"%}" ++ '\n' :: u)) := by simp [hline]
    rw [this]
    refine findSub_first _ _ _ ?_ (by simp)
    rintro x y hxy hy ⟨q, hq⟩
    have hs : 's' ∉ §"{%" ++ w1 := by simp [blank_not_mem h1 (c := 's') (by decide)]
    cases y with
    | nil => exact hy rfl
    | cons d y =>
      simp only [List.cons_append, List.nil_append, List.cons.injEq] at hq
      exact hs (by rw [hxy, ← hq.1]; simp)
  obtain ⟨I, hI, _, hcl, hhead⟩ := h.braces
  have hI2 : I = w1 ++ §"set" ++ w2 ++ k ++ w3 ++ §"=" ++ (w4 ++ t ++ w5) := by
    have : §"{%" ++ (I ++ §"%}") = §"{%" ++ (w1 ++ §"set" ++ w2 ++ k ++ w3 ++ §"=" ++ (w4 ++ t ++ w5) ++ §"%}") := by
      have e : §"{%" ++ (I ++ §"%}") = ln := by rw [hI]; simp
      rw [e, hl]; simp
    exact List.append_cancel_right (List.append_cancel_left this)
  have hclose : findSub §"%}" line = some (§"{%" ++ I).length := by
    have h1 : inStr §"%}" (§"{%" ++ I) = false := inStr2_append (by decide) hcl (by rintro ⟨_, hb⟩; exact hhead hb)
    have h2 := findSub_close ('\n' :: u) h1
    have h3 : line = §"{%" ++ I ++ §"%}" ++ '\n' :: u := by simp [line, hI]
    rw [h3]; exact h2
  have he : eq = (§"{%" ++ w1 ++ §"set" ++ w2 ++ k ++ w3).length := by simp only [eq, heq, Option.getD_some]
  rw [he, hset, hclose]
  simp only [Option.getD_some]
  constructor
  · have : sliceS ((§"{%" ++ w1).length + 3) (§"{%" ++ w1 ++ §"set" ++ w2 ++ k ++ w3).length line = w2 ++ k ++ w3 := by
      unfold sliceS
      rw [hline, List.take_left' rfl]
      have : §"{%" ++ w1 ++ §"set" ++ w2 ++ k ++ w3 = (§"{%" ++ w1 ++ §"set") ++ (w2 ++ k ++ w3) := by simp
      rw [this, List.drop_left' (by simp)]
    rw [this]
    exact strip_around _ _ _ h2 h3
      ⟨fun c hc => isSpace_alnum (h.name c (List.mem_of_mem_head? hc)), fun c hc => isSpace_alnum (h.name c (List.mem_of_mem_getLast? hc))⟩
  · have : sliceS ((§"{%" ++ w1 ++ §"set" ++ w2 ++ k ++ w3).length + 1) (§"{%" ++ I).length line = w4 ++ t ++ w5 := by
      unfold sliceS
      have h3 : line = §"{%" ++ I ++ (§"%}" ++ '\n' :: u) := by simp [line, hI]
      rw [h3, List.take_left' rfl]
      have h4 : §"{%" ++ I = (§"{%" ++ w1 ++ §"set" ++ w2 ++ k ++ w3 ++ §"=") ++ (w4 ++ t ++ w5) := by simp [hI2]
      rw [h4, List.drop_left' (by simp; omega)]
    rw [this]
    exact strip_around _ _ _ h4 h5 (h.trimmed ▸ strip_is_clean _)

/-! ## A whole file -/

/-- Nothing opens within a line that does not have the opening braces. -/
theorem no_open {c d : Char} (hd : d ≠ '\n') (hc : c ≠ '\n') {l x y rest : Str} (h : inStr [c, d] l = false) (hxy : l ++ §"\n" = x ++ y)
    (hy : y ≠ []) : ¬ [c, d] <+: y ++ rest := by
  rintro ⟨q, hq⟩
  rw [inStr_false_iff] at h
  obtain ⟨z, hz⟩ : ∃ z, y = z ++ §"\n" ∧ z <:+ l := by
    rcases List.eq_nil_or_concat y with rfl | ⟨z, e, rfl⟩
    · exact absurd rfl hy
    · rw [List.concat_eq_append] at hxy ⊢
      rw [← List.append_assoc] at hxy
      obtain ⟨ha, hb⟩ := List.append_inj' hxy rfl
      exact ⟨z, by rw [← hb], ⟨x, ha.symm⟩⟩
  obtain ⟨rfl, hz⟩ := hz
  match z, hz, hq with
  | [], _, hq => simp only [List.nil_append, List.cons_append, List.cons.injEq] at hq; exact hc hq.1
  | [e], _, hq => simp only [List.nil_append, List.cons_append, List.cons.injEq] at hq; exact hd hq.2.1
  | e :: f :: z, hz, hq =>
    simp only [List.nil_append, List.cons_append, List.cons.injEq] at hq
    exact h _ hz ⟨z, by simp [hq.1, hq.2.1]⟩

/-- Lines that start with the definitions. -/
inductive FreeDefs : List Str → List (Str × Str) → Prop
  | nil : FreeDefs [] []
  | cons {t k v ts defs} : (∃ line u, FreeDef k v line ∧ t = line ++ '\n' :: u) → FreeDefs ts defs → FreeDefs (t :: ts) ((k, v) :: defs)

theorem fileText_cons (l : Str) (ls : List Str) : fileText (l :: ls) = l ++ '\n' :: fileText ls := by simp [fileText]

theorem findall_file {fs : List Str} {defs : List (Str × Str)} {ls : List Str} (h : FileLines fs defs ls) (bef u post : Str)
    (hu : Doc.Blank u) (hf : fileText fs = u ++ post) : FreeDefs (Regex.jinjaV0SetLine.findallGo 0 bef post) defs := by
  have hskip : ∀ {l y rest bef : Str}, inStr §"{%" l = false → y <:+ l ++ §"\n" →
      Regex.jinjaV0SetLine.findallGo 0 bef (y ++ rest) = Regex.jinjaV0SetLine.findallGo 0 (y.reverse ++ bef) rest := by
    rintro l y rest bef hl ⟨w, hw⟩
    apply findallGo_text
    intro a b hab hb
    cases hm : Regex.jinjaV0SetLine.matchAt (a.reverse ++ bef) (b ++ rest) with
    | none => rfl
    | some m => exact absurd (setLine_start hm) (no_open (by decide) (by decide) (x := w ++ a) hl (by rw [← hw, hab]; simp) hb)
  have hbrace : ∀ {u post t : Str}, Doc.Blank u → '{' :: t = u ++ post → u = [] := by
    intro u post t hu ht
    cases u with
    | nil => rfl
    | cons c u =>
      simp only [List.cons_append, List.cons.injEq] at ht
      have := hu c (by simp)
      rw [← ht.1] at this
      exact absurd this (by decide)
  induction h generalizing bef u post with
  | nil =>
    have : post = [] := (List.append_eq_nil_iff.1 hf.symm).2
    subst this
    exact .nil
  | @defn k t line fs defs ls hd _ ih =>
    rw [fileText_cons] at hf
    obtain ⟨I, hI, hnl, hcl, _⟩ := hd.braces
    have hu0 : u = [] := hbrace (t := '%' :: (I ++ §"%}" ++ '\n' :: fileText fs)) hu (by rw [← hf, hI]; simp)
    subst hu0
    rw [List.nil_append] at hf
    obtain ⟨m, w, hm, htext, hrest, hw⟩ := setLine_match_free (bef := bef) (rest := fileText fs) (hI ▸ hd.setLine bef) hnl hcl
    rw [← hI] at hm htext
    obtain ⟨c, cs, hc⟩ : ∃ c cs, line = c :: cs := ⟨'{', _, by rw [hI]; rfl⟩
    have hgo : Regex.jinjaV0SetLine.findallGo 0 bef post =
        m.text :: Regex.jinjaV0SetLine.findallGo 0 ((cs ++ '\n' :: w).reverse ++ c :: bef) m.post := by
      rw [← hf, hc, List.cons_append, Rx.findallGo]
      rw [hc, List.cons_append] at hm htext
      rw [hm]
      simp only
      have hlen : m.text.length - 1 = (cs ++ '\n' :: w).length := by rw [htext]; simp
      have hsplit : cs ++ '\n' :: fileText fs = (cs ++ '\n' :: w) ++ m.post := by rw [hrest]; simp
      rw [hsplit, hlen, Rx.findallGo_skip _ _ _ _ _ rfl]
    rw [hgo]
    exact .cons ⟨line, w, hd, htext⟩ (ih _ w m.post hw hrest)
  | @remark line fs defs ls hr _ ih =>
    rw [fileText_cons] at hf
    obtain ⟨t, hl, _, hno⟩ := hr
    have hu0 : u = [] := hbrace (t := '#' :: (t ++ §"#}" ++ '\n' :: fileText fs)) hu (by rw [← hf, hl]; simp)
    subst hu0
    rw [List.nil_append] at hf
    have : post = (line ++ §"\n") ++ fileText fs := by rw [← hf]; simp
    rw [this, hskip hno (List.suffix_refl _)]
    exact ih _ [] _ (by intro c hc; cases hc) rfl
  | @line line fs defs ls ho _ ih =>
    rw [fileText_cons] at hf
    have hf' : (line ++ §"\n") ++ fileText fs = u ++ post := by rw [← hf]; simp
    rcases List.append_eq_append_iff.1 hf' with ⟨z, hz1, hz2⟩ | ⟨z, hz1, hz2⟩
    · exact ih _ z post (fun c hc => hu c (by rw [hz1]; simp [hc])) hz2
    · rw [hz2, hskip ho.2.1 ⟨u, hz1.symm⟩]
      exact ih _ [] _ (by intro c hc; cases hc) rfl

/-- The variables read from a file. -/
theorem initVars_file (E : Env) {fs : List Str} {defs : List (Str × Str)} {ls : List Str} (h : FileLines fs defs ls)
    (hd : (defs.map (·.1)).Nodup) : initVarsV0 E (fileText fs) = defs.map fun kt => (kt.1, defValue E kt.2) := by
  have hall := findall_file h [] [] (fileText fs) (by intro c hc; cases hc) rfl
  unfold initVarsV0 Rx.findall
  have key : ∀ (ts : List Str) (defs : List (Str × Str)), FreeDefs ts defs →
      ∀ tbl : List (Str × PyVal), (tbl.map (·.1) ++ defs.map (·.1)).Nodup →
      ts.foldl (init := tbl) (fun tbl line =>
        let eq := (findSub §"=" line).getD 0
        let key := strip (sliceS ((findSub §"set" line).getD 0 + 3) eq line)
        let value := strip (sliceS (eq + 1) ((findSub §"%}" line).getD 0) line)
        insertD key ((E.literalEval value).getD (.str value)) tbl) = tbl ++ defs.map fun kt => (kt.1, defValue E kt.2) := by
    intro ts defs hall
    induction hall with
    | nil => intro tbl _; simp
    | @cons t k v ts defs ht _ ih =>
      intro tbl hnd
      obtain ⟨line, u, hdef, rfl⟩ := ht
      have hp := free_def_parts hdef u
      simp only at hp
      simp only [List.foldl_cons, hp.1, hp.2]
      have hval : (E.literalEval v).getD (.str v) = defValue E v := by
        unfold defValue
        cases E.literalEval v <;> rfl
      rw [hval, insertD_new]
      · have := ih (tbl ++ [(k, defValue E v)]) (by simpa using hnd)
        simpa using this
      · intro hm
        rw [List.nodup_append] at hnd
        exact hnd.2.2 _ hm _ (by simp) rfl
  simpa using key _ defs hall [] (by simpa using hd)

theorem jinjaLine_remark {bef x rest : Str} (hx : '\n' ∉ x) :
    ∃ m, Regex.jinjaV0Line.matchAt bef (§"{#" ++ x ++ §"#}" ++ '\n' :: rest) = some m ∧ m.text = §"{#" ++ x ++ §"#}" ++ §"\n" := by
  have hsome : (Regex.jinjaV0Line.matchAt bef (§"{#" ++ x ++ §"#}" ++ '\n' :: rest)).isSome = true := by
    rw [Rx.matchAt_isSome]
    refine ⟨§"{#" ++ x ++ §"#}" ++ §"\n", rest, by simp, ?_⟩
    refine ⟨§"{#" ++ x ++ §"#}", §"\n", rfl, Or.inr ?_, (Rx.lang_chr _ _ _).2 rfl⟩
    refine ⟨§"{#", x ++ §"#}", by simp, (Rx.lang_lit _ _ _).2 rfl, x, §"#}", rfl, (Rx.lang_star_cls _ _ _).2 ?_, (Rx.lang_lit _ _ _).2 rfl⟩
    intro c hc
    simp only [bne_iff_ne, ne_eq]
    rintro rfl; exact hx hc
  obtain ⟨m, hm⟩ := Option.isSome_iff_exists.1 hsome
  refine ⟨m, hm, ?_⟩
  obtain ⟨hl, hs⟩ := Rx.matchAt_lang hm
  obtain ⟨u, hu, hn⟩ := lang_jinjaLine hl
  rw [hu] at hs ⊢
  have hs' : (§"{#" ++ x ++ §"#}") ++ '\n' :: rest = u ++ '\n' :: m.post := by rw [hs]; simp
  obtain ⟨h1, _⟩ := cut_unique hs' (by simp [hx]) hn
  rw [h1]

/-- Definitions and remarks are removed before the lines are read. -/
theorem sub_file {fs : List Str} {defs : List (Str × Str)} {ls : List Str} (h : FileLines fs defs ls) :
    Regex.jinjaV0Line.sub (fun _ => []) (fileText fs) = fileText ls := by
  unfold Rx.sub
  have hdrop : ∀ {line : Str} {fs : List Str} {bef : Str}, (∃ cs, line = '{' :: cs) →
      (∃ m, Regex.jinjaV0Line.matchAt bef (line ++ '\n' :: fileText fs) = some m ∧ m.text = line ++ §"\n") →
      ∃ bef', Regex.jinjaV0Line.subGo (fun _ => []) 0 bef (fileText (line :: fs)) = Regex.jinjaV0Line.subGo (fun _ => []) 0 bef' (fileText fs) := by
    rintro line fs bef ⟨cs, rfl⟩ ⟨m, hm, htext⟩
    rw [fileText_cons, List.cons_append, Rx.subGo]
    rw [List.cons_append] at hm
    rw [hm]
    simp only [List.nil_append]
    have hlen : m.text.length - 1 = (cs ++ §"\n").length := by rw [htext]; simp
    have hsplit : cs ++ '\n' :: fileText fs = (cs ++ §"\n") ++ fileText fs := by simp
    rw [hsplit, hlen, Rx.subGo_skip _ _ _ _ _ _ rfl]
    exact ⟨_, rfl⟩
  suffices ∀ bef, Regex.jinjaV0Line.subGo (fun _ => []) 0 bef (fileText fs) = fileText ls from this []
  induction h with
  | nil => intro bef; rfl
  | @defn k t line fs defs ls hd _ ih =>
    intro bef
    obtain ⟨I, hI, hnl, _, _⟩ := hd.braces
    obtain ⟨bef', he⟩ := hdrop (line := line) (fs := fs) (bef := bef) ⟨_, by rw [hI]; rfl⟩ (by rw [hI]; exact jinjaLine_def hnl)
    rw [he]; exact ih _
  | @remark line fs defs ls hr _ ih =>
    intro bef
    obtain ⟨t, hl, hnl, _⟩ := hr
    obtain ⟨bef', he⟩ := hdrop (line := line) (fs := fs) (bef := bef) ⟨_, by rw [hl]; rfl⟩
      (by rw [hl]; exact jinjaLine_remark (fun hm => hnl (by rw [hl]; simp [hm])))
    rw [he]; exact ih _
  | @line line fs defs ls ho _ ih =>
    intro bef
    have : fileText (line :: fs) = (line ++ §"\n") ++ fileText fs := by simp [fileText_cons]
    rw [this, subGo_text, ih, fileText_cons]
    · simp
    · intro x y hxy hy
      cases hm : Regex.jinjaV0Line.matchAt (x.reverse ++ bef) (y ++ fileText fs) with
      | none => rfl
      | some m =>
        rcases jinjaLine_matchAt hm with h' | h'
        · exact absurd h' (no_open (by decide) (by decide) ho.2.1 hxy hy)
        · exact absurd h' (no_open (by decide) (by decide) ho.2.2 hxy hy)

theorem oneLine_file {fs : List Str} {defs : List (Str × Str)} {ls : List Str} (h : FileLines fs defs ls) : ∀ l ∈ ls, OneLine l := by
  induction h with
  | nil => intro l hl; cases hl
  | defn _ _ ih => exact ih
  | remark _ _ ih => exact ih
  | line ho _ ih =>
    intro l hl
    rcases List.mem_cons.1 hl with rfl | hl
    · exact ho
    · exact ih l hl

theorem splitlines_file (ls : List Str) (h : ∀ l ∈ ls, ∀ c ∈ l, isLineBreak c = false) : splitlines (fileText ls) = ls := by
  induction ls with
  | nil => rfl
  | cons l ls ih =>
    rw [fileText_cons]
    unfold splitlines
    rw [splitlinesGo_nl l _ (h l (by simp))]
    exact congrArg _ (ih fun x hx => h x (by simp [hx]))

end Crm
