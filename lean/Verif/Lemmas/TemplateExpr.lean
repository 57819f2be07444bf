import Verif.Spec.Template
import Verif.Lemmas.RegexOnly
import Verif.Lemmas.DocVars
import Verif.Lemmas.SelEdit

/-! # Evaluating one expression -/

namespace Crm
open Spec

/-! ## Replacing in a text -/

theorem replaceAll_skip (m v a rest : Str) (h : ∀ x y, a = x ++ y → y ≠ [] → ¬ m <+: y ++ rest) :
    replaceAll m v (a ++ rest) = a ++ replaceAll m v rest := by
  unfold replaceAll
  induction a with
  | nil => rfl
  | cons c a ih =>
    have hno : ¬ m.isPrefixOf (c :: (a ++ rest)) = true := by
      rw [List.isPrefixOf_iff_prefix]
      exact h [] (c :: a) rfl (by simp)
    rw [List.cons_append, replaceGo, if_neg hno, ih (fun x y hxy hy => h (c :: x) y (by simp [hxy]) hy)]
    rfl

theorem replaceGo_drop (m v a rest : Str) : replaceGo m v a.length (a ++ rest) = replaceGo m v 0 rest := by
  induction a with
  | nil => rfl
  | cons c a ih => simpa [replaceGo] using ih

theorem replaceAll_here (m v rest : Str) (hm : m ≠ []) : replaceAll m v (m ++ rest) = v ++ replaceAll m v rest := by
  unfold replaceAll
  cases m with
  | nil => exact absurd rfl hm
  | cons c m =>
    have hp : (c :: m).isPrefixOf (c :: (m ++ rest)) = true := List.isPrefixOf_iff_prefix.2 ⟨rest, rfl⟩
    rw [List.cons_append, replaceGo, if_pos hp]
    simp only [List.length_cons, Nat.add_sub_cancel]
    rw [replaceGo_drop]

/-- Cutting the end off. -/
theorem replaceAll_end (c : Char) (m a : Str) (h : c ∉ a) : replaceAll (c :: m) [] (a ++ c :: m) = a := by
  rw [replaceAll_skip]
  · have := replaceAll_here (c :: m) [] [] (by simp)
    rw [List.append_nil] at this
    rw [this]
    simp [replaceAll, replaceGo]
  · intro x y hxy hy hp
    obtain ⟨q, hq⟩ := hp
    cases y with
    | nil => exact hy rfl
    | cons d y =>
      simp only [List.cons_append, List.cons.injEq] at hq
      exact h (by rw [hxy, hq.1]; simp)

/-! ## Steps of the engine -/

theorem Rx.first_opt_hit {p : Char → Bool} {s : MSt} {c : Char} {rest : Str} (h : s.aft = c :: rest) (hc : p c = true) :
    (Rx.opt (.cls p)).first s = some (s.eat [c] rest) := Rx.first_alt_left _ (Rx.first_cls h hc)

theorem Rx.first_opt_miss {p : Char → Bool} {s : MSt} (h : ∀ c rest, s.aft = c :: rest → p c = false) :
    (Rx.opt (.cls p)).first s = some s := by
  refine (Rx.first_alt_right _ ?_).trans rfl
  cases ha : s.aft with
  | nil => simp [Rx.run, ha]
  | cons c rest => simp [Rx.run, ha, h c rest ha]

theorem eat_eat (s : MSt) (a b r1 r2 : Str) : (s.eat a r1).eat b r2 = s.eat (a ++ b) r2 := by simp [MSt.eat]

theorem spaces_unique {w w' : Str} {c c' : Char} {r r' : Str} (hw : ∀ d ∈ w, isSpace d = true) (hw' : ∀ d ∈ w', isSpace d = true)
    (hc : isSpace c = false) (hc' : isSpace c' = false) (h : w ++ c :: r = w' ++ c' :: r') : w = w' ∧ c = c' ∧ r = r' := by
  induction w generalizing w' with
  | nil =>
    cases w' with
    | nil => simpa using h
    | cons d w' =>
      simp only [List.nil_append, List.cons_append, List.cons.injEq] at h
      have := hw' d (by simp)
      rw [← h.1, hc] at this
      cases this
  | cons d w ih =>
    cases w' with
    | nil =>
      simp only [List.nil_append, List.cons_append, List.cons.injEq] at h
      have := hw d (by simp)
      rw [h.1, hc'] at this
      cases this
    | cons d' w' =>
      simp only [List.cons_append, List.cons.injEq] at h
      obtain ⟨rfl, h⟩ := h
      obtain ⟨h1, h2⟩ := ih (fun d hd => hw d (by simp [hd])) (fun d hd => hw' d (by simp [hd])) h
      exact ⟨by rw [h1], h2⟩

theorem takeWhile_stop {p : Char → Bool} {a r : Str} (ha : ∀ c ∈ a, p c = true) (hr : ∀ c r', r = c :: r' → p c = false) :
    (a ++ r).takeWhile p = a ∧ (a ++ r).dropWhile p = r := by
  induction a with
  | nil =>
    cases r with
    | nil => simp
    | cons c r => simp [hr c r rfl]
  | cons c a ih =>
    have := ih (fun d hd => ha d (by simp [hd]))
    simp [ha c (by simp), this.1, this.2]

theorem first_plus_eat {p : Char → Bool} {a rest b : Str} {k : List (Nat × Nat × Str)} (hne : a ≠ []) (ha : ∀ c ∈ a, p c = true)
    (hr : ∀ c r', rest = c :: r' → p c = false) :
    (Rx.plus (.cls p)).first ⟨b, a ++ rest, k⟩ = some ⟨a.reverse ++ b, rest, k⟩ := by
  obtain ⟨c, cs, rfl⟩ := List.exists_cons_of_ne_nil hne
  have h1 := Rx.first_plus (p := p) (s := ⟨b, (c :: cs) ++ rest, k⟩) (c := c) (rest := cs ++ rest) rfl (ha c (by simp))
  have h2 := takeWhile_stop ha hr
  simp only [MSt.eat, h2.1, h2.2] at h1
  exact h1

theorem first_star_eat {p : Char → Bool} {a rest b : Str} {k : List (Nat × Nat × Str)} (ha : ∀ c ∈ a, p c = true)
    (hr : ∀ c r', rest = c :: r' → p c = false) :
    (Rx.star (.cls p)).first ⟨b, a ++ rest, k⟩ = some ⟨a.reverse ++ b, rest, k⟩ := by
  have h1 := Rx.first_star p ⟨b, a ++ rest, k⟩
  have h2 := takeWhile_stop ha hr
  simp only [MSt.eat, h2.1, h2.2] at h1
  exact h1

theorem first_lit_eat {a rest b : Str} {k : List (Nat × Nat × Str)} : (Rx.lit a).first ⟨b, a ++ rest, k⟩ = some ⟨a.reverse ++ b, rest, k⟩ :=
  Rx.first_lit a rest rfl

theorem first_chr_eat {c : Char} {rest b : Str} {k : List (Nat × Nat × Str)} :
    (Rx.chr c).first ⟨b, c :: rest, k⟩ = some ⟨c :: b, rest, k⟩ :=
  Rx.first_cls rfl (by simp)

theorem first_grp_eat {r : Rx} {a aft rest b : Str} {k k' : List (Nat × Nat × Str)} (n : Nat)
    (h : r.first ⟨b, aft, k⟩ = some ⟨a.reverse ++ b, rest, k'⟩) :
    (Rx.grp n r).first ⟨b, aft, k⟩ = some ⟨a.reverse ++ b, rest, (n, b.length, a) :: k'⟩ := by
  rw [Rx.first_grp n h]
  simp

/-! ## Filters -/

/-- `\|\s*(name)` -/
def filterRx (n : Str) : Rx := .seq (Rx.chr '|') (.seq (.star Rx.ws) (.grp 1 (Rx.lit n)))

theorem needs_filter (n : Str) : Needs '|' (filterRx n) := needs_seq_left _ (needs_chr '|')

theorem filter_hit (n : Str) (c : Char) (cs : Str) (hn : n = c :: cs) (hc : isSpace c = false) (a w : Str) (ha : '|' ∉ a)
    (hw : ∀ d ∈ w, isSpace d = true) :
    ∃ m, (filterRx n).search (a ++ '|' :: (w ++ n)) = some m ∧ m.text = '|' :: (w ++ n) := by
  unfold Rx.search
  rw [Rx.searchFrom_skip]
  · have h : (filterRx n).first ⟨a.reverse ++ [], '|' :: (w ++ n), []⟩ = some ⟨n.reverse ++ (w.reverse ++ '|' :: (a.reverse ++ [])), [],
        [(1, (w.reverse ++ '|' :: (a.reverse ++ [])).length, n)]⟩ := by
      refine Rx.first_seq first_chr_eat (Rx.first_seq (first_star_eat hw ?_) (first_grp_eat 1 ?_))
      · intro c' r' h
        rw [hn] at h; injection h with h1; rw [← h1]; exact hc
      · have := first_lit_eat (a := n) (rest := []) (b := w.reverse ++ '|' :: (a.reverse ++ [])) (k := [])
        rw [List.append_nil n] at this
        exact this
    refine ⟨_, Rx.searchFrom_matchAt (Rx.matchAt_first' h), ?_⟩
    simp only [List.length_nil, Nat.sub_zero, List.take_length]
  · intro x y hxy hy
    apply Rx.matchAt_none
    intro t rest ht ⟨t1, t2, he, h1, _⟩
    rw [Rx.lang_chr] at h1
    cases y with
    | nil => exact hy rfl
    | cons d y =>
      rw [he, h1] at ht
      simp only [List.cons_append, List.nil_append, List.cons.injEq] at ht
      exact ha (by rw [hxy, ← ht.1]; simp)

theorem filter_miss (n n' : Str) (c c' : Char) (cs cs' : Str) (hn : n = c :: cs) (hn' : n' = c' :: cs') (hc : isSpace c = false)
    (hc' : isSpace c' = false) (hne : c ≠ c') (hbar : '|' ∉ n') (a w : Str) (ha : '|' ∉ a)
    (hw : ∀ d ∈ w, isSpace d = true) : (filterRx n).search (a ++ '|' :: (w ++ n')) = none := by
  have hwbar : '|' ∉ w := fun hm => by have := hw _ hm; revert this; decide
  unfold Rx.search
  have hskip : ∀ (a rest bef : Str), '|' ∉ a → ∀ x y, a = x ++ y → y ≠ [] → (filterRx n).matchAt (x.reverse ++ bef) (y ++ rest) = none := by
    intro a rest bef ha x y hxy hy
    apply Rx.matchAt_none
    intro t rest ht ⟨t1, t2, he, h1, _⟩
    rw [Rx.lang_chr] at h1
    cases y with
    | nil => exact hy rfl
    | cons d y =>
      rw [he, h1] at ht
      simp only [List.cons_append, List.nil_append, List.cons.injEq] at ht
      exact ha (by rw [hxy, ← ht.1]; simp)
  rw [Rx.searchFrom_skip _ _ _ _ (hskip a _ _ ha), Rx.searchFrom]
  have hm : (filterRx n).matchAt (a.reverse ++ []) ('|' :: (w ++ n')) = none := by
    apply Rx.matchAt_none
    rintro t rest ht ⟨t1, t2, rfl, h1, t3, t4, rfl, h3, h4⟩
    rw [Rx.lang_chr] at h1
    have h3' := (Rx.lang_star_cls isSpace _ _).1 h3
    have h4' : t4 = n := (Rx.lang_lit n _ t4).1 h4
    subst h1 h4'
    rw [hn, hn'] at ht
    simp only [List.cons_append, List.nil_append, List.cons.injEq, List.append_assoc, true_and] at ht
    exact hne (spaces_unique hw h3' hc' hc ht).2.1.symm
  rw [hm]
  exact needs_searchFrom (needs_filter n) (by simp [hwbar, hbar])

/-! ## Characters -/

theorem word_not {c : Char} (h : isWord c = true) (d : Char) (hd : isWord d = false) : c ≠ d := by
  rintro rfl; rw [h] at hd; cases hd

theorem word_space {c : Char} (h : isWord c = true) : isSpace c = false := by
  apply isSpace_alnum
  simpa [isWord] using h

theorem not_mem_of {p : Char → Bool} {a : Str} (h : ∀ c ∈ a, p c = true) (d : Char) (hd : p d = false) : d ∉ a := by
  intro hm; rw [h d hm] at hd; cases hd

theorem blank_space {w : Str} (h : Blank w) : ∀ c ∈ w, isSpace c = true := by
  intro c hc; rw [h c hc]; decide

theorem blank_not {w : Str} (h : Blank w) (d : Char) (hd : d ≠ ' ') : d ∉ w := fun hm => hd (h d hm)

theorem digit_word {c : Char} (h : isDigitC c = true) : isWord c = true := by
  have : c.isDigit = true := by
    simp only [isDigitC, Bool.and_eq_true, decide_eq_true_eq] at h
    simp only [Char.isDigit, Bool.and_eq_true, decide_eq_true_eq]
    exact ⟨h.1, h.2⟩
  simp [isWord, Char.isAlphanum, this]

/-! ## Index -/

theorem needs_index : Needs '[' Regex.jinjaFunctionIdxAccess := needs_seq_right _ (needs_seq_left _ (needs_chr '['))

theorem index_hit {x i : Str} (hx : x ≠ []) (hxw : ∀ c ∈ x, isWord c = true) (hi : i ≠ []) (hid : ∀ c ∈ i, isDigitC c = true) :
    ((Regex.jinjaFunctionIdxAccess.search (x ++ (§"[" ++ i ++ §"]"))).bind (·.group 2)) = some i := by
  have h : Regex.jinjaFunctionIdxAccess.first ⟨[], x ++ ('[' :: (i ++ §"]")), []⟩ = some ⟨']' :: (i.reverse ++ '[' :: (x.reverse ++ [])), [],
      [(2, ('[' :: (x.reverse ++ [])).length, i), (1, 0, x)]⟩ := by
    refine Rx.first_seq (first_grp_eat 1 (first_plus_eat hx hxw ?_)) (Rx.first_seq first_chr_eat
      (Rx.first_seq (first_grp_eat 2 (first_plus_eat hi hid ?_)) first_chr_eat))
    · intro c r h; injection h with h; rw [← h]; decide
    · intro c r h; injection h with h; rw [← h]; decide
  have hsrc : x ++ (§"[" ++ i ++ §"]") = x ++ ('[' :: (i ++ §"]")) := by simp
  unfold Rx.search
  rw [hsrc, Rx.searchFrom_matchAt (Rx.matchAt_first' h)]
  rfl

/-! ## Sums -/

theorem needs_add : Needs '+' Regex.jinjaFunctionAddConcat := needs_seq_right _ (needs_seq_right _ (needs_seq_left _ (needs_chr '+')))

def tokenRx : Rx := .seq (Rx.opt (Rx.oneOf §"\"'")) (.seq (Rx.plus (.cls fun c => c.isAlphanum || c == '_' || c == '.'))
  (Rx.opt (Rx.oneOf §"\"'")))

theorem token_first (o : Operand) (ho : o.Ok) (rest b : Str) (k : List (Nat × Nat × Str))
    (hr : ∀ c r', rest = c :: r' → c = ' ' ∨ c = '+') :
    tokenRx.first ⟨b, o.src ++ rest, k⟩ = some ⟨o.src.reverse ++ b, rest, k⟩ := by
  have hstop : ∀ c r', rest = c :: r' → (c.isAlphanum || c == '_' || c == '.') = false ∧ (§"\"'").contains c = false := by
    intro c r' h
    rcases hr c r' h with rfl | rfl <;> decide
  cases o with
  | plain t =>
    obtain ⟨hne, ht⟩ := ho
    have ht' : ∀ c ∈ t, (c.isAlphanum || c == '_' || c == '.') = true := by
      intro c hc
      rcases ht c hc with h | rfl
      · simp only [isWord] at h; simp only [h, Bool.true_or]
      · decide
    refine Rx.first_seq (Rx.first_opt_miss ?_) (Rx.first_seq (first_plus_eat hne ht' (fun c r h => (hstop c r h).1))
      (Rx.first_opt_miss (fun c r h => (hstop c r h).2)))
    intro c r h
    obtain ⟨d, ds, rfl⟩ := List.exists_cons_of_ne_nil hne
    simp only [Operand.src, List.cons_append, List.cons.injEq] at h
    have := ht' c (by rw [h.1]; simp)
    cases hc : (§"\"'").contains c with
    | false => rfl
    | true =>
      simp only [List.contains_cons, List.contains_nil, Bool.or_false, Bool.or_eq_true, beq_iff_eq] at hc
      rcases hc with rfl | rfl <;> (revert this; decide)
  | quoted q t =>
    obtain ⟨hq, hne, ht⟩ := ho
    have ht' : ∀ c ∈ t, (c.isAlphanum || c == '_' || c == '.') = true := by
      intro c hc
      rcases ht c hc with h | rfl
      · simp only [isWord] at h; simp only [h, Bool.true_or]
      · decide
    have hqc : (§"\"'").contains q = true := by rcases hq with rfl | rfl <;> decide
    have hqw : (q.isAlphanum || q == '_' || q == '.') = false := by rcases hq with rfl | rfl <;> decide
    have hsrc : (Operand.quoted q t).src ++ rest = q :: (t ++ q :: rest) := by simp [Operand.src]
    have hrev : (Operand.quoted q t).src.reverse ++ b = q :: (t.reverse ++ q :: b) := by simp [Operand.src]
    rw [hsrc, hrev]
    refine Rx.first_seq (Rx.first_opt_hit rfl hqc) (Rx.first_seq (first_plus_eat hne ht' ?_) (Rx.first_opt_hit rfl hqc))
    intro c r h; injection h with h; rw [← h]; exact hqw

theorem add_hit (a b : Operand) (ha : a.Ok) (hb : b.Ok) (w1 w2 : Str) (hw1 : Blank w1) (hw2 : Blank w2) :
    ∃ m, Regex.jinjaFunctionAddConcat.search (a.src ++ (w1 ++ '+' :: (w2 ++ b.src))) = some m ∧ m.group 1 = some a.src ∧
      m.group 2 = some b.src := by
  have hhead : ∀ c r, b.src = c :: r → isSpace c = false := by
    intro c r h
    cases b with
    | plain t =>
      have := hb.2 c (by rw [show t = c :: r from h]; simp)
      rcases this with h | rfl
      · exact word_space h
      · decide
    | quoted q t =>
      have hq := hb.1
      injection h with h1
      rw [← h1]
      rcases hq with rfl | rfl <;> decide
  have h : Regex.jinjaFunctionAddConcat.first ⟨[], a.src ++ (w1 ++ '+' :: (w2 ++ b.src)), []⟩ =
      some ⟨b.src.reverse ++ (w2.reverse ++ '+' :: (w1.reverse ++ (a.src.reverse ++ []))), [],
      [(2, (w2.reverse ++ '+' :: (w1.reverse ++ (a.src.reverse ++ []))).length, b.src), (1, 0, a.src)]⟩ := by
    refine Rx.first_seq (first_grp_eat 1 (token_first a ha _ _ _ ?_)) (Rx.first_seq (first_star_eat (blank_space hw1) ?_)
      (Rx.first_seq first_chr_eat (Rx.first_seq (first_star_eat (blank_space hw2) hhead) (first_grp_eat 2 ?_))))
    · intro c r h
      cases w1 with
      | nil => simp only [List.nil_append, List.cons.injEq] at h; exact Or.inr h.1.symm
      | cons d w1 =>
        simp only [List.cons_append, List.cons.injEq] at h
        exact Or.inl (by rw [← h.1]; exact hw1 d (by simp))
    · intro c r h; injection h with h; rw [← h]; decide
    · have := token_first b hb [] (w2.reverse ++ '+' :: (w1.reverse ++ (a.src.reverse ++ []))) [(1, 0, a.src)] (fun _ _ h => by cases h)
      rw [List.append_nil b.src] at this
      exact this
  exact ⟨_, Rx.searchFrom_matchAt (Rx.matchAt_first' h), rfl, rfl⟩

/-! ## Taking an expression apart -/

theorem clean_word {x : Str} (h : ∀ c ∈ x, isWord c = true) : Clean x :=
  ⟨fun c hc => word_space (h c (List.mem_of_mem_head? hc)), fun c hc => word_space (h c (List.mem_of_mem_getLast? hc))⟩

theorem strip_word {x : Str} (h : ∀ c ∈ x, isWord c = true) : strip x = x := by
  have := strip_around [] x [] (by simp) (by simp) (clean_word h)
  simpa using this

theorem setKey_plain {x : Str} {idx : Option Str} (hx : x ≠ []) (hxw : ∀ c ∈ x, isWord c = true)
    (hi : ∀ i, idx = some i → i ≠ [] ∧ ∀ c ∈ i, isDigitC c = true) :
    (Regex.jinjaFunctionIdxAccess.search (x ++ indexSrc idx)).bind (·.group 2) = idx ∧
    (match (Regex.jinjaFunctionIdxAccess.search (x ++ indexSrc idx)).bind (·.group 2) with
      | some i => strip (replaceAll (§"[" ++ i ++ §"]") [] (x ++ indexSrc idx)) | none => x ++ indexSrc idx) = x := by
  cases idx with
  | none =>
    have hno : '[' ∉ x := not_mem_of hxw '[' (by decide)
    have : Regex.jinjaFunctionIdxAccess.search (x ++ indexSrc none) = none := by
      simp only [indexSrc, List.append_nil]
      exact needs_search needs_index hno
    rw [this]
    simp [indexSrc]
  | some i =>
    obtain ⟨hi1, hi2⟩ := hi i rfl
    have := index_hit hx hxw hi1 hi2
    simp only [indexSrc]
    rw [this]
    refine ⟨rfl, ?_⟩
    simp only
    have hno : '[' ∉ x := not_mem_of hxw '[' (by decide)
    have hr := replaceAll_end '[' (i ++ §"]") x hno
    have : §"[" ++ i ++ §"]" = '[' :: (i ++ §"]") := by simp
    rw [this, hr, strip_word hxw]

theorem setKey_access {x : Str} {idx : Option Str} {f : Filter} {w1 w2 : Str} (h : (JExpr.access x idx f w1 w2).Ok) :
    setKeyAndMatches (JExpr.access x idx f w1 w2).src = (x, decide (f = .lower), decide (f = .upper), idx, none) := by
  obtain ⟨hx, hxw, hi, hw1, hw2⟩ := h
  have hbase : ∀ c ∈ x ++ indexSrc idx, isWord c = true ∨ c = '[' ∨ c = ']' := by
    intro c hc
    rcases List.mem_append.1 hc with hc | hc
    · exact Or.inl (hxw c hc)
    · cases idx with
      | none => cases hc
      | some i =>
        simp only [indexSrc, List.mem_append, List.mem_singleton] at hc
        rcases hc with (hc | hc) | hc
        · exact Or.inr (Or.inl hc)
        · exact Or.inl (digit_word ((hi i rfl).2 c hc))
        · exact Or.inr (Or.inr hc)
  have hbar : '|' ∉ x ++ indexSrc idx := by
    intro hm
    rcases hbase _ hm with h | h | h <;> (revert h; decide)
  have hclean : Clean (x ++ indexSrc idx) := by
    have hsp : ∀ c ∈ x ++ indexSrc idx, isSpace c = false := by
      intro c hc
      rcases hbase c hc with h | rfl | rfl
      · exact word_space h
      · decide
      · decide
    exact ⟨fun c hc => hsp c (List.mem_of_mem_head? hc), fun c hc => hsp c (List.mem_of_mem_getLast? hc)⟩
  have hplus : '+' ∉ x := not_mem_of hxw '+' (by decide)
  obtain ⟨hp1, hp2⟩ := setKey_plain hx hxw hi
  rw [hp1] at hp2
  have hadd : Regex.jinjaFunctionAddConcat.search x = none := needs_search needs_add hplus
  have hlow : Regex.jinjaFunctionLower = filterRx §"lower" := rfl
  have hup : Regex.jinjaFunctionUpper = filterRx §"upper" := rfl
  have hbarw : '|' ∉ (x ++ indexSrc idx) ++ w1 := by
    simp only [List.mem_append, not_or] at hbar ⊢
    exact ⟨hbar, blank_not hw1 '|' (by decide)⟩
  have hcut : ∀ n : Str, strip (replaceAll ('|' :: (w2 ++ n)) [] ((x ++ indexSrc idx) ++ w1 ++ '|' :: (w2 ++ n))) = x ++ indexSrc idx := by
    intro n
    rw [replaceAll_end _ _ _ hbarw]
    have := strip_around [] (x ++ indexSrc idx) w1 (by simp) (blank_space hw1) hclean
    simpa using this
  cases f with
  | none =>
    have hsrc : (JExpr.access x idx .none w1 w2).src = x ++ indexSrc idx := by simp [JExpr.src, Filter.src]
    rw [hsrc]
    have h1 : Regex.jinjaFunctionLower.search (x ++ indexSrc idx) = none := by rw [hlow]; exact needs_search (needs_filter _) hbar
    have h2 : Regex.jinjaFunctionUpper.search (x ++ indexSrc idx) = none := by rw [hup]; exact needs_search (needs_filter _) hbar
    unfold setKeyAndMatches
    simp only [h1, h2, hp1, Option.isSome_none]
    clear hp1
    cases idx <;> (simp only at hp2 ⊢; rw [hp2, hadd]; rfl)
  | lower =>
    have hsrc : (JExpr.access x idx .lower w1 w2).src = (x ++ indexSrc idx) ++ w1 ++ '|' :: (w2 ++ §"lower") := by
      simp [JExpr.src, Filter.src]
    rw [hsrc]
    obtain ⟨m, hm, ht⟩ := filter_hit §"lower" 'l' §"ower" rfl (by decide) ((x ++ indexSrc idx) ++ w1) w2 hbarw (blank_space hw2)
    have h2 : Regex.jinjaFunctionUpper.search (x ++ indexSrc idx) = none := by rw [hup]; exact needs_search (needs_filter _) hbar
    unfold setKeyAndMatches
    rw [hlow]
    simp only [hm, ht, hcut, h2, hp1, Option.isSome_none, Option.isSome_some]
    clear hp1
    cases idx <;> (simp only at hp2 ⊢; rw [hp2, hadd]; rfl)
  | upper =>
    have hsrc : (JExpr.access x idx .upper w1 w2).src = (x ++ indexSrc idx) ++ w1 ++ '|' :: (w2 ++ §"upper") := by
      simp [JExpr.src, Filter.src]
    rw [hsrc]
    obtain ⟨m, hm, ht⟩ := filter_hit §"upper" 'u' §"pper" rfl (by decide) ((x ++ indexSrc idx) ++ w1) w2 hbarw (blank_space hw2)
    have h1 := filter_miss §"lower" §"upper" 'l' 'u' §"ower" §"pper" rfl rfl (by decide) (by decide) (by decide) (by decide)
      ((x ++ indexSrc idx) ++ w1) w2 hbarw (blank_space hw2)
    unfold setKeyAndMatches
    rw [hlow, hup]
    simp only [h1, hm, ht, hcut, hp1, Option.isSome_none, Option.isSome_some]
    clear hp1
    cases idx <;> (simp only at hp2 ⊢; rw [hp2, hadd]; rfl)

theorem operand_chars {o : Operand} (h : o.Ok) : ∀ c ∈ o.src, isWord c = true ∨ c = '.' ∨ c = '"' ∨ c = '\'' := by
  intro c hc
  cases o with
  | plain t => exact (h.2 c hc).imp id Or.inl
  | quoted q t =>
    simp only [Operand.src, List.cons_append, List.mem_cons, List.mem_append, List.not_mem_nil, or_false] at hc
    rcases hc with rfl | hc | rfl
    · exact Or.inr (Or.inr h.1)
    · exact (h.2.2 c hc).imp id Or.inl
    · exact Or.inr (Or.inr h.1)

theorem setKey_add {a b : Operand} {w1 w2 : Str} (h : (JExpr.add a b w1 w2).Ok) :
    setKeyAndMatches (JExpr.add a b w1 w2).src = ((JExpr.add a b w1 w2).src, false, false, none, some (a.src, b.src)) := by
  obtain ⟨ha, hb, hw1, hw2⟩ := h
  have hno : ∀ d, (isWord d = false ∧ d ≠ '.' ∧ d ≠ '"' ∧ d ≠ '\'' ∧ d ≠ ' ' ∧ d ≠ '+') → d ∉ (JExpr.add a b w1 w2).src := by
    rintro d ⟨h1, h2, h3, h4, h5, h6⟩ hm
    have hop : ∀ o : Operand, o.Ok → d ∉ o.src := by
      intro o ho hm
      rcases operand_chars ho d hm with h | h | h | h
      · rw [h1] at h; cases h
      · exact h2 h
      · exact h3 h
      · exact h4 h
    simp only [JExpr.src, List.mem_append, List.mem_singleton] at hm
    rcases hm with (((hm | hm) | hm) | hm) | hm
    · exact hop a ha hm
    · exact h5 (hw1 d hm)
    · exact h6 hm
    · exact h5 (hw2 d hm)
    · exact hop b hb hm
  have hlow : Regex.jinjaFunctionLower.search (JExpr.add a b w1 w2).src = none :=
    needs_search (needs_filter §"lower") (hno '|' (by decide))
  have hup : Regex.jinjaFunctionUpper.search (JExpr.add a b w1 w2).src = none :=
    needs_search (needs_filter §"upper") (hno '|' (by decide))
  have hidx : Regex.jinjaFunctionIdxAccess.search (JExpr.add a b w1 w2).src = none := needs_search needs_index (hno '[' (by decide))
  obtain ⟨m, hm, h1, h2⟩ := add_hit a b ha hb w1 w2 hw1 hw2
  have hsrc : (JExpr.add a b w1 w2).src = a.src ++ (w1 ++ '+' :: (w2 ++ b.src)) := by simp [JExpr.src]
  unfold setKeyAndMatches
  simp only [hlow, hup, hidx, Option.bind_none, Option.isSome_none]
  rw [hsrc, hm]
  simp only [Option.bind_some, h1, h2]

theorem exprChar_not {c : Char} (h : isExprChar c = true) : c ≠ '{' ∧ c ≠ '}' ∧ c ≠ '$' ∧ (isSpace c = true → c = ' ') ∧
    (c.isAlphanum || (§"_|'\"()[], =.-~+").contains c) = true := by
  simp only [isExprChar, Bool.or_eq_true, decide_eq_true_eq] at h
  rcases h with h | h
  · refine ⟨word_not h _ (by decide), word_not h _ (by decide), word_not h _ (by decide), ?_, ?_⟩
    · intro hs; rw [word_space h] at hs; cases hs
    · simp only [isWord, Bool.or_eq_true, beq_iff_eq] at h
      rcases h with h | rfl
      · simp [h]
      · decide
  · simp only [List.mem_cons, List.not_mem_nil, or_false] at h
    rcases h with rfl | rfl | rfl | rfl | rfl | rfl | rfl | rfl | rfl | rfl | rfl | rfl | rfl | rfl <;> decide

theorem blank_part {t w a b : Str} (hc : ∀ c ∈ t, isExprChar c = true) (ht : t = a ++ w ++ b) (hs : ∀ c ∈ w, isSpace c = true) : Blank w :=
  fun c h => (exprChar_not (hc c (by rw [ht]; simp [h]))).2.2.2.1 (hs c h)

theorem filter_absent {n t : Str} (hc : ∀ c ∈ t, isExprChar c = true) (h : ∀ w, Blank w → ¬ '|' :: w ++ n <:+: t) :
    (filterRx n).search t = none := by
  have ht : ¬ (filterRx n).test t = true := by
    rw [Rx.test_iff]
    rintro ⟨pre, u, post, rfl, a, v, rfl, h0, b, v2, rfl, h1, h2⟩
    have : v2 = n := (Rx.lang_lit _ _ _).1 h2
    subst this
    have : a = ['|'] := (Rx.lang_chr _ _ _).1 h0
    subst this
    have hb := (Rx.lang_star_cls _ _ _).1 h1
    exact h b (blank_part (a := pre ++ ['|']) (b := v2 ++ post) hc (by simp) hb) ⟨pre, post, by simp⟩
  simpa [Rx.test] using ht

theorem last_split {t : Str} (h : t ≠ []) : ∃ as a, t = as ++ [a] :=
  ⟨t.dropLast, t.getLast h, (List.dropLast_concat_getLast h).symm⟩

theorem index_absent {t : Str} (h : ∀ c i, isWord c = true → i ≠ [] → (∀ d ∈ i, isDigitC d = true) → ¬ c :: '[' :: i ++ §"]" <:+: t) :
    Regex.jinjaFunctionIdxAccess.search t = none := by
  have ht : ¬ Regex.jinjaFunctionIdxAccess.test t = true := by
    rw [Rx.test_iff]
    rintro ⟨pre, u, post, rfl, a, v, rfl, ha, b, v2, rfl, hb, i, v3, rfl, hi, hv⟩
    have hb' : b = ['['] := (Rx.lang_chr _ _ _).1 hb
    have hv' : v3 = [']'] := (Rx.lang_chr _ _ _).1 hv
    subst hb'; subst hv'
    obtain ⟨hne, hd⟩ := (Rx.lang_plus_cls _ _ _).1 hi
    obtain ⟨ha, hw⟩ := (Rx.lang_plus_cls _ _ _).1 ha
    obtain ⟨as, c, rfl⟩ := last_split ha
    exact h c i (hw c (by simp)) hne hd ⟨pre ++ as, post, by simp⟩
  simpa [Rx.test] using ht

theorem lang_quoteMark (bef q : Str) (h : (Rx.opt (Rx.oneOf §"\"'")).Lang bef q) : Quote q := by
  rw [Rx.lang_opt] at h
  rcases h with h | rfl
  · unfold Rx.oneOf at h
    simp only [Rx.Lang] at h
    obtain ⟨c, rfl, hc⟩ := h
    simp at hc
    rcases hc with rfl | rfl
    · exact .inr (.inl rfl)
    · exact .inr (.inr rfl)
  · exact .inl rfl

theorem sum_absent {t : Str} (hc : ∀ c ∈ t, isExprChar c = true)
    (h : ∀ a b q1 q2 w1 w2, isOperandChar a = true → isOperandChar b = true → Quote q1 → Quote q2 → Blank w1 → Blank w2 →
      ¬ a :: q1 ++ w1 ++ §"+" ++ w2 ++ q2 ++ [b] <:+: t) : Regex.jinjaFunctionAddConcat.search t = none := by
  have ht : ¬ Regex.jinjaFunctionAddConcat.test t = true := by
    rw [Rx.test_iff]
    rintro ⟨pre, u, post, rfl, x, v, rfl, hx, w1, v2, rfl, hw1, p, v3, rfl, hp, w2, y, rfl, hw2, hy⟩
    have hp : p = ['+'] := (Rx.lang_chr _ _ _).1 hp
    subst hp
    obtain ⟨q0, x', rfl, _, n1, q1, rfl, hn1, hq1⟩ := hx
    obtain ⟨q2, y', rfl, hq2, n2, q3, rfl, hn2, _⟩ := hy
    obtain ⟨hne1, ho1⟩ := (Rx.lang_plus_cls _ _ _).1 hn1
    obtain ⟨hne2, ho2⟩ := (Rx.lang_plus_cls _ _ _).1 hn2
    obtain ⟨as, a, rfl⟩ := last_split hne1
    obtain ⟨b, bs, rfl⟩ := List.exists_cons_of_ne_nil hne2
    have s1 := (Rx.lang_star_cls _ _ _).1 hw1
    have s2 := (Rx.lang_star_cls _ _ _).1 hw2
    refine h a b q1 q2 w1 w2 (ho1 a (by simp)) (ho2 b (by simp)) (lang_quoteMark _ _ hq1) (lang_quoteMark _ _ hq2)
      (blank_part (a := pre ++ (q0 ++ ((as ++ [a]) ++ q1))) (b := '+' :: w2 ++ (q2 ++ (b :: bs ++ q3)) ++ post) hc (by simp) s1)
      (blank_part (a := pre ++ (q0 ++ ((as ++ [a]) ++ q1)) ++ w1 ++ ['+']) (b := q2 ++ (b :: bs ++ q3) ++ post) hc (by simp) s2)
      ⟨pre ++ q0 ++ as, bs ++ q3 ++ post, by simp⟩
  simpa [Rx.test] using ht

theorem setKey_other {t : Str} (h : OtherOk t) : setKeyAndMatches t = (t, false, false, none, none) := by
  have h1 : Regex.jinjaFunctionLower.search t = none := filter_absent h.chars fun w hw => (h.filters w hw).1
  have h2 : Regex.jinjaFunctionUpper.search t = none := filter_absent h.chars fun w hw => (h.filters w hw).2
  have h3 := index_absent h.index
  have h4 := sum_absent h.chars h.sum
  unfold setKeyAndMatches
  simp only [h1, h2, h3, h4, Option.bind_none, Option.isSome_none]

theorem blankStrip_filter (P : Char → Bool) (hP : ∀ c, isSpace c = true → P c = false) (s : Str) : (strip s).filter P = s.filter P := by
  have hd : ∀ s : Str, (s.dropWhile isSpace).filter P = s.filter P := by
    intro s
    induction s with
    | nil => rfl
    | cons c cs ih =>
      by_cases h : isSpace c = true
      · rw [List.dropWhile_cons_of_pos h, ih, List.filter_cons_of_neg (by simp [hP c h])]
      · rw [List.dropWhile_cons_of_neg h]
  unfold strip rstrip lstrip
  rw [List.filter_reverse, hd, ← List.filter_reverse, List.reverse_reverse, hd]

theorem lookupD_mem {α : Type} {k : Str} {v : α} : ∀ {t : List (Str × α)}, lookupD k t = some v → (k, v) ∈ t
  | [], h => by cases h
  | (l, w) :: t, h => by
    simp only [lookupD] at h
    split at h
    · rename_i hl
      injection h with h
      rw [hl, h]
      exact List.mem_cons_self
    · exact List.mem_cons_of_mem _ (lookupD_mem h)

theorem only_plus {P p : Char → Bool} (h : ∀ c, p c = true → P c = false) : (Rx.plus (.cls p)).Only (fun c => P c = false) := ⟨h, h⟩

theorem only_lit {Q : Char → Prop} : ∀ t : Str, (∀ c ∈ t, Q c) → (Rx.lit t).Only Q
  | [], _ => trivial
  | [c], h => by
    intro d hd
    have : d = c := by simpa using hd
    exact this ▸ h c (by simp)
  | c :: d :: cs, h => by
    refine ⟨?_, only_lit (d :: cs) fun x hx => h x (List.mem_cons_of_mem _ hx)⟩
    intro e he
    have : e = c := by simpa using he
    exact this ▸ h c (by simp)

theorem only_filter {P : Char → Bool} (n : Str) (hs : ∀ c, isSpace c = true → P c = false) (hb : P '|' = false) (hn : ∀ c ∈ n, P c = false) :
    (filterRx n).Only (fun c => P c = false) := by
  refine ⟨?_, hs, only_lit n hn⟩
  intro c hc
  have : c = '|' := by simpa using hc
  exact this ▸ hb

/-- A call keeps its characters when filters and indices are taken away. -/
theorem setKey_call {t : Str} (h : CallOk t) : (setKeyAndMatches t).2.2.2.2 = none ∧
    ∃ c ∈ (setKeyAndMatches t).1, isWord c = false := by
  let P : Char → Bool := fun c => isCallChar c || c == '+'
  have hcs : ∀ c, P c = true → c = '\'' ∨ c = '"' ∨ c = '(' ∨ c = ')' ∨ c = ',' ∨ c = '=' ∨ c = '.' ∨ c = '-' ∨ c = '~' ∨ c = '+' := by
    intro c hc
    simpa [P, isCallChar, or_assoc] using hc
  have hno : ∀ q : Char → Bool, (q '\'' = false ∧ q '"' = false ∧ q '(' = false ∧ q ')' = false ∧ q ',' = false ∧ q '=' = false ∧
      q '.' = false ∧ q '-' = false ∧ q '~' = false ∧ q '+' = false) → ∀ c, q c = true → P c = false := by
    intro q hq c hc
    cases hp : P c with
    | false => rfl
    | true =>
      obtain ⟨q1, q2, q3, q4, q5, q6, q7, q8, q9, q10⟩ := hq
      rcases hcs c hp with rfl | rfl | rfl | rfl | rfl | rfl | rfl | rfl | rfl | rfl <;> simp_all
  have hsp : ∀ c, isSpace c = true → P c = false := hno isSpace (by decide)
  have hw : ∀ c, (c.isAlphanum || c == '_') = true → P c = false := hno _ (by decide)
  have hdg : ∀ c, isDigitC c = true → P c = false := hno isDigitC (by decide)
  have hkey : (setKeyAndMatches t).1.filter P = t.filter P := by
    have step : ∀ x key : Str, x ≠ [] → (∀ c ∈ x, P c = false) → (strip (replaceAll x [] key)).filter P = key.filter P := by
      intro x key hne hx
      rw [blankStrip_filter P hsp, replaceAll_filter P x [] key hne]
      simpa [List.filter_eq_nil_iff] using hx
    have cut : ∀ (rx : Rx), rx.Only (fun c => P c = false) → 1 ≤ rx.minLen → ∀ key : Str,
        (match rx.search key with | some m => strip (replaceAll m.text [] key) | none => key).filter P = key.filter P := by
      intro rx ho hl key
      cases hs : rx.search key with
      | none => rfl
      | some m =>
        refine step _ _ ?_ (Rx.search_only ho hs).1
        have := (Rx.search_split hs).2
        intro h0
        rw [h0] at this
        simp at this
        omega
    have idx : ∀ key : Str, (match (Regex.jinjaFunctionIdxAccess.search key).bind (·.group 2) with
        | some i => strip (replaceAll (§"[" ++ i ++ §"]") [] key) | none => key).filter P = key.filter P := by
      intro key
      cases hs : Regex.jinjaFunctionIdxAccess.search key with
      | none => rfl
      | some m =>
        simp only [Option.bind_some]
        cases hg : m.group 2 with
        | none => rfl
        | some i =>
          refine step _ _ (by simp) ?_
          have := (Rx.search_only (Q := fun c => P c = false) (r := Regex.jinjaFunctionIdxAccess) ⟨only_plus hw, (by intro c hc; simp at hc; subst hc; decide), only_plus hdg,
            (by intro c hc; simp at hc; subst hc; decide)⟩ hs).2 2 i hg
          intro c hc
          simp only [List.mem_append, List.mem_cons, List.not_mem_nil, or_false] at hc
          rcases hc with (rfl | hc) | rfl
          · decide
          · exact this c hc
          · decide
    exact (idx _).trans ((cut Regex.jinjaFunctionUpper (only_filter §"upper" hsp (by decide) (by decide)) (by decide) _).trans
      (cut Regex.jinjaFunctionLower (only_filter §"lower" hsp (by decide) (by decide)) (by decide) t))
  have hplus : '+' ∉ (setKeyAndMatches t).1 := by
    intro hm
    have : '+' ∈ (setKeyAndMatches t).1.filter P := List.mem_filter.2 ⟨hm, by decide⟩
    rw [hkey] at this
    exact h.sum (List.mem_filter.1 this).1
  refine ⟨?_, ?_⟩
  · show ((Regex.jinjaFunctionAddConcat.search (setKeyAndMatches t).1).bind _) = none
    rw [needs_search needs_add hplus]
    rfl
  · obtain ⟨c, hc, hcc⟩ := h.more
    have : c ∈ (setKeyAndMatches t).1.filter P := by
      rw [hkey]
      exact List.mem_filter.2 ⟨hc, by simp [P, hcc]⟩
    refine ⟨c, (List.mem_filter.1 this).1, ?_⟩
    simp only [isCallChar, List.mem_cons, List.not_mem_nil, or_false, decide_eq_true_eq] at hcc
    rcases hcc with rfl | rfl | rfl | rfl | rfl | rfl | rfl | rfl | rfl <;> decide

/-! ## The value of an expression -/

theorem evalToken_operand (E : Env) (vars : List (Str × PyVal)) (o : Operand) (ho : o.Ok) (ht : o.Text E) :
    evalJinjaToken E vars o.src = o.value E vars := by
  cases o with
  | plain t =>
    obtain ⟨hne, hc⟩ := ho
    show evalJinjaToken E vars t = _
    unfold evalJinjaToken Operand.value
    show _ = (match lookupD t vars, Operand.plain t with | some v, _ => v | none, .quoted _ t => .str t | none, .plain t => _)
    cases hl : lookupD t vars with
    | some v => rfl
    | none =>
      simp only
      have hd : isDigitS t = true ↔ ∀ c ∈ t, isDigitC c = true := by simp [isDigitS, hne]
      by_cases hall : ∀ c ∈ t, isDigitC c = true
      · rw [if_pos (hd.2 hall), if_pos hall]
      · rw [if_neg (fun h => hall (hd.1 h)), if_neg hall]
        cases E.parseFloat t with
        | some r => rfl
        | none =>
          simp only
          obtain ⟨d, ds, rfl⟩ := List.exists_cons_of_ne_nil hne
          simp only
          rw [if_neg]
          rintro ⟨_, hq⟩
          have := hc d (by simp)
          rcases hq with rfl | rfl <;> (revert this; decide)
  | quoted q t =>
    have hq := ho.1
    show evalJinjaToken E vars (q :: (t ++ [q])) = _
    unfold evalJinjaToken Operand.value
    show _ = (match lookupD (q :: (t ++ [q])) vars, Operand.quoted q t with | some v, _ => v | none, .quoted _ t => .str t | none, .plain t => _)
    cases hl : lookupD (q :: (t ++ [q])) vars with
    | some v => rfl
    | none =>
      have hnd : isDigitS (q :: (t ++ [q])) = false := by
        rcases hq with rfl | rfl <;> simp [isDigitS, isDigitC]
      have hpf : E.parseFloat (q :: (t ++ [q])) = none := ht
      have hl : (q :: (t ++ [q])).getLast? = some q := by
        show ((q :: t) ++ [q]).getLast? = some q
        rw [List.getLast?_append]; rfl
      simp only [hnd, hpf, Bool.false_eq_true, if_false]
      rw [if_pos ⟨hl, hq.symm⟩]
      simp

theorem sum_eq (E : Env) (a b : PyVal) :
    (if isNumeric a && isNumeric b then addNum E a b else §"\"" ++ pyStr a ++ pyStr b ++ §"\"") = Spec.sum E a b := by
  cases a <;> cases b <;> rfl

/-- What one round of the substitution puts in place of a match. -/
def stepValue (E : Env) (c : JinjaCtx) (m : Str) : Option Str :=
  let startIdx := match c.schema with | .v0 => 2 | .v1 => 3
  let key := strip ((m.drop startIdx).dropLast.dropLast)
  let p := setKeyAndMatches key
  match p.2.2.2.2 with
  | some (a, b) =>
    let lhs := evalJinjaToken E c.vars a
    let rhs := evalJinjaToken E c.vars b
    some (if isNumeric lhs && isNumeric rhs then addNum E lhs rhs else §"\"" ++ pyStr lhs ++ pyStr rhs ++ §"\"")
  | none => (lookupD p.1 c.vars).map fun v =>
    let value := pyStr v
    let value := if p.2.1 then lowerS value else value
    let value := if p.2.2.1 then upperS value else value
    match p.2.2.2.1 with
      | some i => match value[natOfStr i]? with | some ch => [ch] | none => value
      | none => value

theorem renderJinjaStep_eq (E : Env) (c : JinjaCtx) (s m : Str) :
    renderJinjaStep E c s m = match stepValue E c m with
      | some v => replaceAll m v s
      | none => if c.schema = .v0 ∧ s.take 2 = §"{{" then '$' :: s else s := by
  unfold renderJinjaStep stepValue
  simp only
  generalize setKeyAndMatches (strip ((m.drop (match c.schema with | .v0 => 2 | .v1 => 3)).dropLast.dropLast)) = p
  obtain ⟨key, lower, upper, idx, add⟩ := p
  cases add with
  | some ab => rfl
  | none =>
    simp only
    cases lookupD key c.vars <;> rfl

theorem expr_clean {e : JExpr} (h : e.Ok) : Clean e.src ∧ e.src ≠ [] ∧ ∀ c ∈ e.src, c ≠ '{' ∧ c ≠ '}' ∧ c ≠ '$' ∧
    (c.isAlphanum || (§"_|'\"()[], =.-~+").contains c) = true := by
  have hop : ∀ o : Operand, o.Ok → o.src ≠ [] ∧ ∀ c ∈ o.src, isSpace c = false ∧ c ≠ '{' ∧ c ≠ '}' ∧ c ≠ '$' ∧
      (c.isAlphanum || (§"_|'\"()[], =.-~+").contains c) = true := by
    intro o ho
    refine ⟨?_, ?_⟩
    · cases o with
      | plain t => exact ho.1
      | quoted q t => simp [Operand.src]
    · intro c hc
      rcases operand_chars ho c hc with h | rfl | rfl | rfl
      · refine ⟨word_space h, word_not h _ (by decide), word_not h _ (by decide), word_not h _ (by decide), ?_⟩
        simp only [isWord, Bool.or_eq_true, beq_iff_eq] at h
        rcases h with h | rfl
        · simp [h]
        · decide
      · decide
      · decide
      · decide
  have hblank : ∀ w : Str, Blank w → ∀ c ∈ w, c ≠ '{' ∧ c ≠ '}' ∧ c ≠ '$' ∧ (c.isAlphanum || (§"_|'\"()[], =.-~+").contains c) = true := by
    intro w hw c hc
    rw [hw c hc]; decide
  have hword : ∀ c, isWord c = true → isSpace c = false ∧ c ≠ '{' ∧ c ≠ '}' ∧ c ≠ '$' ∧
      (c.isAlphanum || (§"_|'\"()[], =.-~+").contains c) = true := by
    intro c h
    refine ⟨word_space h, word_not h _ (by decide), word_not h _ (by decide), word_not h _ (by decide), ?_⟩
    simp only [isWord, Bool.or_eq_true, beq_iff_eq] at h
    rcases h with h | rfl
    · simp [h]
    · decide
  cases e with
  | other t =>
    refine ⟨⟨?_, ?_⟩, h.some, ?_⟩
    · intro c hc
      by_cases hs : isSpace c = true
      · have : c = ' ' := (exprChar_not (h.chars c (List.mem_of_head? hc))).2.2.2.1 hs
        exact absurd (this ▸ hc) h.trimmed.1
      · simpa using hs
    · intro c hc
      by_cases hs : isSpace c = true
      · have : c = ' ' := (exprChar_not (h.chars c (List.mem_of_getLast? hc))).2.2.2.1 hs
        exact absurd (this ▸ hc) h.trimmed.2
      · simpa using hs
    · intro c hc
      obtain ⟨a, b, d, _, e⟩ := exprChar_not (h.chars c hc)
      exact ⟨a, b, d, e⟩
  | call t =>
    refine ⟨⟨?_, ?_⟩, (fun h0 => by obtain ⟨c, hc, _⟩ := h.more; rw [show t = [] from h0] at hc; cases hc), ?_⟩
    · intro c hc
      by_cases hs : isSpace c = true
      · have : c = ' ' := (exprChar_not (h.chars c (List.mem_of_head? hc))).2.2.2.1 hs
        exact absurd (this ▸ hc) h.trimmed.1
      · simpa using hs
    · intro c hc
      by_cases hs : isSpace c = true
      · have : c = ' ' := (exprChar_not (h.chars c (List.mem_of_getLast? hc))).2.2.2.1 hs
        exact absurd (this ▸ hc) h.trimmed.2
      · simpa using hs
    · intro c hc
      obtain ⟨a, b, d, _, e⟩ := exprChar_not (h.chars c hc)
      exact ⟨a, b, d, e⟩
  | add a b w1 w2 =>
    obtain ⟨ha, hb, hw1, hw2⟩ := h
    obtain ⟨ha1, ha2⟩ := hop a ha
    obtain ⟨hb1, hb2⟩ := hop b hb
    refine ⟨⟨?_, ?_⟩, ?_, ?_⟩
    · intro c hc
      obtain ⟨d, ds, hd⟩ := List.exists_cons_of_ne_nil ha1
      simp only [JExpr.src, hd, List.cons_append, List.head?_cons, Option.some.injEq] at hc
      exact (ha2 c (by rw [hd, hc]; simp)).1
    · intro c hc
      simp only [JExpr.src, List.getLast?_append] at hc
      cases hl : b.src.getLast? with
      | none => exact absurd (List.getLast?_eq_none_iff.1 hl) hb1
      | some d =>
        rw [hl] at hc
        simp only [Option.some_or, Option.some.injEq] at hc
        exact (hb2 c (by rw [← hc]; exact List.mem_of_getLast? hl)).1
    · simp [JExpr.src]
    · intro c hc
      simp only [JExpr.src, List.mem_append, List.mem_singleton] at hc
      rcases hc with (((hc | hc) | rfl) | hc) | hc
      · exact (ha2 c hc).2
      · exact hblank _ hw1 c hc
      · decide
      · exact hblank _ hw2 c hc
      · exact (hb2 c hc).2
  | access x idx f w1 w2 =>
    obtain ⟨hx, hxw, hi, hw1, hw2⟩ := h
    have hidx : ∀ c ∈ indexSrc idx, isSpace c = false ∧ c ≠ '{' ∧ c ≠ '}' ∧ c ≠ '$' ∧ (c.isAlphanum || (§"_|'\"()[], =.-~+").contains c) = true := by
      intro c hc
      cases idx with
      | none => cases hc
      | some i =>
        simp only [indexSrc, List.mem_append, List.mem_singleton] at hc
        rcases hc with (rfl | hc) | rfl
        · decide
        · exact hword c (digit_word ((hi i rfl).2 c hc))
        · decide
    have hfil : (∀ c ∈ f.src w1 w2, c ≠ '{' ∧ c ≠ '}' ∧ c ≠ '$' ∧ (c.isAlphanum || (§"_|'\"()[], =.-~+").contains c) = true) ∧
        (f.src w1 w2 = [] ∨ (f.src w1 w2).getLast? = some 'r') := by
      have hlit : ∀ n : Str, (∀ c ∈ n, c ≠ '{' ∧ c ≠ '}' ∧ c ≠ '$' ∧ (c.isAlphanum || (§"_|'\"()[], =.-~+").contains c) = true) →
          ∀ c ∈ w1 ++ §"|" ++ w2 ++ n, c ≠ '{' ∧ c ≠ '}' ∧ c ≠ '$' ∧ (c.isAlphanum || (§"_|'\"()[], =.-~+").contains c) = true := by
        intro n hn c hc
        simp only [List.mem_append, List.mem_singleton] at hc
        rcases hc with ((hc | rfl) | hc) | hc
        · exact hblank _ hw1 c hc
        · decide
        · exact hblank _ hw2 c hc
        · exact hn c hc
      cases f with
      | none => exact ⟨by simp [Filter.src], Or.inl rfl⟩
      | lower => exact ⟨hlit _ (by decide), Or.inr (by rw [Filter.src, List.getLast?_append]; rfl)⟩
      | upper => exact ⟨hlit _ (by decide), Or.inr (by rw [Filter.src, List.getLast?_append]; rfl)⟩
    refine ⟨⟨?_, ?_⟩, ?_, ?_⟩
    · intro c hc
      obtain ⟨d, ds, rfl⟩ := List.exists_cons_of_ne_nil hx
      simp only [JExpr.src, List.cons_append, List.head?_cons, Option.some.injEq] at hc
      exact word_space (hxw c (by rw [hc]; simp))
    · intro c hc
      rcases hfil.2 with h0 | h0
      · simp only [JExpr.src, h0, List.append_nil] at hc
        have := List.mem_of_getLast? hc
        rcases List.mem_append.1 this with h | h
        · exact word_space (hxw c h)
        · exact (hidx c h).1
      · simp only [JExpr.src, List.getLast?_append, h0, Option.some_or, Option.some.injEq] at hc
        rw [← hc]; decide
    · intro h0
      simp only [JExpr.src, List.append_eq_nil_iff] at h0
      exact hx h0.1.1
    · intro c hc
      simp only [JExpr.src, List.mem_append] at hc
      rcases hc with (hc | hc) | hc
      · exact (hword c (hxw c hc)).2
      · exact (hidx c hc).2
      · exact hfil.1 c hc

theorem stepValue_hole (E : Env) (c : JinjaCtx) (w1 : Str) (e : JExpr) (w2 : Str) (h : (Seg.hole w1 e w2).Ok) (ht : e.Text E c.vars) :
    stepValue E c ((Seg.hole w1 e w2).src c.schema) = e.value E c.vars := by
  obtain ⟨hw1, he, hw2⟩ := h
  have hkey : strip ((((Seg.hole w1 e w2).src c.schema).drop (match c.schema with | .v0 => 2 | .v1 => 3)).dropLast.dropLast) = e.src := by
    have hd : (((Seg.hole w1 e w2).src c.schema).drop (match c.schema with | .v0 => 2 | .v1 => 3)) = w1 ++ e.src ++ w2 ++ §"}}" := by
      cases c.schema <;> simp [Seg.src, opening]
    rw [hd]
    have h2 : w1 ++ e.src ++ w2 ++ §"}}" = (w1 ++ e.src ++ w2 ++ ['}']) ++ ['}'] := by simp
    rw [h2, List.dropLast_concat, List.dropLast_concat]
    exact strip_around w1 e.src w2 hw1 hw2 (expr_clean he).1
  unfold stepValue
  simp only [hkey]
  cases e with
  | other t =>
    rw [show (JExpr.other t).src = t from rfl, setKey_other he]
    rfl
  | call t =>
    obtain ⟨h1, d, hd, hdw⟩ := setKey_call he
    rw [show (JExpr.call t).src = t from rfl, h1]
    simp only [JExpr.value]
    cases hl : lookupD (setKeyAndMatches t).1 c.vars with
    | none => rfl
    | some v =>
      have := ht _ _ (lookupD_mem hl) d hd
      rw [hdw] at this
      cases this
  | add a b u1 u2 =>
    rw [setKey_add he]
    simp only [JExpr.value]
    rw [evalToken_operand E c.vars a he.1 ht.1, evalToken_operand E c.vars b he.2.1 ht.2, sum_eq]
  | access x idx f u1 u2 =>
    rw [setKey_access he]
    simp only [JExpr.value]
    congr 1
    funext v
    cases idx with
    | none => cases f <;> rfl
    | some i =>
      have key : ∀ s : Str, (match s[natOfStr i]? with | some ch => [ch] | none => s) = atIndex s (some i) := by
        intro s
        simp only [atIndex]
        by_cases hlt : natOfStr i < s.length
        · rw [dif_pos hlt, List.getElem?_eq_getElem hlt]
        · rw [dif_neg hlt, List.getElem?_eq_none (by omega)]
      cases f <;> exact key _

end Crm
