import Verif.Model.Str

/-! Helper lemmas about strings. -/

namespace Crm

theorem joinStr_append (sep : Str) (ps qs : List Str) (hp : ps ≠ []) (hq : qs ≠ []) :
    joinStr sep (ps ++ qs) = joinStr sep ps ++ sep ++ joinStr sep qs := by
  induction ps with
  | nil => exact absurd rfl hp
  | cons p ps ih =>
    cases ps with
    | nil => cases qs with
      | nil => exact absurd rfl hq
      | cons q qs => simp [joinStr]
    | cons p' ps => simp only [List.cons_append, joinStr]; rw [← List.cons_append, ih (by simp)]; simp

theorem joinStr_cons (sep p : Str) (ps : List Str) (h : ps ≠ []) : joinStr sep (p :: ps) = p ++ sep ++ joinStr sep ps := by
  cases ps with
  | nil => exact absurd rfl h
  | cons q qs => rfl

theorem splitChar_ne_nil (sep : Char) (s : Str) : splitChar sep s ≠ [] := by
  induction s with
  | nil => simp [splitChar]
  | cons c cs ih =>
    simp only [splitChar]
    split
    · simp
    · split <;> simp

theorem splitChar_append_sep (sep : Char) (a : Str) (ha : sep ∉ a) (s : Str) :
    splitChar sep (a ++ sep :: s) = a :: splitChar sep s := by
  induction a with
  | nil => simp [splitChar]
  | cons c cs ih =>
    simp only [List.mem_cons, not_or] at ha
    simp only [List.cons_append, splitChar]
    rw [if_neg (fun h => ha.1 h.symm), ih ha.2]

theorem splitChar_of_not_mem (sep : Char) (a : Str) (ha : sep ∉ a) : splitChar sep a = [a] := by
  induction a with
  | nil => rfl
  | cons c cs ih =>
    simp only [List.mem_cons, not_or] at ha
    simp only [splitChar]
    rw [if_neg (fun h => ha.1 h.symm), ih ha.2]

/-- Splitting a joined list of separator-free parts gives the parts back. -/
theorem splitChar_join (sep : Char) (ps : List Str) (h : ps ≠ []) (hs : ∀ p ∈ ps, sep ∉ p) :
    splitChar sep (joinStr [sep] ps) = ps := by
  induction ps with
  | nil => exact absurd rfl h
  | cons p ps ih =>
    cases ps with
    | nil => simpa [joinStr] using splitChar_of_not_mem sep p (hs p (by simp))
    | cons q qs =>
      simp only [joinStr, List.append_assoc, List.singleton_append]
      rw [splitChar_append_sep sep p (hs p (by simp)), ih (by simp) (fun x hx => hs x (by simp [hx]))]

/-- Splitting and joining is the identity. -/
theorem join_splitChar (sep : Char) (s : Str) : joinStr [sep] (splitChar sep s) = s := by
  induction s with
  | nil => rfl
  | cons c cs ih =>
    simp only [splitChar]
    split
    · rename_i h; rw [joinStr_cons _ _ _ (splitChar_ne_nil _ _), ih]; simp [h]
    · split
      · rename_i h; exact absurd h (splitChar_ne_nil _ _)
      · rename_i p ps h
        rw [h] at ih
        cases ps with
        | nil => simp [joinStr] at ih ⊢; exact ih
        | cons q qs => simp only [joinStr, List.cons_append] at ih ⊢; rw [ih]

theorem splitChar_no_sep (sep : Char) (s : Str) : ∀ p ∈ splitChar sep s, sep ∉ p := by
  induction s with
  | nil => simp [splitChar]
  | cons c cs ih =>
    simp only [splitChar]
    by_cases hc : c = sep
    · simpa [hc] using ih
    · rw [if_neg hc]
      cases heq : splitChar sep cs with
      | nil => exact absurd heq (splitChar_ne_nil _ _)
      | cons p ps =>
        rw [heq] at ih
        intro q hq
        rcases List.mem_cons.1 hq with rfl | hq
        · simp only [List.mem_cons, not_or]
          exact ⟨fun h' => hc h'.symm, ih p (by simp)⟩
        · exact ih q (by simp [hq])

/-! ### Decimal numbers -/

theorem digitChar_isDigit (n : Nat) (h : n < 10) : isDigitC (digitChar n) = true := by
  have : ∀ n < 10, isDigitC (digitChar n) = true := by decide
  exact this n h

theorem digitVal_digitChar (n : Nat) (h : n < 10) : digitVal (digitChar n) = n := by
  have : ∀ n < 10, digitVal (digitChar n) = n := by decide
  exact this n h

theorem natStrGo_digits (fuel n : Nat) (acc : Str) (hacc : ∀ c ∈ acc, isDigitC c = true) :
    ∀ c ∈ natStrGo fuel n acc, isDigitC c = true := by
  induction fuel generalizing n acc with
  | zero => exact hacc
  | succ f ih =>
    simp only [natStrGo]
    split
    · rename_i h
      intro c hc
      rcases List.mem_cons.1 hc with rfl | hc
      · exact digitChar_isDigit n h
      · exact hacc c hc
    · apply ih
      intro c hc
      rcases List.mem_cons.1 hc with rfl | hc
      · exact digitChar_isDigit _ (Nat.mod_lt _ (by decide))
      · exact hacc c hc

theorem natStrGo_ne_nil (fuel n : Nat) (acc : Str) (h : fuel ≠ 0) : natStrGo fuel n acc ≠ [] := by
  induction fuel generalizing n acc with
  | zero => exact absurd rfl h
  | succ f ih =>
    simp only [natStrGo]
    split
    · simp
    · cases f with
      | zero => simp [natStrGo]
      | succ f => exact ih _ _ (by simp)

/-- `str(n).isdigit()` holds. -/
theorem isDigitS_natStr (n : Nat) : isDigitS (natStr n) = true := by
  simp only [isDigitS, Bool.and_eq_true, Bool.not_eq_true', List.all_eq_true]
  refine ⟨?_, natStrGo_digits _ _ _ (by simp)⟩
  have := natStrGo_ne_nil (n + 1) n [] (by simp)
  cases h : natStr n with
  | nil => exact absurd h this
  | cons => rfl

theorem foldl_digits (f : Nat) : ∀ (n : Nat) (acc : Str), n < f →
    (natStrGo f n acc).foldl (fun a c => a * 10 + digitVal c) 0 = acc.foldl (fun a c => a * 10 + digitVal c) n := by
  induction f with
  | zero => intro n acc h; omega
  | succ f ih =>
    intro n acc h
    simp only [natStrGo]
    split
    · rename_i hn; simp [digitVal_digitChar n hn]
    · rename_i hn
      rw [ih _ _ (by omega)]
      simp only [List.foldl_cons, digitVal_digitChar _ (Nat.mod_lt n (by decide))]
      congr 1; omega

/-- `int(str(n)) == n`. -/
theorem natOfStr_natStr (n : Nat) : natOfStr (natStr n) = n := by
  simpa [natOfStr, natStr] using foldl_digits (n + 1) n [] (by omega)

theorem natStr_injective {m n : Nat} (h : natStr m = natStr n) : m = n := by
  rw [← natOfStr_natStr m, h, natOfStr_natStr]

theorem natStr_ne_nil (n : Nat) : natStr n ≠ [] := natStrGo_ne_nil _ _ _ (by simp)

theorem natStr_no_slash (n : Nat) : '/' ∉ natStr n := by
  intro h
  have := natStrGo_digits (n + 1) n [] (by simp) '/' h
  revert this; decide

/-! ### Prefix, strip -/

theorem isPrefixOf_append_self (p s : Str) : p.isPrefixOf (p ++ s) = true := by simp

theorem dropWhile_all {p : Char → Bool} {a : Str} (h : ∀ c ∈ a, p c = true) (b : Str) :
    (a ++ b).dropWhile p = b.dropWhile p := by
  induction a with
  | nil => rfl
  | cons c cs ih => simp [h c (by simp), ih (fun x hx => h x (by simp [hx]))]

theorem takeWhile_all {p : Char → Bool} {a : Str} (h : ∀ c ∈ a, p c = true) : a.takeWhile p = a := by
  induction a with
  | nil => rfl
  | cons c cs ih => simp [h c (by simp), ih (fun x hx => h x (by simp [hx]))]

theorem dropWhile_head {p : Char → Bool} {c : Char} {s : Str} (h : p c = false) :
    (c :: s).dropWhile p = c :: s := by simp [h]

theorem lstrip_cons {c : Char} {s : Str} (h : isSpace c = false) : lstrip (c :: s) = c :: s := dropWhile_head h

theorem rstrip_append_nonspace {s : Str} {c : Char} (h : isSpace c = false) : rstrip (s ++ [c]) = s ++ [c] := by
  simp [rstrip, h]

theorem rstrip_append_spaces (s t : Str) (h : ∀ c ∈ t, isSpace c = true) : rstrip (s ++ t) = rstrip s := by
  simp only [rstrip, List.reverse_append]
  rw [dropWhile_all (fun c hc => h c (List.mem_reverse.1 hc))]

theorem rstrip_prefix (s : Str) : ∃ t, s = rstrip s ++ t ∧ ∀ c ∈ t, isSpace c = true := by
  refine ⟨(s.reverse.takeWhile isSpace).reverse, ?_, ?_⟩
  · have := List.takeWhile_append_dropWhile (p := isSpace) (l := s.reverse)
    have h2 := congrArg List.reverse this
    simp only [List.reverse_append, List.reverse_reverse] at h2
    exact h2.symm
  · intro c hc
    rw [List.mem_reverse] at hc
    exact List.all_eq_true.1 (List.all_takeWhile) c hc

/-- Text without white space at either end. -/
def Clean (s : Str) : Prop := (∀ c, s.head? = some c → isSpace c = false) ∧ (∀ c, s.getLast? = some c → isSpace c = false)

theorem clean_nil : Clean [] := ⟨by simp, by simp⟩

theorem lstrip_clean {s : Str} (h : ∀ c, s.head? = some c → isSpace c = false) : lstrip s = s := by
  cases s with
  | nil => rfl
  | cons c cs => exact lstrip_cons (h c rfl)

theorem rstrip_clean {s : Str} (h : ∀ c, s.getLast? = some c → isSpace c = false) : rstrip s = s := by
  by_cases hs : s = []
  · subst hs; rfl
  · have hd := List.dropLast_concat_getLast hs
    rw [← hd]
    exact rstrip_append_nonspace (h _ (List.getLast?_eq_some_getLast hs))

theorem strip_clean {s : Str} (h : Clean s) : strip s = s := by
  unfold strip
  rw [lstrip_clean h.1, rstrip_clean h.2]

/-- `strip` removes white space around a clean core. -/
theorem strip_around (a b c : Str) (ha : ∀ x ∈ a, isSpace x = true) (hc : ∀ x ∈ c, isSpace x = true) (hb : Clean b) :
    strip (a ++ b ++ c) = b := by
  unfold strip lstrip
  rw [List.append_assoc, dropWhile_all ha]
  cases b with
  | nil =>
    simp only [List.nil_append]
    have : c.dropWhile isSpace = [] := by
      have := dropWhile_all hc []
      simpa using this
    rw [this]; rfl
  | cons x xs =>
    rw [List.cons_append, dropWhile_head (hb.1 x rfl), ← List.cons_append, rstrip_append_spaces _ _ hc,
      rstrip_clean hb.2]

theorem head?_dropWhile_space (s : Str) : ∀ c, (s.dropWhile isSpace).head? = some c → isSpace c = false := by
  intro c hc
  have := List.head?_dropWhile_not isSpace s
  rw [hc] at this
  simpa using this

theorem strip_is_clean (s : Str) : Clean (strip s) := by
  constructor
  · intro c hc
    unfold strip at hc
    obtain ⟨t, ht, _⟩ := rstrip_prefix (lstrip s)
    apply head?_dropWhile_space s c
    show (lstrip s).head? = some c
    rw [ht]
    cases h : rstrip (lstrip s) with
    | nil => rw [h] at hc; simp at hc
    | cons d ds => rw [h] at hc; simpa using hc
  · intro c hc
    unfold strip rstrip at hc
    rw [List.getLast?_reverse] at hc
    exact head?_dropWhile_space _ c hc

theorem strip_strip (s : Str) : strip (strip s) = strip s := strip_clean (strip_is_clean s)

theorem strip_decomp (s : Str) : ∃ a c, s = a ++ strip s ++ c ∧ (∀ x ∈ a, isSpace x = true) ∧ ∀ x ∈ c, isSpace x = true := by
  obtain ⟨t, ht, hs⟩ := rstrip_prefix (lstrip s)
  refine ⟨s.takeWhile isSpace, t, ?_, fun c hc => List.all_eq_true.1 (List.all_takeWhile) c hc, hs⟩
  unfold strip
  rw [List.append_assoc, ← ht]
  exact (List.takeWhile_append_dropWhile (p := isSpace) (l := s)).symm

end Crm
