import Verif.Spec.Licence
import Verif.Lemmas.Dict
import Verif.Lemmas.Text
import Verif.Lemmas.Str

/-!
# C53: matching licences with the SPDX database
-/

namespace Crm
open Spec

theorem spdxTable_lookup (db : List License) (tbl : List (Str × Str)) (m a : Str) :
    lookupD m (db.foldl spdxStep tbl) = some a ↔
      Names db m a ∨ ((∀ l ∈ db, m ≠ l.name ∧ m ≠ l.id) ∧ lookupD m tbl = some a) := by
  induction db generalizing tbl with
  | nil => simp [Names]
  | cons l db ih =>
    rw [List.foldl_cons, ih]
    have hstep : lookupD m (spdxStep tbl l) = if m = l.id ∨ m = l.name then some l.id else lookupD m tbl := by
      unfold spdxStep
      rw [lookupD_insertD, lookupD_insertD]
      by_cases h1 : m = l.id <;> by_cases h2 : m = l.name <;> simp [h1, h2]
    constructor
    · rintro (⟨pre, k, post, rfl, hm, ha, hp⟩ | ⟨hn, hl⟩)
      · exact Or.inl ⟨l :: pre, k, post, rfl, hm, ha, hp⟩
      · rw [hstep] at hl
        split at hl
        · rename_i hm
          injection hl with hl
          exact Or.inl ⟨[], l, db, rfl, hm.symm, hl.symm, hn⟩
        · rename_i hm
          refine Or.inr ⟨?_, hl⟩
          intro k hk
          rcases List.mem_cons.1 hk with rfl | hk
          · exact ⟨fun h => hm (Or.inr h), fun h => hm (Or.inl h)⟩
          · exact hn k hk
    · rintro (⟨pre, k, post, heq, hm, ha, hp⟩ | ⟨hn, hl⟩)
      · cases pre with
        | nil =>
          simp only [List.nil_append, List.cons.injEq] at heq
          obtain ⟨rfl, rfl⟩ := heq
          refine Or.inr ⟨hp, ?_⟩
          rw [hstep, if_pos hm.symm, ha]
        | cons p pre =>
          simp only [List.cons_append, List.cons.injEq] at heq
          exact Or.inl ⟨pre, k, post, heq.2, hm, ha, hp⟩
      · have h0 := hn l (List.mem_cons_self ..)
        refine Or.inr ⟨fun k hk => hn k (List.mem_cons_of_mem _ hk), ?_⟩
        rw [hstep, if_neg (by rintro (h | h); exact h0.2 h; exact h0.1 h)]
        exact hl

theorem spdxTable_names (db : List License) (m a : Str) : lookupD m (spdxTable db) = some a ↔ Names db m a := by
  unfold spdxTable
  rw [spdxTable_lookup]
  simp [lookupD]

theorem spdxTable_keys_from (db : List License) (tbl : List (Str × Str)) :
    (db.foldl spdxStep tbl).map (·.1) =
      (db.flatMap fun l => [l.name, l.id]).foldl (fun seen s => if s ∈ seen then seen else seen ++ [s]) (tbl.map (·.1)) := by
  induction db generalizing tbl with
  | nil => rfl
  | cons l db ih =>
    rw [List.foldl_cons, ih]
    simp only [List.flatMap_cons, List.foldl_append, List.foldl_cons, List.foldl_nil]
    unfold spdxStep
    rw [keys_insertD, keys_insertD]

theorem spdxTable_keys (db : List License) : (spdxTable db).map (·.1) = licenceNames db := spdxTable_keys_from db []

theorem inStr_iff {p s : Str} : inStr p s = true ↔ p <:+: s := by
  constructor
  · intro h
    refine Classical.byContradiction fun hn => ?_
    have : inStr p s = false := by
      rw [inStr_false_iff]
      intro a ha hp
      exact hn (hp.isInfix.trans ha.isInfix)
    rw [this] at h
    cases h
  · rintro ⟨a, b, rfl⟩
    cases h : inStr p (a ++ p ++ b) with
    | true => rfl
    | false =>
      rw [inStr_false_iff] at h
      exact absurd (List.prefix_append p b) (h (p ++ b) ⟨a, by simp⟩)

theorem space_toUpper {c : Char} (h : isSpace c = true) : c.toUpper = c := by
  unfold Char.toUpper
  rw [dif_neg]
  rintro ⟨h1, h2⟩
  have h1 : 97 ≤ c.toNat := h1
  have h2 : c.toNat ≤ 122 := h2
  unfold isSpace at h
  simp only [Bool.or_eq_true, Bool.and_eq_true, decide_eq_true_eq, beq_iff_eq] at h
  omega

/-- A text without space is in the upper-case of what is between the space around `s` exactly if some part of `s` is
that text in upper case. -/
theorem inStr_sanitized {p : Str} (s : Str) (hp : ∀ c ∈ p, isSpace c = false) (hne : p ≠ []) :
    inStr p (upperS (strip s)) = true ↔ ∃ a w b, s = a ++ w ++ b ∧ w.map Char.toUpper = p := by
  rw [inStr_iff]
  obtain ⟨x, y, hs, hx, hy⟩ := strip_decomp s
  constructor
  · rintro ⟨a, b, hab⟩
    have hab : (strip s).map Char.toUpper = a ++ p ++ b := hab.symm
    obtain ⟨t1, b', h1, h2, _⟩ := List.map_eq_append_iff.1 hab
    obtain ⟨a', w, h3, _, h5⟩ := List.map_eq_append_iff.1 h2
    exact ⟨x ++ a', w, b' ++ y, by rw [hs, h1, h3]; simp [List.append_assoc], h5⟩
  · rintro ⟨a, w, b, hw, hup⟩
    have key : ∀ c ∈ w, isSpace c = false := by
      intro c hc
      cases h : isSpace c with
      | false => rfl
      | true =>
        have := hp c.toUpper (hup ▸ List.mem_map_of_mem hc)
        rw [space_toUpper h, h] at this
        cases this
    have hwne : w ≠ [] := by rintro rfl; exact hne hup.symm
    -- the part lies between the space around `s`
    have : w <:+: strip s := by
      have heq : x ++ strip s ++ y = a ++ w ++ b := by rw [← hs, hw]
      rw [List.append_assoc, List.append_assoc] at heq
      rcases List.append_eq_append_iff.1 heq with ⟨a', ha, h1⟩ | ⟨c', hc, h1⟩
      · rcases List.append_eq_append_iff.1 h1 with ⟨a'', ha', h2⟩ | ⟨c'', hc', h2⟩
        · -- `w` begins in the space after
          exfalso
          obtain ⟨c, cs, rfl⟩ := List.exists_cons_of_ne_nil hwne
          have h3 : c ∈ y := h2 ▸ by simp
          have := hy c h3
          rw [key c (by simp)] at this
          cases this
        · rcases List.append_eq_append_iff.1 h2 with ⟨u, hu, h3⟩ | ⟨u, hu, h3⟩
          · exact ⟨a', u, by rw [hc', hu]; simp [List.append_assoc]⟩
          · -- `w` ends in the space after
            cases u with
            | nil =>
              simp only [List.append_nil] at hu
              exact ⟨a', [], by rw [hc', hu]; simp⟩
            | cons c u =>
              exfalso
              have h4 : c ∈ y := h3 ▸ by simp
              have := hy c h4
              rw [key c (hu ▸ by simp)] at this
              cases this
      · cases c' with
        | nil =>
          simp only [List.append_nil, List.nil_append] at hc h1
          rcases List.append_eq_append_iff.1 h1 with ⟨u, hu, h3⟩ | ⟨u, hu, h3⟩
          · exact ⟨[], u, by simp [hu]⟩
          · cases u with
            | nil =>
              simp only [List.append_nil] at hu
              exact ⟨[], [], by simp [hu]⟩
            | cons c u =>
              exfalso
              have h4 : c ∈ y := h3 ▸ by simp
              have := hy c h4
              rw [key c (hu ▸ by simp)] at this
              cases this
        | cons c c' =>
          exfalso
          cases w with
          | nil => exact hwne rfl
          | cons d w =>
            simp only [List.cons_append, List.cons.injEq] at h1
            have := hx c (hc ▸ by simp)
            rw [← h1.1, key d (by simp)] at this
            cases this
    obtain ⟨u, v, huv⟩ := this
    refine ⟨u.map Char.toUpper, v.map Char.toUpper, ?_⟩
    unfold upperS
    rw [← huv, List.map_append, List.map_append, hup]

theorem combined_iff (s : Str) : (spdxOps.any (inStr · (upperS (strip s))) = true ∨ inStr §"," (upperS (strip s)) = true) ↔
    LooksCombined s := by
  have comma : (∃ a w b, s = a ++ w ++ b ∧ w.map Char.toUpper = §",") ↔ ∃ a w b, s = a ++ w ++ b ∧ w = §"," := by
    constructor
    · rintro ⟨a, w, b, hs, hw⟩
      refine ⟨a, w, b, hs, ?_⟩
      obtain ⟨c, rfl, hc⟩ := List.map_eq_singleton_iff.1 hw
      have : c = ',' := by
        by_cases hl : 97 ≤ c.toNat ∧ c.toNat ≤ 122
        · exfalso
          have : c.toUpper.toNat = c.toNat - 32 := by
            unfold Char.toUpper
            rw [dif_pos ⟨hl.1, hl.2⟩]
            have h1 : c.val.toNat = c.toNat := rfl
            show (c.val + (65 - 97)).toNat = c.toNat - 32
            rw [UInt32.toNat_add]
            have : ((65 : UInt32) - 97).toNat = 4294967264 := by decide
            rw [this, h1]
            omega
          rw [hc] at this
          have h44 : (',' : Char).toNat = 44 := by decide
          omega
        · have : c.toUpper = c := by
            unfold Char.toUpper
            rw [dif_neg]
            rintro ⟨h1, h2⟩
            exact hl ⟨h1, h2⟩
          rw [← hc, this]
      rw [this]
    · rintro ⟨a, w, b, hs, rfl⟩
      exact ⟨a, _, b, hs, by decide⟩
  simp only [spdxOps, List.any_cons, List.any_nil, Bool.or_false, Bool.or_eq_true]
  rw [inStr_sanitized s (by decide) (by decide), inStr_sanitized s (by decide) (by decide),
    inStr_sanitized s (by decide) (by decide), inStr_sanitized s (by decide) (by decide), comma]
  unfold LooksCombined
  constructor
  · rintro ((⟨a, w, b, hs, h⟩ | ⟨a, w, b, hs, h⟩ | ⟨a, w, b, hs, h⟩) | ⟨a, w, b, hs, h⟩)
    · exact ⟨a, w, b, hs, Or.inl h⟩
    · exact ⟨a, w, b, hs, Or.inr (Or.inl h)⟩
    · exact ⟨a, w, b, hs, Or.inr (Or.inr (Or.inl h))⟩
    · exact ⟨a, w, b, hs, Or.inr (Or.inr (Or.inr h))⟩
  · rintro ⟨a, w, b, hs, h | h | h | h⟩
    · exact Or.inl (Or.inl ⟨a, w, b, hs, h⟩)
    · exact Or.inl (Or.inr (Or.inl ⟨a, w, b, hs, h⟩))
    · exact Or.inl (Or.inr (Or.inr ⟨a, w, b, hs, h⟩))
    · exact Or.inr ⟨a, w, b, hs, h⟩

theorem alias_iff (s a : Str) : lookupD (upperS (strip s)) spdxPatches = some a ↔ Alias s a := by
  obtain ⟨x, y, hs, hx, hy⟩ := strip_decomp s
  constructor
  · intro h
    refine ⟨x, strip s, y, hs, ?_, ?_⟩
    · intro c hc
      rcases List.mem_append.1 hc with hc | hc
      · exact hx c hc
      · exact hy c hc
    · simp only [spdxPatches, lookupD] at h
      split at h
      · rename_i h0
        injection h with h
        exact Or.inl ⟨h0.symm, h.symm⟩
      · split at h
        · rename_i h0
          injection h with h
          exact Or.inr ⟨h0.symm, h.symm⟩
        · cases h
  · rintro ⟨x', w, y', hs', hsp, hw⟩
    have hclean : ∀ p : Str, w.map Char.toUpper = p → (∀ c, p.head? = some c → isSpace c = false) →
        (∀ c, p.getLast? = some c → isSpace c = false) → Clean w := by
      rintro p rfl h1 h2
      have hno : ∀ c : Char, isSpace c.toUpper = false → isSpace c = false := by
        intro c h
        cases hc : isSpace c with
        | false => rfl
        | true => rw [space_toUpper hc, hc] at h; cases h
      refine ⟨fun c hc => hno c (h1 _ ?_), fun c hc => hno c (h2 _ ?_)⟩
      · rw [List.head?_map, hc]; rfl
      · rw [List.getLast?_map, hc]; rfl
    have hst : Clean w → strip s = w := by
      intro hc
      rw [hs']
      exact strip_around x' w y' (fun c h => hsp c (List.mem_append_left _ h)) (fun c h => hsp c (List.mem_append_right _ h)) hc
    rcases hw with ⟨hw, rfl⟩ | ⟨hw, rfl⟩
    · rw [hst (hclean _ hw (by decide) (by decide))]
      show lookupD (w.map Char.toUpper) _ = _
      rw [hw]; decide
    · rw [hst (hclean _ hw (by decide) (by decide))]
      show lookupD (w.map Char.toUpper) _ = _
      rw [hw]; decide

/-- C53: what the answer is, for every text, database and way of finding close matches. -/
theorem C53_answer (close : Str → List Str → List Str) (db : List License) (s a : Str) :
    findLicense close db s = some a ↔
      (IsLicenceId db s ∧ a = s) ∨
      (¬ IsLicenceId db s ∧ ¬ LooksCombined s ∧
        (Alias s a ∨ (¬ ∃ b, Alias s b) ∧ ∃ m, (close s (licenceNames db)).head? = some m ∧ Names db m a)) := by
  unfold findLicense
  have hid : s ∈ spdxIds db ↔ IsLicenceId db s := by simp [spdxIds, IsLicenceId]
  by_cases h1 : IsLicenceId db s
  · rw [if_pos (hid.2 h1)]
    simp [h1, eq_comm]
  · rw [if_neg (fun h => h1 (hid.1 h))]
    simp only [h1, false_and, false_or, not_false_eq_true, true_and]
    by_cases h2 : LooksCombined s
    · simp only [h2, not_true_eq_false, false_and, iff_false]
      rcases (combined_iff s).2 h2 with h | h
      · rw [if_pos h]; simp
      · rw [h]; simp
    · have h3 := fun h => h2 ((combined_iff s).1 h)
      rw [if_neg (fun h => h3 (Or.inl h)), if_neg (fun h => h3 (Or.inr h))]
      simp only [h2, not_false_eq_true, true_and]
      rw [spdxTable_keys]
      cases hl : lookupD (upperS (strip s)) spdxPatches with
      | some b =>
        have hb := (alias_iff s b).1 hl
        rw [← alias_iff, hl]
        have : ∃ b, Alias s b := ⟨b, hb⟩
        simp [this]
      | none =>
        have hn : ¬ ∃ b, Alias s b := by
          rintro ⟨b, hb⟩
          rw [← alias_iff, hl] at hb
          cases hb
        have hna : ¬ Alias s a := fun h => hn ⟨a, h⟩
        simp only [hna, hn, not_false_eq_true, true_and, false_or]
        cases close s (licenceNames db) with
        | nil => simp
        | cons m ms =>
          show lookupD m (spdxTable db) = some a ↔ _
          rw [spdxTable_names]
          simp

/-- C53: an SPDX identifier is returned as it is. -/
theorem C53_identifier (close : Str → List Str → List Str) (db : List License) (l : License) (h : l ∈ db) :
    findLicense close db l.id = some l.id :=
  (C53_answer close db _ _).2 (Or.inl ⟨⟨l, h, rfl⟩, rfl⟩)

/-- C53: every answer is an identifier of the database or what one of the two known mistakes stands for. -/
theorem C53_known (close : Str → List Str → List Str) (db : List License) (s a : Str) (h : findLicense close db s = some a) :
    IsLicenceId db a ∨ a = §"BSD-2-Clause" ∨ a = §"NOASSERTION" := by
  rcases (C53_answer close db s a).1 h with ⟨hi, rfl⟩ | ⟨_, _, ⟨_, _, _, _, _, h⟩ | ⟨_, m, _, h⟩⟩
  · exact Or.inl hi
  · rcases h with h | h
    · exact Or.inr (Or.inl h.2)
    · exact Or.inr (Or.inr h.2)
  · obtain ⟨pre, l, post, rfl, _, rfl, _⟩ := h
    exact Or.inl ⟨l, by simp, rfl⟩

/-- C53: what looks like a combination of licences, and is not an identifier itself, is not matched. -/
theorem C53_combination (close : Str → List Str → List Str) (db : List License) (s : Str) (hn : ¬ IsLicenceId db s)
    (h : LooksCombined s) : findLicense close db s = none := by
  cases ha : findLicense close db s with
  | none => rfl
  | some a =>
    rcases (C53_answer close db s a).1 ha with ⟨hi, _⟩ | ⟨_, hc, _⟩
    · exact absurd hi hn
    · exact absurd h hc

/-- C53 (violation): the answer need not be an SPDX identifier, whatever the database is. -/
theorem C53_unlimited_violation (close : Str → List Str → List Str) (db : List License)
    (hdb : ¬ IsLicenceId db §"Unlimited" ∧ ¬ IsLicenceId db §"NOASSERTION") :
    ∃ a, findLicense close db §"Unlimited" = some a ∧ ¬ IsLicenceId db a := by
  refine ⟨§"NOASSERTION", (C53_answer close db _ _).2 (Or.inr ⟨hdb.1, ?_, Or.inl ?_⟩), hdb.2⟩
  · rw [← combined_iff]; decide
  · rw [← alias_iff]; decide

/-- C53 (violation): a licence is taken for a combination because of letters within a word, so that neither its exact
name nor its identifier in another case is found, however close the match would be. -/
theorem C53_letters_within_a_word_violation (close : Str → List Str → List Str) (db : List License)
    (hdb : ¬ IsLicenceId db §"Borceux license" ∧ ¬ IsLicenceId db §"borceux") :
    findLicense close db §"Borceux license" = none ∧ findLicense close db §"borceux" = none :=
  ⟨C53_combination close db _ hdb.1 ⟨§"B", §"or", §"ceux license", by decide, by decide⟩,
    C53_combination close db _ hdb.2 ⟨§"b", §"or", §"ceux", by decide, by decide⟩⟩

/-- The close matches of the examples: those that differ in the case only. -/
def sameLetters (s : Str) (keys : List Str) : List Str := keys.filter fun k => upperS k = upperS s

/-- A part of the database. -/
def someLicences : List License :=
  [⟨§"MIT", §"MIT License"⟩, ⟨§"Borceux", §"Borceux license"⟩, ⟨§"SMLNJ", §"Standard ML of New Jersey License"⟩,
   ⟨§"StandardML-NJ", §"Standard ML of New Jersey License"⟩, ⟨§"BSD-2-Clause", §"BSD 2-Clause \"Simplified\" License"⟩]

example : findLicense sameLetters someLicences §"mit license" = some §"MIT" ∧ findLicense sameLetters someLicences §"Borceux" = some §"Borceux"
    ∧ findLicense sameLetters someLicences §" bsd 2-clause \"simplified\"" = some §"BSD-2-Clause"
    ∧ findLicense sameLetters someLicences §"MIT or BSD" = none ∧ findLicense sameLetters someLicences §"GPL" = none := by decide +kernel
example : lookupD §"Standard ML of New Jersey License" (spdxTable someLicences) = some §"StandardML-NJ" := by decide +kernel
example : ¬ IsLicenceId someLicences §"Unlimited" ∧ ¬ IsLicenceId someLicences §"NOASSERTION" ∧
    ¬ IsLicenceId someLicences §"Borceux license" ∧ ¬ IsLicenceId someLicences §"borceux" := by
  unfold IsLicenceId; decide +kernel

end Crm
