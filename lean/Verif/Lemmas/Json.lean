import Verif.Spec.Json
import Verif.Model.Value

namespace Crm
open Spec

theorem hex_digit (k : Nat) (h : k < 16) :
    hexVal (if k < 10 then Char.ofNat (48 + k) else Char.ofNat (87 + k)) = some k := by
  have : ∀ k < 16, hexVal (if k < 10 then Char.ofNat (48 + k) else Char.ofNat (87 + k)) = some k := by decide
  exact this k h

theorem hex4_units (n : Nat) (h : n < 65536) (rest : Str) :
    jsonUnits ('\\' :: 'u' :: (hex4 n ++ rest)) = (jsonUnits rest).map (n :: ·) := by
  simp only [hex4, List.cons_append, List.nil_append]
  rw [jsonUnits]
  rw [hex_digit _ (Nat.mod_lt _ (by decide)), hex_digit _ (Nat.mod_lt _ (by decide)),
    hex_digit _ (Nat.mod_lt _ (by decide)), hex_digit _ (Nat.mod_lt _ (by decide))]
  simp only
  have : ((n / 4096 % 16 * 16 + n / 256 % 16) * 16 + n / 16 % 16) * 16 + n % 16 = n := by omega
  rw [this]

theorem char_valid (c : Char) : c.toNat < 55296 ∨ (57343 < c.toNat ∧ c.toNat < 1114112) := by
  have h : c.val.toNat < 0xD800 ∨ (0xDFFF < c.val.toNat ∧ c.val.toNat < 0x110000) := c.valid
  exact h

theorem jsonChar_units (c : Char) (rest : Str) (hr : rest ≠ []) :
    jsonUnits (jsonChar c ++ rest) = (jsonUnits rest).map (utf16 c ++ ·) := by
  have hv := char_valid c
  unfold jsonChar
  split
  · rename_i h; subst h; simp [jsonUnits, utf16]
  split
  · rename_i h; subst h; simp [jsonUnits, utf16]
  split
  · rename_i h; subst h; simp [jsonUnits, utf16]
  split
  · rename_i h; subst h; simp [jsonUnits, utf16]
  split
  · rename_i h; subst h; simp [jsonUnits, utf16]
  split
  · rename_i h; simp [jsonUnits, utf16, h]
  split
  · rename_i h; simp [jsonUnits, utf16, h]
  split
  · rename_i h1 h2 _ _ _ _ _ h
    obtain ⟨d, ds, rfl⟩ := List.exists_cons_of_ne_nil hr
    simp only [List.cons_append, List.nil_append]
    rw [jsonUnits.eq_def]
    split
    · simp at *
    · rename_i heq; simp at heq
    · rename_i heq; simp at heq; exact absurd heq.1 h2
    · rename_i heq; simp at heq; exact absurd heq.1 h2
    · rename_i c' rest' _ _ _ heq
      simp at heq
      obtain ⟨rfl, rfl⟩ := heq
      have hno : ¬(c = '"' ∨ c = '\\' ∨ c.toNat < 32) := by
        rintro (h' | h' | h')
        · exact h1 h'
        · exact h2 h'
        · omega
      rw [if_neg hno]
  split
  · rename_i h
    rw [List.append_assoc]
    show jsonUnits ('\\' :: 'u' :: (hex4 c.toNat ++ rest)) = _
    rw [hex4_units _ h]
    simp [utf16, h]
  · rename_i h
    have e1 : 55296 + (c.toNat - 65536) / 1024 < 65536 := by omega
    have e2 : 56320 + (c.toNat - 65536) % 1024 < 65536 := by omega
    simp only [List.append_assoc]
    show jsonUnits ('\\' :: 'u' :: (hex4 _ ++ ('\\' :: 'u' :: (hex4 _ ++ rest)))) = _
    rw [hex4_units _ e1, hex4_units _ e2]
    simp [utf16, h, Function.comp_def]

theorem flatMap_units (s : Str) : jsonUnits (s.flatMap jsonChar ++ ['"']) = some (s.flatMap utf16) := by
  induction s with
  | nil => rfl
  | cons c cs ih =>
    simp only [List.flatMap_cons, List.append_assoc]
    rw [jsonChar_units c _ (by simp), ih]
    rfl

theorem decode16_utf16 (c : Char) (us : List Nat) : decode16 (utf16 c ++ us) = c :: decode16 us := by
  have hv := char_valid c
  unfold utf16
  split
  · rename_i h
    cases us with
    | nil => simp [decode16, Char.ofNat_toNat]
    | cons v vs =>
      simp only [List.cons_append, List.nil_append, decode16]
      rw [if_neg (by omega), Char.ofNat_toNat]
  · rename_i h
    simp only [List.cons_append, List.nil_append, decode16]
    rw [if_pos (by omega)]
    have : 65536 + (55296 + (c.toNat - 65536) / 1024 - 55296) * 1024
        + (56320 + (c.toNat - 65536) % 1024 - 56320) = c.toNat := by omega
    rw [this, Char.ofNat_toNat]

theorem decode16_flatMap (s : Str) : decode16 (s.flatMap utf16) = s := by
  induction s with
  | nil => rfl
  | cons c cs ih => simp only [List.flatMap_cons]; rw [decode16_utf16, ih]

theorem jsonString_dumps (s : Str) : jsonString (jsonDumpsStr s) = some s := by
  simp only [jsonString, jsonDumpsStr]
  rw [flatMap_units]
  simp [decode16_flatMap]

end Crm
