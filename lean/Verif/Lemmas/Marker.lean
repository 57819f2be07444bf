import Verif.Spec.OneLine
import Verif.Lemmas.RegexLang

/-! # Multi-line markers -/

namespace Crm
open Spec Doc

/-! ## Looking for a marker -/

def markerB (cs : Str) : Bool :=
  (cs.takeWhile isSpace != []) && ((cs.dropWhile isSpace).head? == some '|' || (cs.dropWhile isSpace).head? == some '>')

def noMarkerB : Str → Bool
  | [] => true
  | c :: cs => !(c == ':' && markerB cs) && noMarkerB cs

theorem noMarkerB_sound {t : Str} (h : noMarkerB t = true) : NoMarker t := by
  intro a w m b ht hw hs
  induction a generalizing t with
  | nil =>
    subst ht
    have key : ∀ (m : Char), isSpace m = false → (m = '|' ∨ m = '>') → markerB (w ++ m :: b) = true := by
      intro m hm hm'
      have h1 : (w ++ m :: b).takeWhile isSpace = w := by
        rw [List.takeWhile_append_of_pos hs, List.takeWhile_cons_of_neg (by simp [hm])]
        simp
      have h2 : (w ++ m :: b).dropWhile isSpace = m :: b := by
        rw [List.dropWhile_append_of_pos hs, List.dropWhile_cons_of_neg (by simp [hm])]
      rcases hm' with rfl | rfl <;> simp [markerB, h1, h2, hw]
    simp only [List.nil_append, List.cons_append, noMarkerB, Bool.and_eq_true, Bool.not_eq_true', beq_self_eq_true, Bool.true_and] at h
    refine ⟨?_, ?_⟩
    · rintro rfl; rw [key '|' (by decide) (Or.inl rfl)] at h; exact Bool.noConfusion h.1
    · rintro rfl; rw [key '>' (by decide) (Or.inr rfl)] at h; exact Bool.noConfusion h.1
  | cons d a ih =>
    subst ht
    simp only [List.cons_append, noMarkerB, Bool.and_eq_true] at h
    exact ih (t := a ++ ':' :: w ++ m :: b) (by simpa using h.2) rfl

theorem noMarkerB_complete {t : Str} (h : NoMarker t) : noMarkerB t = true := by
  induction t with
  | nil => rfl
  | cons c cs ih =>
    simp only [noMarkerB, Bool.and_eq_true, Bool.not_eq_true']
    refine ⟨?_, ih fun a w m b ht => h (c :: a) w m b (by rw [ht]; simp)⟩
    cases hb : c == ':' && markerB cs with
    | false => rfl
    | true =>
      exfalso
      simp only [Bool.and_eq_true, beq_iff_eq, markerB, bne_iff_ne, ne_eq, Bool.or_eq_true] at hb
      obtain ⟨rfl, hw, hm⟩ := hb
      have hsplit := (List.takeWhile_append_dropWhile (p := isSpace) (l := cs)).symm
      cases hd : cs.dropWhile isSpace with
      | nil => rw [hd] at hm; simp at hm
      | cons m b =>
        rw [hd] at hm hsplit
        have := h [] (cs.takeWhile isSpace) m b (by simpa using hsplit) hw (fun c hc => List.all_eq_true.1 List.all_takeWhile c hc)
        simp only [List.head?_cons, Option.some.injEq] at hm
        exact hm.elim this.1 this.2

instance (t : Str) : Decidable (NoMarker t) := decidable_of_iff (noMarkerB t = true) ⟨noMarkerB_sound, noMarkerB_complete⟩

/-! ## The regular expression -/

theorem lang_multiline {t : Str} (h : Regex.multiline.Lang [] t) :
    ∃ a w m b, t = a ++ ':' :: w ++ m :: b ∧ w ≠ [] ∧ (∀ c ∈ w, isSpace c = true) ∧ (m = '|' ∨ m = '>') := by
  obtain ⟨t1, r1, rfl, h1, t2, r2, rfl, h2, t3, r3, rfl, h3, t4, r4, rfl, h4, t5, r5, rfl, h5, _⟩ := h
  rw [Rx.lang_chr] at h3
  have h4' := (Rx.lang_plus_cls isSpace _ _).1 h4
  obtain ⟨m, rfl, hm⟩ := (h5 : ∃ c, t5 = [c] ∧ _)
  subst h3
  refine ⟨t1 ++ t2, t4, m, r5, by simp, h4'.1, h4'.2, ?_⟩
  simpa using hm

theorem marker_none_line {text : Str} (h : NoMarker text) : Regex.multiline.matchStart text = none := by
  cases hm : Regex.multiline.matchStart text with
  | none => rfl
  | some m =>
    exfalso
    obtain ⟨t, post, rfl, hl⟩ := (Rx.matchStart_iff _ _).1 (by rw [hm]; rfl)
    obtain ⟨a, w, x, b, rfl, hw, hsp, hx⟩ := lang_multiline hl
    have := h a w x (b ++ post) (by simp) hw hsp
    exact hx.elim this.1 this.2

end Crm
