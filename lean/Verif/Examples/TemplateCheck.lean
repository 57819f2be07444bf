import Verif.Spec.Template

/-! # A check for texts with expressions, used by the examples -/

namespace Crm
open Spec

def operandB (o : Operand) : Bool :=
  match o with
  | .plain t => !t.isEmpty && t.all (fun c => isWord c || c == '.')
  | .quoted q t => (q == '"' || q == '\'') && !t.isEmpty && t.all (fun c => isWord c || c == '.')

def exprB (e : JExpr) : Bool :=
  match e with
  | .access x idx _ w1 w2 => !x.isEmpty && x.all isWord && (match idx with | none => true | some i => !i.isEmpty && i.all isDigitC) &&
      w1.all (· == ' ') && w2.all (· == ' ')
  | .add a b w1 w2 => operandB a && operandB b && w1.all (· == ' ') && w2.all (· == ' ')
  | .other t => !t.isEmpty && t.all isExprChar && t.head? != some ' ' && t.getLast? != some ' ' && !decide (§"lower" <:+: t) &&
      !decide (§"upper" <:+: t) && t.all (fun c => decide (¬ [c, '['] <:+: t) || !isWord c) && !t.contains '+'
  | .call t => t.all isExprChar && t.head? != some ' ' && t.getLast? != some ' ' && t.any isCallChar && !t.contains '+'

def textB (E : Env) (o : Operand) : Bool :=
  match o with
  | .plain _ => true
  | .quoted q t => decide (E.parseFloat (q :: t ++ [q]) = none)

def exprTextB (E : Env) (vars : List (Str × PyVal)) (e : JExpr) : Bool :=
  match e with
  | .access _ _ _ _ _ => true
  | .add a b _ _ => textB E a && textB E b
  | .other _ => true
  | .call _ => vars.all fun xv => xv.1.all isWord

def segB (E : Env) (vars : List (Str × PyVal)) (s : Seg) : Bool :=
  match s with
  | .text t => !t.contains '{'
  | .hole w1 e w2 => w1.all isSpace && exprB e && w2.all isSpace && exprTextB E vars e &&
      (match e.value E vars with | none => true | some t => !t.contains '{')

theorem operandB_sound {o : Operand} (h : operandB o = true) : o.Ok := by
  cases o with
  | plain t =>
    simp only [operandB, Bool.and_eq_true, Bool.not_eq_true', List.isEmpty_eq_false_iff, List.all_eq_true, Bool.or_eq_true, beq_iff_eq] at h
    exact h
  | quoted q t =>
    simp only [operandB, Bool.and_eq_true, Bool.not_eq_true', List.isEmpty_eq_false_iff, List.all_eq_true, Bool.or_eq_true, beq_iff_eq] at h
    exact ⟨h.1.1, h.1.2, h.2⟩

theorem exprB_sound {e : JExpr} (h : exprB e = true) : e.Ok := by
  cases e with
  | access x idx f w1 w2 =>
    simp only [exprB, Bool.and_eq_true, Bool.not_eq_true', List.isEmpty_eq_false_iff, List.all_eq_true, beq_iff_eq] at h
    obtain ⟨⟨⟨⟨h1, h2⟩, h3⟩, h4⟩, h5⟩ := h
    refine ⟨h1, h2, ?_, h4, h5⟩
    rintro i rfl
    simpa using h3
  | other t =>
    simp only [exprB, Bool.and_eq_true, Bool.not_eq_true', List.isEmpty_eq_false_iff, List.all_eq_true, bne_iff_ne,
      decide_eq_false_iff_not, List.contains_eq_mem] at h
    obtain ⟨⟨⟨⟨⟨⟨⟨h1, h2⟩, h3⟩, h4⟩, h5⟩, h6⟩, h7⟩, h8⟩ := h
    refine ⟨h1, h2, ⟨h3, h4⟩, fun w _ => ⟨?_, ?_⟩, ?_, ?_⟩
    · rintro ⟨a, b, hab⟩
      exact h5 ⟨a ++ '|' :: w, b, by rw [← hab]; simp⟩
    · rintro ⟨a, b, hab⟩
      exact h6 ⟨a ++ '|' :: w, b, by rw [← hab]; simp⟩
    · rintro c i hc _ _ ⟨a, b, hab⟩
      have := h7 c (by rw [← hab]; simp)
      rw [hc] at this
      simp only [Bool.not_true, Bool.or_false, decide_eq_true_eq] at this
      exact this ⟨a, i ++ §"]" ++ b, by rw [← hab]; simp⟩
    · rintro a b q1 q2 w1 w2 _ _ _ _ _ _ ⟨x, y, hxy⟩
      exact h8 (by rw [← hxy]; simp)
  | call t =>
    simp only [exprB, Bool.and_eq_true, Bool.not_eq_true', List.all_eq_true, bne_iff_ne, decide_eq_false_iff_not,
      List.contains_eq_mem, List.any_eq_true] at h
    obtain ⟨⟨⟨⟨h1, h2⟩, h3⟩, h4⟩, h5⟩ := h
    exact ⟨h1, ⟨h2, h3⟩, h4, h5⟩
  | add a b w1 w2 =>
    simp only [exprB, Bool.and_eq_true, List.all_eq_true, beq_iff_eq] at h
    obtain ⟨⟨⟨h1, h2⟩, h3⟩, h4⟩ := h
    exact ⟨operandB_sound h1, operandB_sound h2, h3, h4⟩

theorem textB_sound {E : Env} {o : Operand} (h : textB E o = true) : o.Text E := by
  cases o with
  | plain t => trivial
  | quoted q t => simpa [textB, Operand.Text] using h

theorem segB_sound {E : Env} {vars : List (Str × PyVal)} {segs : List Seg} (h : segs.all (segB E vars) = true) : Template E vars segs := by
  rw [List.all_eq_true] at h
  constructor
  · intro s hs
    have := h s hs
    cases s with
    | text t =>
      simp only [segB, Bool.not_eq_true', List.contains_eq_mem, decide_eq_false_iff_not] at this
      exact this
    | hole w1 e w2 =>
      simp only [segB, Bool.and_eq_true, List.all_eq_true] at this
      exact ⟨this.1.1.1.1, exprB_sound this.1.1.1.2, this.1.1.2⟩
  · intro w1 e w2 hs
    have := h _ hs
    simp only [segB, Bool.and_eq_true, List.all_eq_true] at this
    obtain ⟨⟨_, h2⟩, h3⟩ := this
    constructor
    · cases e with
      | access x idx f w1 w2 => trivial
      | other t => trivial
      | call t =>
        simp only [exprTextB, List.all_eq_true] at h2
        exact fun x v hx c hc => h2 _ hx c hc
      | add a b w1 w2 =>
        simp only [exprTextB, Bool.and_eq_true] at h2
        exact ⟨textB_sound h2.1, textB_sound h2.2⟩
    · intro t ht
      rw [ht] at h3
      simpa using h3

end Crm
