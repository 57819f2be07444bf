import Verif.Spec.Literal
import Verif.Props.Variables
import Verif.Lemmas.Str

/-! # The values of variables are written as Python literals (C30) -/

namespace Crm
open Spec

theorem reprStr_denotes (s : Str) : Denotes (reprStr s) (.str s) := by
  unfold reprStr
  simp only
  generalize hq : (if s.contains '\'' && !s.contains '"' then '"' else '\'') = q
  have hq' : q = '\'' ∨ q = '"' := by rw [← hq]; split <;> simp
  refine .str hq' ?_
  clear hq
  have hpair : (q, q) ∈ [('\\', '\\'), ('\'', '\''), ('"', '"'), ('n', '\n'), ('r', '\r'), ('t', '\t')] := by
    rcases hq' with rfl | rfl <;> decide
  induction s with
  | nil => exact .nil
  | cons c s ih =>
    rw [List.flatMap_cons]
    by_cases h1 : c = '\\'
    · subst h1; rw [if_pos rfl]; exact .escape (by decide) ih
    rw [if_neg h1]
    by_cases h2 : c = q
    · subst h2; rw [if_pos rfl]; exact .escape hpair ih
    rw [if_neg h2]
    by_cases h3 : c = '\n'
    · subst h3; rw [if_pos rfl]; exact .escape (by decide) ih
    rw [if_neg h3]
    by_cases h4 : c = '\r'
    · subst h4; rw [if_pos rfl]; exact .escape (by decide) ih
    rw [if_neg h4]
    by_cases h5 : c = '\t'
    · subst h5; rw [if_pos rfl]; exact .escape (by decide) ih
    rw [if_neg h5]
    exact .plain h2 h1 h3 h4 ih

theorem pyReprL_join : ∀ xs : List PyVal, pyReprL xs = joinStr §", " (xs.map pyRepr)
  | [] => rfl
  | [x] => by simp [pyReprL, joinStr]
  | x :: y :: l => by simp [pyReprL, joinStr, pyReprL_join (y :: l)]

theorem pyReprD_join : ∀ kvs : List (Str × PyVal), pyReprD kvs = joinStr §", " (kvs.map fun kv => reprStr kv.1 ++ §": " ++ pyRepr kv.2)
  | [] => rfl
  | [x] => by simp [pyReprD, joinStr]
  | x :: y :: l => by simp [pyReprD, joinStr, pyReprD_join (y :: l)]

/-- The text that stands for a value is a Python literal that denotes it. -/
theorem repr_denotes (v : PyVal) (h : Literal v) : Denotes (pyRepr v) v := by
  induction h with
  | str => rw [pyRepr]; exact reprStr_denotes _
  | none => exact .none
  | @bool b => cases b; exact .false; exact .true
  | @int i =>
    rw [pyRepr]
    cases i with
    | ofNat n =>
      have := Denotes.int (natStr_ne_nil n) (isDigitS_natStr n)
      rwa [natOfStr_natStr] at this
    | negSucc n =>
      have := Denotes.negative (natStr_ne_nil (n + 1)) (isDigitS_natStr (n + 1))
      rwa [natOfStr_natStr] at this
  | @list xs _ ih =>
    rw [pyRepr, pyReprL_join]
    have := Denotes.list (xs.map fun x => (pyRepr x, x)) (by
      intro x hx
      obtain ⟨y, hy, rfl⟩ := List.mem_map.1 hx
      exact ih y hy)
    simpa [Function.comp_def] using this
  | @dict kvs _ ih =>
    rw [pyRepr, pyReprD_join]
    have := Denotes.dict (kvs.map fun kv => ((reprStr kv.1, kv.1), (pyRepr kv.2, kv.2))) (by
      intro x hx
      obtain ⟨y, hy, rfl⟩ := List.mem_map.1 hx
      exact reprStr_denotes _) (by
      intro x hx
      obtain ⟨y, hy, rfl⟩ := List.mem_map.1 hx
      exact ih y hy)
    simpa [Function.comp_def] using this

theorem between_plain (q : Char) : ∀ s : Str, (∀ c ∈ s, c ≠ q ∧ c ≠ '\\' ∧ c ≠ '\n' ∧ c ≠ '\r') → Between q s s
  | [], _ => .nil
  | c :: s, h => by
    obtain ⟨h1, h2, h3, h4⟩ := h c (by simp)
    exact .plain h1 h2 h3 h4 (between_plain q s fun d hd => h d (by simp [hd]))

/-- C30 (old format): in the rendered file every variable is defined by one line, in order, and what stands to the
right of the equals sign is a Python literal for the value of the variable.  A text is written between double quotes as
it is, so it must contain no double quote, backslash or line break (see `C30_quoted_text_violation`). -/
theorem C30_v0_literals_partial (r : Recipe) (hs : r.schema = .v0) (hv : ∀ kv ∈ r.vars, Literal kv.2)
    (ht : ∀ k s, (k, .str s) ∈ r.vars → ∀ c ∈ s, c ≠ '"' ∧ c ≠ '\\' ∧ c ≠ '\n' ∧ c ≠ '\r') :
    ∃ (lits : List Str) (body : List Str), lits.length = r.vars.length ∧
      (∀ (i : Nat) (lit : Str) (kv : Str × PyVal), lits[i]? = some lit → r.vars[i]? = some kv → Denotes lit kv.2) ∧
      r.render = joinStr §"\n" ((r.vars.zip lits).map (fun x => §"{% set " ++ x.1.1 ++ §" = " ++ x.2 ++ §" %}") ++
        (if r.vars = [] then [] else [[]]) ++ body) := by
  let lit : PyVal → Str := fun v => match v with
    | .str s => §"\"" ++ s ++ §"\""
    | v => pyStr v
  refine ⟨r.vars.map fun kv => lit kv.2, renderTree (-1) none r.root, by simp, ?_, ?_⟩
  · intro i l kv hl hk
    rw [List.getElem?_map, hk] at hl
    injection hl with hl
    subst hl
    have hm := List.mem_of_getElem? hk
    obtain ⟨k, v⟩ := kv
    cases v with
    | str s =>
      have := Denotes.str (.inr rfl) (between_plain '"' s (ht k s hm))
      simpa [lit] using this
    | _ => exact repr_denotes _ (hv _ hm)
  · have hz : (r.vars.zip (r.vars.map fun kv => lit kv.2)).map
        (fun x => §"{% set " ++ x.1.1 ++ §" = " ++ x.2 ++ §" %}") = r.vars.map fun kv => defLine kv.1 kv.2 := by
      rw [List.zip_map_right, List.zip_eq_zipWith, ]
      generalize r.vars = vs
      induction vs with
      | nil => rfl
      | cons kv vs ih =>
        obtain ⟨k, v⟩ := kv
        simp only [List.zipWith_cons_cons, List.map_cons, List.cons.injEq]
        refine ⟨?_, ih⟩
        cases v <;> simp [defLine, lit]
    simp only [Recipe.render, hs, renderVars_eq, hz]

/-- C30 is false for texts with double quotes: the rendered definition is no literal at all. -/
theorem C30_quoted_text_violation : (exVars.setVariable §"b" (.str §"a\"b")).render =
      §"{% set a = 1 %}\n{% set b = \"a\"b\" %}\n\nfoo: {{ a }}\n" ∧
    ¬ ∃ v, Denotes §"\"a\"b\"" v := by
  refine ⟨by decide +kernel, ?_⟩
  rintro ⟨v, h⟩
  generalize hd : §"\"a\"b\"" = d at h
  cases h with
  | @str q src t hq hb =>
    injection hd with h1 h2
    subst h1
    have h3 : src = §"a\"b" := List.append_cancel_right (bs := ['"']) (h2.symm.trans (by rfl))
    subst h3
    cases hb with
    | plain _ _ _ _ hb =>
      cases hb with
      | plain h => exact h rfl
  | int _ h => subst hd; revert h; decide
  | _ => injection hd with h1; revert h1; decide

/-- A recipe with a list and a mapping among its variables. -/
def exLiterals (r : Recipe) : Recipe :=
  r.setVariable §"pys" (.list [.str §"3.9", .str §"it's", .str §"a\tb", .int (-4), .dict [(§"k", .bool true)], .none])

example : (exLiterals exVars).render =
    §"{% set a = 1 %}\n{% set b = \"x\" %}\n{% set pys = ['3.9', \"it's\", 'a\\tb', -4, {'k': True}, None] %}\n\nfoo: {{ a }}\n" := by
  decide +kernel

example : (exLiterals exVars).schema = .v0 ∧ (exLiterals exVars).vars = [(§"a", .int 1), (§"b", .str §"x"),
    (§"pys", .list [.str §"3.9", .str §"it's", .str §"a\tb", .int (-4), .dict [(§"k", .bool true)], .none])] := by
  decide +kernel

example : Literal (.list [.str §"3.9", .str §"it's", .int (-4), .dict [(§"k", .bool true)], .none]) := by
  refine .list fun x hx => ?_
  simp only [List.mem_cons, List.not_mem_nil, or_false] at hx
  rcases hx with rfl | rfl | rfl | rfl | rfl
  · exact .str
  · exact .str
  · exact .int
  · exact .dict fun kv hkv => by cases List.mem_singleton.1 hkv; exact .bool
  · exact .none

end Crm
