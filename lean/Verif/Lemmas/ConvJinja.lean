import Verif.Spec.ConvJinja
import Verif.Lemmas.NodeEdits
import Verif.Lemmas.ConvSteps
import Verif.Lemmas.RegexLang
import Verif.Lemmas.DocVars
import Verif.Props.Queries
import Verif.Props.Utils
import Verif.Props.PatchEdit

/-! # Conversion of variables and substitutions -/

namespace Crm
open Spec Act

/-! ## Expressions -/

theorem searchAny_iff (rs : List Rx) (s : Str) : searchAnyRegex rs s = true ↔ ∃ r ∈ rs, r.test s = true := by
  simp [searchAnyRegex]

theorem test_has (r : Rx) (p : Str → Prop) (h : ∀ bef t, r.Lang bef t ↔ p t) (s : Str) : r.test s = true ↔ HasPart p s := by
  rw [Rx.test_iff]
  constructor
  · rintro ⟨a, t, b, h1, h2⟩; exact ⟨a, t, b, h1, (h _ _).1 h2⟩
  · rintro ⟨a, t, b, h1, h2⟩; exact ⟨a, t, b, h1, (h _ _).2 h2⟩

theorem lang_dots (bef t : Str) : (Rx.star Rx.dot).Lang bef t ↔ NoBreak t := by
  rw [Rx.dot, Rx.lang_star_cls]
  simp only [NoBreak, bne_iff_ne]
  constructor
  · intro h hn; exact h _ hn rfl
  · rintro h c hc rfl; exact h hc

theorem lang_spaces (bef t : Str) : (Rx.star Rx.ws).Lang bef t ↔ Only isSpace t := Rx.lang_star_cls _ _ _

theorem lang_oneOf (q : Str) (bef t : Str) : (Rx.oneOf q).Lang bef t ↔ ∃ c ∈ q, t = [c] := by
  simp only [Rx.oneOf, Rx.Lang, List.contains_iff_mem]
  constructor
  · rintro ⟨c, h1, h2⟩; exact ⟨c, h2, h1⟩
  · rintro ⟨c, h2, h1⟩; exact ⟨c, h1, h2⟩

theorem lang_filter (name bef t : Str) :
    (Rx.cat [Rx.chr '|', .star Rx.ws, .grp 1 (Rx.lit name)]).Lang bef t ↔ ∃ w, Only isSpace w ∧ t = '|' :: w ++ name := by
  simp only [Rx.cat, Rx.Lang, Rx.lang_chr, Rx.lang_lit]
  constructor
  · rintro ⟨u, v, rfl, rfl, x, y, rfl, h, rfl⟩; exact ⟨x, (lang_spaces _ _).1 h, by simp⟩
  · rintro ⟨w, h, rfl⟩; exact ⟨§"|", w ++ name, rfl, rfl, w, name, rfl, (lang_spaces _ _).2 h, rfl⟩

theorem lang_replace (bef t : Str) : Regex.jinjaFunctionReplace.Lang bef t ↔ ReplaceUse t := by
  simp only [Regex.jinjaFunctionReplace, Rx.cat, Rx.Lang, Rx.lang_chr, Rx.lang_lit, ReplaceUse]
  constructor
  · rintro ⟨_, _, rfl, rfl, w, _, rfl, h, _, _, rfl, rfl, _, _, rfl, rfl, x, _, rfl, hx, rfl⟩
    exact ⟨w, x, (lang_spaces _ _).1 h, (lang_dots _ _).1 hx, by simp⟩
  · rintro ⟨w, x, h, hx, rfl⟩
    exact ⟨§"|", w ++ (§"replace" ++ (§"(" ++ (x ++ §")"))), by simp, rfl, w, _, rfl, (lang_spaces _ _).2 h, _, _, rfl, rfl, _, _, rfl, rfl,
      x, _, rfl, (lang_dots _ _).2 hx, rfl⟩

theorem lang_index (bef t : Str) : Regex.jinjaFunctionIdxAccess.Lang bef t ↔ IndexUse t := by
  simp only [Regex.jinjaFunctionIdxAccess, Rx.cat, Rx.Lang, Rx.lang_chr, IndexUse, Rx.word, Rx.digit, Rx.lang_plus_cls]
  constructor
  · rintro ⟨n, _, rfl, ⟨h1, h2⟩, _, _, rfl, rfl, d, _, rfl, ⟨h3, h4⟩, rfl⟩
    exact ⟨n, d, h1, h2, h3, h4, by simp⟩
  · rintro ⟨n, d, h1, h2, h3, h4, rfl⟩
    exact ⟨n, §"[" ++ (d ++ §"]"), by simp, ⟨h1, h2⟩, _, _, rfl, rfl, d, _, rfl, ⟨h3, h4⟩, rfl⟩

theorem lang_quote (bef q : Str) : (Rx.opt (Rx.oneOf §"\"'")).Lang bef q ↔ (q = [] ∨ q = §"\"" ∨ q = §"'") := by
  rw [Rx.lang_opt, lang_oneOf]
  constructor
  · rintro (⟨c, h, rfl⟩ | rfl)
    · simp at h; rcases h with rfl | rfl <;> simp
    · simp
  · rintro (rfl | rfl | rfl)
    · exact Or.inr rfl
    · exact Or.inl ⟨'"', by simp, rfl⟩
    · exact Or.inl ⟨'\'', by simp, rfl⟩

theorem lang_term (bef t : Str) : (Rx.cat [Rx.opt (Rx.oneOf §"\"'"), Rx.plus (.cls fun c => c.isAlphanum || c == '_' || c == '.'),
    Rx.opt (Rx.oneOf §"\"'")]).Lang bef t ↔ Term t := by
  show Rx.Lang (.seq _ (.seq _ _)) bef t ↔ _
  simp only [Rx.Lang]
  constructor
  · rintro ⟨q, _, rfl, h1, n, r, rfl, h2, h3⟩
    rw [Rx.lang_plus_cls] at h2
    exact ⟨q, n, r, (lang_quote _ _).1 h1, (lang_quote _ _).1 h3, h2.1, h2.2, by simp⟩
  · rintro ⟨q, n, r, h1, h3, h2, h2', rfl⟩
    exact ⟨q, n ++ r, by simp, (lang_quote _ _).2 h1, n, r, rfl, (Rx.lang_plus_cls _ _ _).2 ⟨h2, h2'⟩, (lang_quote _ _).2 h3⟩

theorem lang_sum (bef t : Str) : Regex.jinjaFunctionAddConcat.Lang bef t ↔ SumUse t := by
  show Rx.Lang (.seq (.grp 1 _) (.seq (.star Rx.ws) (.seq (Rx.chr '+') (.seq (.star Rx.ws) (.grp 2 _))))) bef t ↔ _
  simp only [Rx.Lang, Rx.lang_chr, SumUse]
  constructor
  · rintro ⟨a, _, rfl, h1, w, _, rfl, h2, _, _, rfl, rfl, v, b, rfl, h3, h4⟩
    exact ⟨a, w, v, b, (lang_term _ _).1 h1, (lang_spaces _ _).1 h2, (lang_spaces _ _).1 h3, (lang_term _ _).1 h4, by simp⟩
  · rintro ⟨a, w, v, b, h1, h2, h3, h4, rfl⟩
    exact ⟨a, w ++ (§"+" ++ (v ++ b)), by simp, (lang_term _ _).2 h1, w, _, rfl, (lang_spaces _ _).2 h2, _, _, rfl, rfl, v, b, rfl,
      (lang_spaces _ _).2 h3, (lang_term _ _).2 h4⟩

theorem lang_match (bef t : Str) : Regex.jinjaFunctionMatch.Lang bef t ↔ MatchUse t := by
  show Rx.Lang (.seq (Rx.lit §"match(") (.seq (.star Rx.dot) (.seq (Rx.chr ',') (.seq (.star Rx.dot) (Rx.chr ')'))))) bef t ↔ _
  simp only [Rx.Lang, Rx.lang_chr, Rx.lang_lit, MatchUse]
  constructor
  · rintro ⟨_, _, rfl, rfl, x, _, rfl, h1, _, _, rfl, rfl, y, _, rfl, h2, rfl⟩
    exact ⟨x, y, (lang_dots _ _).1 h1, (lang_dots _ _).1 h2, by simp⟩
  · rintro ⟨x, y, h1, h2, rfl⟩
    exact ⟨_, x ++ (§"," ++ (y ++ §")")), by simp, rfl, x, _, rfl, (lang_dots _ _).2 h1, _, _, rfl, rfl, y, _, rfl,
      (lang_dots _ _).2 h2, rfl⟩

/-- The regular expressions for functions find exactly the texts that are expressions. -/
theorem functions_iff (s : Str) : searchAnyRegex Regex.jinjaFunctionsSet s = true ↔ UsesFunction s := by
  rw [searchAny_iff]
  simp only [Regex.jinjaFunctionsSet, List.mem_cons, List.not_mem_nil, or_false, exists_eq_or_imp, exists_eq_left]
  rw [test_has Regex.jinjaFunctionLower _ (lang_filter _), test_has Regex.jinjaFunctionUpper _ (lang_filter _), test_has _ _ lang_replace,
    test_has _ _ lang_index, test_has _ _ lang_sum, test_has _ _ lang_match]
  unfold UsesFunction
  constructor
  · rintro (⟨a, t, b, h, w, h1, h2⟩ | ⟨a, t, b, h, w, h1, h2⟩ | h)
    · exact Or.inl ⟨a, t, b, h, w, h1, Or.inl h2⟩
    · exact Or.inl ⟨a, t, b, h, w, h1, Or.inr h2⟩
    · exact Or.inr h
  · rintro (⟨a, t, b, h, w, h1, h2 | h2⟩ | h)
    · exact Or.inl ⟨a, t, b, h, w, h1, h2⟩
    · exact Or.inr (Or.inl ⟨a, t, b, h, w, h1, h2⟩)
    · exact Or.inr (Or.inr h)

theorem substitution_iff (s : Str) : Regex.jinjaV0Sub.test s = true ↔ HasPart V0Substitution s := by
  apply test_has
  intro bef t
  show Rx.Lang (.seq (Rx.lit §"{{") (.seq (.star Rx.ws) (.seq Regex.jinjaVarFunction (.seq (.star Rx.ws) (Rx.lit §"}}"))))) bef t ↔ _
  simp only [Rx.Lang, Rx.lang_lit, V0Substitution, Regex.jinjaVarFunction]
  constructor
  · rintro ⟨_, _, rfl, rfl, w, _, rfl, h1, x, _, rfl, h2, v, _, rfl, h3, rfl⟩
    exact ⟨w, x, v, (lang_spaces _ _).1 h1, (Rx.lang_star_cls _ _ _).1 h2, (lang_spaces _ _).1 h3, by simp⟩
  · rintro ⟨w, x, v, h1, h2, h3, rfl⟩
    exact ⟨_, w ++ (x ++ (v ++ §"}}")), by simp, rfl, w, _, rfl, (lang_spaces _ _).2 h1, x, _, rfl, (Rx.lang_star_cls _ _ _).2 h2, v, _, rfl,
      (lang_spaces _ _).2 h3, rfl⟩

/-! ## Braces -/

theorem brace_some {bef s : Str} (h : bef.head? ≠ some '$') : ∃ m, Regex.jinjaReplaceV0StartingMarker.matchAt bef ('{' :: '{' :: s) = some m ∧
    m.text = §"{{" := by
  refine ⟨⟨bef.reverse, §"{{", s, []⟩, ?_, rfl⟩
  have hl : List.take (List.length s + 1 + 1 - List.length s) ('{' :: '{' :: s) = ['{', '{'] := by
    rw [show s.length + 1 + 1 - s.length = 2 by omega]; rfl
  cases bef with
  | nil => simp [hl, Rx.matchAt, Regex.jinjaReplaceV0StartingMarker, Rx.run, Rx.lit, Rx.chr]
  | cons b bs =>
    have hb : b ≠ '$' := fun e => h (by simp [e])
    simp [hl, Rx.matchAt, Regex.jinjaReplaceV0StartingMarker, Rx.run, Rx.lit, Rx.chr, hb]

theorem brace_lang (bef t : Str) : Regex.jinjaReplaceV0StartingMarker.Lang bef t ↔ bef.head? ≠ some '$' ∧ t = §"{{" := by
  simp only [Regex.jinjaReplaceV0StartingMarker, Rx.Lang, Rx.lang_lit]
  constructor
  · rintro ⟨u, v, rfl, ⟨rfl, h⟩, rfl⟩; exact ⟨h, rfl⟩
  · rintro ⟨h, rfl⟩; exact ⟨[], _, rfl, ⟨rfl, h⟩, rfl⟩

theorem brace_none {bef s : Str} (h : bef.head? = some '$' ∨ ¬ §"{{" <+: s) :
    Regex.jinjaReplaceV0StartingMarker.matchAt bef s = none := by
  rw [← Option.not_isSome_iff_eq_none, Rx.matchAt_isSome]
  rintro ⟨t, rest, rfl, hl⟩
  rw [brace_lang] at hl
  rcases h with h | h
  · exact hl.1 h
  · exact h (hl.2 ▸ List.prefix_append _ _)

theorem dollared_go (s : Str) : ∀ bef : Str,
    Regex.jinjaReplaceV0StartingMarker.subGo (fun _ => §"${{") 0 bef s = dollared (decide (bef.head? = some '$')) s := by
  suffices ∀ n (s : Str), s.length ≤ n → ∀ bef : Str,
      Regex.jinjaReplaceV0StartingMarker.subGo (fun _ => §"${{") 0 bef s = dollared (decide (bef.head? = some '$')) s from
    this s.length s (Nat.le_refl _)
  intro n
  induction n with
  | zero => intro s hs bef; have : s = [] := by simpa using hs
            subst this; cases (decide (bef.head? = some '$')) <;> rfl
  | succ n ih =>
    intro s hs bef
    cases s with
    | nil => cases (decide (bef.head? = some '$')) <;> rfl
    | cons c cs =>
      by_cases hb : bef.head? = some '$'
      · rw [Rx.subGo, brace_none (Or.inl hb), ih cs (by simpa using hs)]
        simp [dollared, hb, Bool.beq_eq_decide_eq]
      · by_cases hp : §"{{" <+: c :: cs
        · obtain ⟨rest, hr⟩ := hp
          simp only [List.cons_append, List.nil_append, List.cons.injEq] at hr
          obtain ⟨rfl, rfl⟩ := hr
          obtain ⟨m, hm, ht⟩ := brace_some (s := rest) hb
          rw [Rx.subGo, hm]
          simp only [ht, List.length_cons, List.length_nil, Rx.subGo]
          rw [ih rest (by simp at hs; omega)]
          simp [dollared, hb]
        · rw [Rx.subGo, brace_none (Or.inr hp), ih cs (by simpa using hs)]
          simp only [hb, decide_false, List.head?_cons, Option.some.injEq]
          cases cs with
          | nil => simp [dollared]
          | cons d ds =>
            have : ¬ (c = '{' ∧ d = '{') := by
              rintro ⟨rfl, rfl⟩; exact hp ⟨ds, rfl⟩
            have e : dollared false (c :: d :: ds) = c :: dollared (c == '$') (d :: ds) := by
              rw [dollared.eq_def]
              split
              · rename_i h; cases h
              · rename_i h; simp only [List.cons.injEq] at h; exact absurd ⟨h.1, h.2.1⟩ this
              · rename_i h _; simp only [List.cons.injEq] at h; rw [h.1, h.2]
            rw [e, Bool.beq_eq_decide_eq]

theorem escape_dollared (s : Str) : escapeJinja s = dollared false s := dollared_go s []

/-! ## The variables -/

theorem contextOf_names {vars ctx : List (Str × PyVal)} {bad : List Str} (h : ContextOf vars ctx bad) :
    ∀ x ∈ ctx.map (·.1), x ∈ vars.map (·.1) := by
  induction h with
  | nil => simp
  | unsupported _ _ ih => intro x hx; exact List.mem_cons_of_mem _ (ih x hx)
  | expression _ _ ih | text _ _ ih | int _ ih | flt _ ih | bool _ ih =>
    intro x hx
    simp only [List.map_cons, List.mem_cons] at hx ⊢
    exact hx.imp id (ih x)

theorem contextLoop_says {comps : List Str} {pos : Pos} {n : Node} {ks : List Node} {vars ctx : List (Str × PyVal)} {bad : List Str}
    (h : ContextOf vars ctx bad) :
    ∀ acc, (vars.map (·.1)).Nodup → (∀ x ∈ acc.map (·.1), x ∉ vars.map (·.1)) →
    InSection comps pos n ks (contextLoop acc vars) (acc ++ ctx) ks
      (bad.map fun name => (.warning, §"The variable `" ++ name ++ §"` is an unsupported type.")) := by
  have step : ∀ {name : Str} {v w : PyVal} {vars ctx : List (Str × PyVal)} {bad : List Str}, supportedVar v = true → contextValue v = w →
      (∀ acc, (vars.map (·.1)).Nodup → (∀ x ∈ acc.map (·.1), x ∉ vars.map (·.1)) →
        InSection comps pos n ks (contextLoop acc vars) (acc ++ ctx) ks
          (bad.map fun name => (.warning, §"The variable `" ++ name ++ §"` is an unsupported type."))) →
      ∀ acc, (((name, v) :: vars).map (·.1)).Nodup → (∀ x ∈ acc.map (·.1), x ∉ ((name, v) :: vars).map (·.1)) →
        InSection comps pos n ks (contextLoop acc ((name, v) :: vars)) (acc ++ (name, w) :: ctx) ks
          (bad.map fun name => (.warning, §"The variable `" ++ name ++ §"` is an unsupported type.")) := by
    intro name v w vars ctx bad hs hw ih acc hn ha
    simp only [List.map_cons, List.nodup_cons] at hn
    rw [contextLoop, hs]
    simp only [Bool.not_true, Bool.false_eq_true, if_false]
    have hnew : name ∉ acc.map (·.1) := fun hm => ha name hm (by simp)
    rw [insertD_new _ _ _ hnew, hw]
    have := ih (acc ++ [(name, w)]) hn.2 (by
      intro x hx
      simp only [List.map_append, List.map_cons, List.map_nil, List.mem_append, List.mem_singleton] at hx
      rcases hx with hx | rfl
      · exact fun hv => ha x hx (by simp only [List.map_cons]; exact List.mem_cons_of_mem _ hv)
      · exact hn.1)
    simpa using this
  induction h with
  | nil => intro acc _ _; simp only [contextLoop, List.append_nil, List.map_nil]; exact InSection.pure _
  | expression hu _ ih => exact step rfl (by simp [contextValue, (functions_iff _).2 hu]) ih
  | text hu _ ih => exact step rfl (by rw [contextValue, if_neg (fun hc => hu ((functions_iff _).1 hc))]) ih
  | int _ ih => exact step rfl rfl ih
  | flt _ ih => exact step rfl rfl ih
  | bool _ ih => exact step rfl rfl ih
  | @unsupported name v vars ctx bad hv _ ih =>
    intro acc hn ha
    have : supportedVar v = false := by rcases hv with rfl | rfl | ⟨_, rfl⟩ | ⟨_, rfl⟩ <;> rfl
    rw [contextLoop, this]
    simp only [Bool.not_false, if_true]
    rw [List.map_cons] at hn
    rw [List.map_cons (l := bad)]
    refine InSection.bind (x := ()) (s1 := [_]) (InSection.say _ _) (ih acc (List.nodup_cons.1 hn).2 fun x hx hv => ha x hx (by simp only [List.map_cons]; exact List.mem_cons_of_mem _ hv))

theorem join_iff (v : PyVal) : (match v with | .str s => searchAnyRegex Regex.v0UnsupportedJinja s | _ => false) = callsJoin v := by
  cases v with
  | str s =>
    rw [Bool.eq_iff_iff]
    simp only [callsJoin, searchAny_iff, Regex.v0UnsupportedJinja, List.mem_singleton, exists_eq_left, Rx.test_iff, Rx.lang_lit,
      List.any_eq_true, List.mem_range, List.isPrefixOf_iff_prefix]
    constructor
    · rintro ⟨a, t, b, rfl, rfl⟩
      exact ⟨a.length, by simp, b, by simp⟩
    · rintro ⟨i, hi, b, hb⟩
      exact ⟨s.take i, _, b, by rw [List.append_assoc, hb, List.take_append_drop], rfl⟩
  | _ => rfl

theorem complexJinja_joining (ctx : List (Str × PyVal)) : complexJinja ctx = joining ctx := by
  unfold complexJinja joining
  congr 2
  funext kv
  exact join_iff kv.2

theorem Spec.Put.ne_nil {E : Env} {x : Str} {v : PyVal} {ks ks' : List Node} (h : Put E x v ks ks') (hk : ks ≠ []) : ks' ≠ [] := by
  cases h with
  | append => simp [hk]
  | into => simp

theorem top_host {n : Node} (hv : n.value ≠ .sentinel) {ks : List Node} (hk : ks ≠ []) : Host [] n ks := Or.inl ⟨Or.inr hk, hv, rfl⟩

theorem put_at_top {E : Env} {n : Node} (hv : n.value ≠ .sentinel) {ks ks' : List Node} (hk : ks ≠ []) {x : Str} (hx : KeyName x)
    {v : PyVal} (hs : v ≠ .sentinel) (h : Put E x v ks ks') :
    InSection [] [] n ks (patchAndLog E (addOp (absPath [x]) v)) true ks' [] :=
  InSection.patched (top_host hv (h.ne_nil hk)) fun _ hc => hc.put E hx hs h

theorem addContext_says {E : Env} {n : Node} (hv : n.value ≠ .sentinel) {ks ks' : List Node} (hk : ks ≠ []) {ctx : List (Str × PyVal)}
    (h : if ctx = [] then ks' = ks else Put E §"context" (.dict ctx) ks ks') :
    InSection [] [] n ks (addContext E ctx) () ks' (contextMessages ctx []) := by
  unfold addContext contextMessages
  rw [complexJinja_joining]
  cases ctx with
  | nil => simp only [if_true] at h; subst h; exact InSection.pure ()
  | cons a as =>
    simp only [List.cons_ne_nil, if_false] at h
    simp only [List.isEmpty_cons, Bool.not_false, if_true, List.map_nil, List.nil_append]
    have hp : InSection [] [] n ks (do let _ ← patchAndLog E (addOp §"/context" (.dict (a :: as)))) () ks' [] :=
      InSection.bind (x := true) (s1 := []) (s2 := []) (put_at_top hv hk (by decide) (by simp) h) (InSection.pure ())
    cases hj : joining (a :: as) with
    | nil => exact hp
    | cons b bs =>
      simp only [List.isEmpty_cons, Bool.not_false, if_true, List.cons_ne_nil, if_false, joinStr_intercalate]
      exact InSection.bind (x := ()) (s1 := [_]) (s2 := []) (InSection.say _ _) hp

/-! ## The substitutions -/

theorem swapped_putNode {t t' y : Node} {pos : Pos} {i : Nat} (h : ChildrenChanged (Swapped i [y]) pos t t') :
    t' = putNode y (pos ++ [i]) t := by
  have key : ∀ (pre post : List Node) (c x : Node), pre ++ x :: post =
      (pre ++ c :: post).mapIdx fun j d => if j = pre.length then x else d := by
    intro pre post c x
    apply List.ext_getElem?
    intro j
    rw [List.getElem?_mapIdx]
    rcases Nat.lt_trichotomy j pre.length with hlt | rfl | hgt
    · rw [List.getElem?_append_left hlt, List.getElem?_append_left hlt]
      simp [Nat.ne_of_lt hlt]
    · simp
    · rw [List.getElem?_append_right (Nat.le_of_lt hgt), List.getElem?_append_right (Nat.le_of_lt hgt)]
      obtain ⟨k, hk⟩ : ∃ k, j - pre.length = k + 1 := ⟨j - pre.length - 1, by omega⟩
      simp [hk, Nat.ne_of_gt hgt]
  induction h with
  | here n cs hs =>
    obtain ⟨pre, x, post, h1, rfl, rfl⟩ := hs
    simp only [List.nil_append, putNode, h1, List.append_assoc, List.cons_append]
    rw [key pre post x y]
  | there n pre c c' post p h1 _ ih =>
    simp only [List.cons_append, putNode, h1]
    rw [key pre post c c', ih]
    congr 1
    apply List.ext_getElem?
    intro j
    simp only [List.getElem?_mapIdx]
    by_cases hj : j = pre.length
    · subst hj; simp
    · simp [hj]

/-- Writing over a place replaces the node there. -/
theorem overwrite_patch {E : Env} {r : Recipe} {e : NodeEdit} {v : PyVal} (h : e.At r.root) (ho : Overwrites E v e)
    (hv : v ≠ .sentinel) :
    r.patch E (replaceOp (absPath e.comps) v) = (.ok true, edited r (putNode e.new e.pos r.root)) := by
  obtain ⟨h1, h2, h3, h4⟩ := h
  have hp : IsPatch (replaceOp (absPath e.comps) v) §"replace" (absPath e.comps) :=
    isPatch_replaceOp (absPath_ne_nil _ h1) hv
  cases ho with
  | @value ns hd hb hn he =>
    have := C12_replace E r _ v e.comps e.pos e.old h1 h2 hp rfl h3 h4 (Or.inl hd)
    rw [hb, hn] at this
    simp only [Bool.false_eq_true, if_false] at this
    obtain ⟨root', hr, hc⟩ := this
    rw [hr, becomes_eq hc, setKids_const h4, putNode_updateAt, he]
  | @element ns hd hcol hn he =>
    obtain ⟨init, last, hcomps⟩ : ∃ init last, e.comps = init ++ [last] := by
      rcases List.eq_nil_or_concat e.comps with h | ⟨i, l, h⟩
      · exact absurd h h1
      · exact ⟨i, l, by simpa using h⟩
    obtain ⟨p, i, hpos⟩ : ∃ p i, e.pos = p ++ [i] := by
      rcases List.eq_nil_or_concat e.pos with h | ⟨i, l, h⟩
      · have := locate_length h3
        rw [h, hcomps] at this; simp at this
      · exact ⟨i, l, by simpa using h⟩
    rw [hcomps] at h2 h3 hp hd ⊢
    rw [hpos] at h3 h4 ⊢
    rw [endsInNumber_concat] at hd
    have := C12_replace_element E r _ v init last p i e.old h2 hp rfl hd h3 h4 hcol
    rw [hn] at this
    simp only at this
    obtain ⟨root', hr, hc⟩ := this
    rw [he] at hc
    rw [hr, swapped_putNode hc]

theorem getValue_after {E : Env} {r r' : Recipe} {e : NodeEdit} (h : e.At r.root) (h' : e.At r'.root) :
    r'.getValue E (absPath e.comps) = r.getValue E (absPath e.comps) := by
  refine getValueIn_node h.1 h.2.1 h.1 h.2.1 (k := e.old) ?_ ?_ none none none
  · rw [← locate_lookup, h'.2.2.1]; exact h'.2.2.2
  · rw [← locate_lookup, h.2.2.1]; exact h.2.2.2

/-- The loop over the substitutions. -/
theorem substitutions_loop {E : Env} : ∀ (es : List NodeEdit) (c : Conv), (∀ e ∈ es, e.At c.v1.root) → Independent es →
    (∀ e ∈ es, ∃ s, c.v1.getValue E (absPath e.comps) = .ok (.str s) ∧ Overwrites E (.str (dollared false s)) e) →
    ∃ c', each (upgradeSubstitution E) (es.map fun e => absPath e.comps) c = (.ok (), c') ∧
      c'.self = c.self ∧ c'.v1.root = putNodes es c.v1.root ∧ c'.v1.init = c.v1.init ∧ c'.v1.schema = c.v1.schema ∧
      c'.v1.vars = c.v1.vars ∧ c'.msgs = c.msgs
  | [], c, _, _, _ => ⟨c, rfl, rfl, rfl, rfl, rfl, rfl, rfl⟩
  | e :: es, c, ha, hi, ht => by
    obtain ⟨s, hs, ho⟩ := ht e (by simp)
    have hp := overwrite_patch (ha e (by simp)) ho (by simp)
    have hrest := hi.rest ha
    let c1 : Conv := { c with v1 := edited c.v1 (putNode e.new e.pos c.v1.root) }
    have h1 : upgradeSubstitution E (absPath e.comps) c = (.ok (), c1) := by
      simp only [upgradeSubstitution, valueAt, ask, patchAndLog, edit, Bind.bind, Act.bind, hs, escape_dollared, hp]
      rfl
    obtain ⟨c', g1, g2, g3, g4, g5, g6, g7⟩ := substitutions_loop es c1 hrest hi.tail (by
      intro x hx
      obtain ⟨s, hs, ho⟩ := ht x (by simp [hx])
      exact ⟨s, by rw [getValue_after (r' := c1.v1) (ha x (by simp [hx])) (hrest x hx)]; exact hs, ho⟩)
    refine ⟨c', ?_, g2, g3, g4, g5, g6, g7⟩
    simp only [List.map_cons, each, Bind.bind, Act.bind, h1]
    exact g1

/-- A permutation of the images comes from a permutation. -/
theorem perm_of_map {α β : Type} {f : α → β} {l l' : List β} (h : l.Perm l') : ∀ {xs : List α}, l' = xs.map f →
    ∃ ys : List α, ys.Perm xs ∧ l = ys.map f := by
  induction h with
  | nil => intro xs hx; exact ⟨xs, .refl _, hx⟩
  | cons x _ ih =>
    intro xs hx
    cases xs with
    | nil => cases hx
    | cons a as =>
      simp only [List.map_cons, List.cons.injEq] at hx
      obtain ⟨ys, h1, h2⟩ := ih hx.2
      exact ⟨a :: ys, h1.cons a, by simp [hx.1, h2]⟩
  | swap x y l =>
    intro xs hx
    match xs, hx with
    | a :: b :: as, hx =>
      simp only [List.map_cons, List.cons.injEq] at hx
      exact ⟨b :: a :: as, .swap _ _ _, by simp [hx.1, hx.2.1, hx.2.2]⟩
  | trans _ _ ih1 ih2 =>
    intro xs hx
    obtain ⟨ys, h1, h2⟩ := ih2 hx
    obtain ⟨zs, h3, h4⟩ := ih1 h2
    exact ⟨zs, h3.trans h1, h4⟩

theorem paths_nodup {t : Node} {es : List NodeEdit} (ha : ∀ e ∈ es, e.At t)
    (hp : es.Pairwise fun a b => ¬ a.pos <+: b.pos ∧ ¬ b.pos <+: a.pos) : (es.map fun e => absPath e.comps).Nodup := by
  rw [List.nodup_iff_pairwise_ne, List.pairwise_map]
  refine hp.imp_of_mem fun {a b} hma hmb hab he => ?_
  obtain ⟨a1, a2, a3, _⟩ := ha a hma
  obtain ⟨b1, b2, b3, _⟩ := ha b hmb
  have h1 := strToStack_absPath _ a1 a2
  rw [he, strToStack_absPath _ b1 b2] at h1
  simp only [Except.ok.injEq, List.cons.injEq, true_and] at h1
  rw [h1, a3] at b3
  injection b3 with b3
  exact hab.1 (b3 ▸ List.prefix_refl _)

theorem substitutions_run {E : Env} {W : ConvWorld} (hW : ∀ l, (W.order l).Perm l) {c : Conv} {es : List NodeEdit}
    (h : SubstitutionEdits E c.v1 es) :
    ∃ c', each (upgradeSubstitution E) (W.order (dedupe (c.v1.search Regex.jinjaV0Sub.test))) c = (.ok (), c') ∧
      c'.self = c.self ∧ c'.v1.root = putNodes es c.v1.root ∧ c'.v1.init = c.v1.init ∧ c'.v1.schema = c.v1.schema ∧
      c'.v1.vars = c.v1.vars ∧ c'.msgs = c.msgs := by
  have hd := C57_dedupe (c.v1.search Regex.jinjaV0Sub.test)
  have hperm : (dedupe (c.v1.search Regex.jinjaV0Sub.test)).Perm (es.map fun e => absPath e.comps) := by
    rw [List.perm_ext_iff_of_nodup hd.2.1 (paths_nodup h.places h.apart.apart)]
    intro path
    rw [hd.1, h.all, C64_search, pathsOf]
    simp only [List.mem_map, List.mem_filter, substitution_iff]
    constructor
    · rintro ⟨⟨n, p⟩, ⟨h1, h2⟩, rfl⟩; exact ⟨n, h1, h2⟩
    · rintro ⟨n, h1, h2⟩; exact ⟨(n, path), ⟨h1, h2⟩, rfl⟩
  obtain ⟨es', hp, heq⟩ := perm_of_map ((hW _).trans hperm) rfl
  rw [heq]
  obtain ⟨c', g1, g2, g3, g4⟩ := substitutions_loop (E := E) es' c (fun e he => h.places e (hp.mem_iff.1 he))
    (h.apart.perm hp.symm) (fun e he => h.texts e (hp.mem_iff.1 he))
  refine ⟨c', g1, g2, ?_, g4⟩
  rw [g3, putNodes_perm hp.symm h.apart.apart]

end Crm
