import Verif.Props.SelectorTable
import Verif.Props.SelectorEval
import Verif.Lemmas.SelEdit

/-!
# Editing selectors and comments (C20, C21, C22, C23)
-/

namespace Crm
open Spec

theorem matchStart_brackets {body : Str} (hn : '\n' ∉ body) :
    (Regex.selector.matchStart ('[' :: (body ++ [']']))).isNone = false := by
  unfold Rx.matchStart
  rw [selector_matchAt_some (by simpa using hn) (by simp)]
  rfl

theorem selOf_new (body : Str) (hn : '\n' ∉ body) (post : Str) (hp : ']' ∉ post) (hpn : '\n' ∉ post) :
    selOf (§"# " ++ ('[' :: (body ++ [']'])) ++ post) = some ('[' :: (body ++ [']'])) := by
  have : §"# " ++ ('[' :: (body ++ [']'])) ++ post = §"# " ++ '[' :: (body ++ ']' :: post) := by simp
  rw [this, selOf_selectorIn (by simp [hn, hpn]), selectorIn_some (by decide) hp]

private theorem readSelector {r : Recipe} {path : Str} {n : Node} (h : r.nodeAtPath path = .ok (some n)) {s : Str}
    (hs : selOf n.comment = some s) (d : Option Str) : r.getSelectorAtPath path d = .ok s := by
  unfold selOf at hs
  obtain ⟨m, hm, rfl⟩ := Option.map_eq_some_iff.1 hs
  simp only [Recipe.getSelectorAtPath, h, bind, Except.bind, hm]

private theorem readNoSelector {r : Recipe} {path : Str} {n : Node} (h : r.nodeAtPath path = .ok (some n))
    (hs : selOf n.comment = none) : r.getSelectorAtPath path = .error .keyError ∧ r.containsSelectorAtPath path = .ok false := by
  unfold selOf at hs
  have hm : Regex.selector.search n.comment = none := by simpa using hs
  simp only [Recipe.getSelectorAtPath, Recipe.containsSelectorAtPath, h, bind, Except.bind, hm, Rx.test]
  exact ⟨trivial, rfl⟩

/-- A check for `OrdinaryPath`. -/
theorem Spec.OrdinaryPath.of_check {r : Recipe} {path : Str}
    (h : (match r.nodeAtPath path with
      | .ok (some n) => (!n.isSentinel || !n.children.isEmpty) && (!n.isSingleKey || n.children.all (!·.isSentinel))
      | _ => false) = true) : OrdinaryPath r path := by
  split at h
  · rename_i n hn
    refine ⟨n, hn, ?_, ?_⟩
    · simp only [Bool.and_eq_true, Bool.or_eq_true, Bool.not_eq_true'] at h
      exact h.1.imp id (by simp)
    · intro hk x hx
      simp only [Bool.and_eq_true, Bool.or_eq_true, Bool.not_eq_true', hk, List.all_eq_true] at h
      exact (h.2.resolve_left (by simp)) x hx
  · cases h

/-! ## C20 -/

/-- C20: `add_selector` puts the computed comment on the line the path leads to and changes nothing else: all paths lead
where they led, values and layout stay, and so do all other comments. -/
theorem C20_elsewhere (r : Recipe) (path body : Str) (mode : SelMode) (h : OrdinaryPath r path) (hn : '\n' ∉ body) :
    let out := r.addSelector path ('[' :: (body ++ [']'])) mode
    out.1 = .ok () ∧ (∀ q, traverse out.2.root q = traverse r.root q) ∧ out.2.vars = r.vars ∧ out.2.schema = r.schema ∧
      ∃ st pos, strToStack path = .ok st ∧ traverse r.root st = some pos ∧ onlyLineChanged pos r.root out.2.root := by
  obtain ⟨st, pos, n, h1, h2, h3, h4, h5⟩ := ordinary_path h
  simp only [Recipe.addSelector, h1, h2, matchStart_brackets hn, Bool.false_eq_true, if_false]
  have := h5 _ { r with root := updateAt (setLineComment (addSelectorComment (((nodeAt r.root pos).map (·.comment)).getD [])
    ('[' :: (body ++ [']'])) mode)) pos r.root } rfl
  exact ⟨trivial, this.2.1, trivial, trivial, st, pos, rfl, h2, this.2.2⟩

private theorem addSelector_node (r : Recipe) (path body : Str) (mode : SelMode) (h : OrdinaryPath r path) (hn : '\n' ∉ body)
    (old : Str) (ho : commentAt r path = some old) :
    ∃ m, (r.addSelector path ('[' :: (body ++ [']'])) mode).2.nodeAtPath path = .ok (some m) ∧
      m.comment = addSelectorComment old ('[' :: (body ++ [']'])) mode := by
  obtain ⟨st, pos, n, h1, h2, h3, h4, h5⟩ := ordinary_path h
  rw [h4] at ho
  injection ho with ho
  subst ho
  have := h5 (addSelectorComment n.comment ('[' :: (body ++ [']'])) mode)
    (r.addSelector path ('[' :: (body ++ [']'])) mode).2 (by
      simp only [Recipe.addSelector, h1, h2, matchStart_brackets hn, Bool.false_eq_true, if_false, h3, Option.map_some,
        Option.getD_some])
  exact ⟨_, this.1, rfl⟩

/-- C20: after `add_selector(path, "[..]")` in REPLACE mode, `get_selector_at_path(path)` returns that selector, whatever
was on the line before, and the index lists it. -/
theorem C20_replace_readable_partial (r : Recipe) (path body : Str) (h : OrdinaryPath r path) (hn : '\n' ∉ body)
    (d : Option Str) :
    let out := r.addSelector path ('[' :: (body ++ [']'])) .replace
    out.1 = .ok () ∧ out.2.getSelectorAtPath path d = .ok ('[' :: (body ++ [']'])) ∧
      commentAt out.2 path = some (§"# " ++ ('[' :: (body ++ [']']))) := by
  obtain ⟨n, hn', _⟩ := id h
  obtain ⟨m, hm, hc⟩ := addSelector_node r path body .replace h hn n.comment (by simp only [commentAt, hn'])
  have hc' : m.comment = §"# " ++ ('[' :: (body ++ [']'])) := by rw [hc]; simp [addSelectorComment]
  refine ⟨(C20_elsewhere r path body .replace h hn).1, readSelector hm ?_ d, ?_⟩
  · rw [hc']
    have := selOf_new body hn [] (by simp) (by simp)
    simpa using this
  · simp only [commentAt, hm, hc']

/-- C20, the second half is false: in REPLACE mode the human comment is lost. -/
theorem C20_comment_lost_violation :
    commentAt exSel §"/a/y" = some §"# [win] text" ∧
      commentAt (exSel.addSelector §"/a/y" §"[osx]" .replace).2 §"/a/y" = some §"# [osx]" := by decide +kernel

/-- C20: on a line with a plain comment, the AND and OR modes put the selector in front and keep the text. -/
theorem C20_plain_comment_kept (r : Recipe) (path body text : Str) (mode : SelMode) (hmode : mode ≠ .replace)
    (h : OrdinaryPath r path) (hn : '\n' ∉ body) (ho : commentAt r path = some ('#' :: text)) (h1 : '[' ∉ text) :
    commentAt (r.addSelector path ('[' :: (body ++ [']'])) mode).2 path =
      some (§"# [" ++ body ++ §"] " ++ strip text) := by
  obtain ⟨m, hm, hc⟩ := addSelector_node r path body mode h hn _ ho
  have hs : Regex.selector.search ('#' :: text) = none := selector_searchFrom_none (by simp [h1])
  simp only [commentAt, hm, hc, addSelectorComment, hmode, hs, replaceOne_head]
  simp

/-- C20: a path that leads nowhere raises `KeyError`, something not in brackets raises `ValueError`; nothing happens. -/
theorem C20_errors (r : Recipe) (path sel : Str) (mode : SelMode) :
    (r.nodeAtPath path = .ok none → r.addSelector path sel mode = (.error .keyError, r)) ∧
    (∀ n, r.nodeAtPath path = .ok (some n) → ']' ∉ sel ∨ sel.head? ≠ some '[' →
      r.addSelector path sel mode = (.error .valueError, r)) := by
  cases hst : strToStack path with
  | error e =>
    constructor
    · intro h; simp only [Recipe.nodeAtPath, hst, bind, Except.bind] at h; cases h
    · intro n h; simp only [Recipe.nodeAtPath, hst, bind, Except.bind] at h; cases h
  | ok st =>
    simp only [Recipe.nodeAtPath, hst, bind, Except.bind, Recipe.addSelector, Except.ok.injEq]
    cases htr : traverse r.root st with
    | none => exact ⟨fun _ => rfl, fun n h => by simp at h⟩
    | some pos =>
      constructor
      · intro h
        obtain ⟨m, hm⟩ := traverse_valid htr
        simp [hm] at h
      · intro n _ hs
        have : Regex.selector.matchStart sel = none := by
          unfold Rx.matchStart
          cases sel with
          | nil => decide
          | cons c cs =>
            apply selector_matchAt_none
            rcases hs with hs | hs
            · exact Or.inr fun h => hs (List.mem_cons_of_mem _ h)
            · exact Or.inl fun h => hs (by rw [h]; rfl)
        simp only [this, Option.isNone_none, if_true]

example : (exSel.addSelector §"/a/z" §"[osx]" .replace).1 = .ok () ∧
    (exSel.addSelector §"/a/z" §"[osx]" .replace).2.getSelectorAtPath §"/a/z" = .ok §"[osx]" ∧
    exSel.addSelector §"/a/q" §"[osx]" .replace = (.error .keyError, exSel) ∧
    exSel.addSelector §"/a/z" §"osx" .replace = (.error .valueError, exSel) := by decide +kernel
example : OrdinaryPath exSel §"/a/z" := .of_check (by decide +kernel)
example : OrdinaryPath exSel §"/l/0" := .of_check (by decide +kernel)

/-! ## C21 -/

/-- C21: in AND and OR mode the new selector is joined to the old one with the word `and` or `or`, without parentheses. -/
theorem C21_text (r : Recipe) (path comment old body : Str) (mode : SelMode) (hmode : mode ≠ .replace)
    (h : OrdinaryPath r path) (hn : '\n' ∉ body) (hc : commentAt r path = some comment) (hc1 : '\n' ∉ comment)
    (ho : selectorIn comment = some ('[' :: (old ++ [']']))) (d : Option Str) :
    (r.addSelector path ('[' :: (body ++ [']'])) mode).2.getSelectorAtPath path d =
      .ok (§"[" ++ old ++ (if mode = .and then §" and " else §" or ") ++ body ++ §"]") := by
  obtain ⟨m, hm, hmc⟩ := addSelector_node r path body mode h hn _ hc
  have hne : comment ≠ [] := by rintro rfl; simp [selectorIn] at ho
  have hold : '\n' ∉ old := by
    obtain ⟨pre, b, post, h1, h2, _, _⟩ := selOf_some_iff hc1 (by rw [selOf_selectorIn hc1]; exact ho)
    intro hx; apply hc1; rw [h2]; simp [hx]
  have hcom : m.comment = §"# " ++ ('[' :: ((old ++ (if mode = .and then §" and " else §" or ") ++ body) ++ [']'])) := by
    rw [hmc]
    have hs := selOf_selectorIn hc1
    rw [ho] at hs
    unfold selOf at hs
    obtain ⟨rm, hrm, ht⟩ := Option.map_eq_some_iff.1 hs
    simp only [addSelectorComment, hne, hmode, or_self, if_false, hrm, ht, extractSelector_brackets]
    simp
  have hsep : '\n' ∉ (if mode = .and then §" and " else §" or ") := by split <;> decide
  have := selOf_new (old ++ (if mode = .and then §" and " else §" or ") ++ body) (by
    simp only [List.mem_append, not_or]; exact ⟨⟨hold, hsep⟩, hn⟩) [] (by simp) (by simp)
  rw [List.append_nil, ← hcom] at this
  rw [readSelector hm this d]
  simp

theorem words_spaces (a b : Str) (ts : List Str) (ha : ∀ c ∈ a, isSpace c = true) (h : Words b ts) : Words (a ++ b) ts := by
  cases h with
  | nil _ hb => exact .nil _ fun c hc => (List.mem_append.1 hc).elim (ha c) (hb c)
  | cons ws w rest ts hws hw1 hw2 hr ht =>
    have : a ++ (ws ++ w ++ rest) = (a ++ ws) ++ w ++ rest := by simp
    rw [this]
    exact .cons _ w rest ts (fun c hc => (List.mem_append.1 hc).elim (ha c) (hws c)) hw1 hw2 hr ht

theorem words_append (a b : Str) (ts us : List Str) (ha : Words a ts) (hb : Words (' ' :: b) us) :
    Words (a ++ ' ' :: b) (ts ++ us) := by
  induction ha with
  | nil s hs => exact words_spaces s _ us hs hb
  | cons ws w rest ts hws hw1 hw2 hr ht ih =>
    have : ws ++ w ++ rest ++ ' ' :: b = ws ++ w ++ (rest ++ ' ' :: b) := by simp
    rw [this]
    refine .cons ws w _ _ hws hw1 hw2 ?_ ih
    rcases hr with rfl | ⟨c, cs, rfl, hc⟩
    · exact Or.inr ⟨' ', b, rfl, by decide⟩
    · exact Or.inr ⟨c, cs ++ ' ' :: b, rfl, hc⟩

private theorem rightGo_join (p : Str) (b : Bool) (l2 : Lit) (rest2 : List (Bool × Lit)) (l1 : Lit) (rest1 : List (Bool × Lit))
    (h : ∀ ol ∈ rest1, ol.1 = b) :
    rightGo p l1 (rest1 ++ (b, l2) :: rest2) =
      if b then rightGo p l1 rest1 && rightGo p l2 rest2 else rightGo p l1 rest1 || rightGo p l2 rest2 := by
  induction rest1 generalizing l1 with
  | nil => cases b <;> rfl
  | cons ol rest1 ih =>
    obtain ⟨o, l⟩ := ol
    have ho : o = b := h (o, l) (by simp)
    subst ho
    have ih := ih l fun ol hol => h ol (by simp [hol])
    cases o
    · simp only [List.cons_append, rightGo, ih, Bool.false_eq_true, if_false, Bool.or_assoc]
    · simp only [List.cons_append, rightGo, ih, if_true, Bool.and_assoc]

/-- The two ways of joining selectors. -/
private theorem joined_platforms (old body : Str) (b : Bool) (ts us : List Str) (e f : Expr) (h1 : Words old ts)
    (h2 : Words body us) (he : ts.map lowerS = e.tokens) (hf : us.map lowerS = f.tokens) (hep : e.proper) (hfp : f.proper)
    (hops : ∀ ol ∈ e.rest, ol.1 = b) (p : Platform) :
    (SelectorParser.mk' (§"[" ++ old ++ (if b then §" and " else §" or ") ++ body ++ §"]") false).platforms p =
      if b then (SelectorParser.mk' (§"[" ++ old ++ §"]") false).platforms p &&
          (SelectorParser.mk' (§"[" ++ body ++ §"]") false).platforms p
      else (SelectorParser.mk' (§"[" ++ old ++ §"]") false).platforms p ||
          (SelectorParser.mk' (§"[" ++ body ++ §"]") false).platforms p := by
  rw [C25_right_associative false (§"[" ++ old ++ §"]") old ts e rfl h1 he hep p,
    C25_right_associative false (§"[" ++ body ++ §"]") body us f rfl h2 hf hfp p]
  have hw : Words (old ++ (if b then §" and " else §" or ") ++ body) (ts ++ ((if b then §"and" else §"or") :: us)) := by
    cases b
    · have := words_append old (§"or " ++ body) ts (§"or" :: us) h1
        (.cons §" " §"or" (§" " ++ body) us (by decide) (by decide) (by decide) (Or.inr ⟨' ', body, rfl, by decide⟩)
          (words_spaces §" " body us (by decide) h2))
      simpa using this
    · have := words_append old (§"and " ++ body) ts (§"and" :: us) h1
        (.cons §" " §"and" (§" " ++ body) us (by decide) (by decide) (by decide) (Or.inr ⟨' ', body, rfl, by decide⟩)
          (words_spaces §" " body us (by decide) h2))
      simpa using this
  have hj := C25_right_associative false (§"[" ++ old ++ (if b then §" and " else §" or ") ++ body ++ §"]")
    (old ++ (if b then §" and " else §" or ") ++ body) _ ⟨e.first, e.rest ++ (b, f.first) :: f.rest⟩
    (by simp [Written]) hw (by
      simp only [List.map_append, List.map_cons, he, hf, Expr.tokens, List.flatMap_append, List.flatMap_cons]
      cases b
      · have : lowerS §"or" = §"or" := by decide
        simp [this]
      · have : lowerS §"and" = §"and" := by decide
        simp [this]) (by
      intro l hl
      simp only [List.map_append, List.map_cons, List.mem_cons, List.mem_append] at hl
      rcases hl with hl | hl | hl | hl
      · exact hep l (by simp [hl])
      · exact hep l (by simp only [List.mem_cons]; exact Or.inr hl)
      · exact hfp l (by simp [hl])
      · exact hfp l (by simp only [List.mem_cons]; exact Or.inr hl)) p
  rw [hj]
  exact rightGo_join p.name b f.first f.rest e.first e.rest hops

/-- C21 (AND): the joined selector selects exactly the platforms selected by both, provided the old selector uses no
`or`.  Missing, because false of the code: old selectors with an `or`, see `C21_and_violation`. -/
theorem C21_and_partial (r : Recipe) (path comment old body : Str) (h : OrdinaryPath r path) (hn : '\n' ∉ body)
    (hc : commentAt r path = some comment) (hc1 : '\n' ∉ comment) (ho : selectorIn comment = some ('[' :: (old ++ [']'])))
    (ts us : List Str) (e f : Expr) (h1 : Words old ts) (h2 : Words body us) (he : ts.map lowerS = e.tokens)
    (hf : us.map lowerS = f.tokens) (hep : e.proper) (hfp : f.proper) (hops : ∀ ol ∈ e.rest, ol.1 = true) :
    ∃ new, (r.addSelector path ('[' :: (body ++ [']'])) .and).2.getSelectorAtPath path = .ok new ∧
      ∀ p, (SelectorParser.mk' new false).platforms p =
        ((SelectorParser.mk' (§"[" ++ old ++ §"]") false).platforms p &&
          (SelectorParser.mk' (§"[" ++ body ++ §"]") false).platforms p) :=
  ⟨_, C21_text r path comment old body .and (by decide) h hn hc hc1 ho none, fun p => by
    simpa using joined_platforms old body true ts us e f h1 h2 he hf hep hfp hops p⟩

/-- C21 (OR): the joined selector selects exactly the platforms selected by either, provided the old selector uses no
`and`.  Missing, because false of the code: old selectors with an `and`, see `C21_or_violation`. -/
theorem C21_or_partial (r : Recipe) (path comment old body : Str) (h : OrdinaryPath r path) (hn : '\n' ∉ body)
    (hc : commentAt r path = some comment) (hc1 : '\n' ∉ comment) (ho : selectorIn comment = some ('[' :: (old ++ [']'])))
    (ts us : List Str) (e f : Expr) (h1 : Words old ts) (h2 : Words body us) (he : ts.map lowerS = e.tokens)
    (hf : us.map lowerS = f.tokens) (hep : e.proper) (hfp : f.proper) (hops : ∀ ol ∈ e.rest, ol.1 = false) :
    ∃ new, (r.addSelector path ('[' :: (body ++ [']'])) .or).2.getSelectorAtPath path = .ok new ∧
      ∀ p, (SelectorParser.mk' new false).platforms p =
        ((SelectorParser.mk' (§"[" ++ old ++ §"]") false).platforms p ||
          (SelectorParser.mk' (§"[" ++ body ++ §"]") false).platforms p) :=
  ⟨_, C21_text r path comment old body .or (by decide) h hn hc hc1 ho none, fun p => by
    simpa using joined_platforms old body false ts us e f h1 h2 he hf hep hfp hops p⟩

/-- C21 fails: `[linux or osx]` AND `[arm64]` becomes `[linux or osx and arm64]`, which still selects `linux-64`. -/
theorem C21_and_violation :
    (SelectorParser.mk' §"[linux or osx]" false).platforms .linux64 = true ∧
    (SelectorParser.mk' §"[arm64]" false).platforms .linux64 = false ∧
    addSelectorComment §"# [linux or osx]" §"[arm64]" .and = §"# [linux or osx and arm64]" ∧
    (SelectorParser.mk' §"[linux or osx and arm64]" false).platforms .linux64 = true := by decide +kernel

/-- C21 fails: `[win and arm64]` OR `[linux]` becomes `[win and arm64 or linux]`, which does not select `linux-64`. -/
theorem C21_or_violation :
    (SelectorParser.mk' §"[linux]" false).platforms .linux64 = true ∧
    addSelectorComment §"# [win and arm64]" §"[linux]" .or = §"# [win and arm64 or linux]" ∧
    (SelectorParser.mk' §"[win and arm64 or linux]" false).platforms .linux64 = false := by decide +kernel

example : (exSel.addSelector §"/a/x" §"[arm64]" .and).2.getSelectorAtPath §"/a/x" = .ok §"[linux and arm64]" ∧
    (exSel.addSelector §"/a/x" §"[arm64]" .or).2.getSelectorAtPath §"/a/x" = .ok §"[linux or arm64]" ∧
    commentAt exSel §"/a/x" = some §"# [linux]" ∧ selectorIn §"# [linux]" = some §"[linux]" := by decide +kernel
example : Words §"linux and  not win" [§"linux", §"and", §"not", §"win"] ∧
    [§"linux", §"and", §"not", §"win"].map lowerS = (Expr.mk ⟨0, §"linux"⟩ [(true, ⟨1, §"win"⟩)]).tokens :=
  ⟨.cons [] §"linux" §" and  not win" _ (by decide) (by decide) (by decide) (Or.inr ⟨_, _, rfl, by decide⟩)
    (.cons §" " §"and" §"  not win" _ (by decide) (by decide) (by decide) (Or.inr ⟨_, _, rfl, by decide⟩)
      (.cons §"  " §"not" §" win" _ (by decide) (by decide) (by decide) (Or.inr ⟨_, _, rfl, by decide⟩)
        (.cons §" " §"win" [] _ (by decide) (by decide) (by decide) (Or.inl rfl) (.nil [] (by decide))))), by decide⟩

/-! ## C22 -/

/-- C22: `remove_selector` on a line without a selector returns `None` and does nothing. -/
theorem C22_none (r : Recipe) (path comment : Str) (hc : commentAt r path = some comment) (hc1 : '\n' ∉ comment)
    (ho : selectorIn comment = none) : r.removeSelector path = (.ok none, r) := by
  simp only [commentAt] at hc
  split at hc
  · rename_i n hn
    injection hc with hc
    subst hc
    cases hst : strToStack path with
    | error e => simp only [Recipe.nodeAtPath, hst, bind, Except.bind] at hn; cases hn
    | ok st =>
      simp only [Recipe.nodeAtPath, hst, bind, Except.bind, Except.ok.injEq] at hn
      cases htr : traverse r.root st with
      | none => rw [htr] at hn; cases hn
      | some pos =>
        rw [htr, Option.bind_some] at hn
        have hs : Regex.selector.search n.comment = none := by
          have := selOf_selectorIn hc1
          rw [ho] at this
          unfold selOf at this
          simpa using this
        simp only [Recipe.removeSelector, hst, htr, hn, Option.map_some, Option.getD_some, hs]
  · cases hc

/-- C22: a path that leads nowhere raises `KeyError` and nothing happens. -/
theorem C22_no_such_path (r : Recipe) (path : Str) (h : r.nodeAtPath path = .ok none) :
    r.removeSelector path = (.error .keyError, r) := by
  cases hst : strToStack path with
  | error e => simp only [Recipe.nodeAtPath, hst, bind, Except.bind] at h; cases h
  | ok st =>
    simp only [Recipe.nodeAtPath, hst, bind, Except.bind, Except.ok.injEq] at h
    cases htr : traverse r.root st with
    | none => simp only [Recipe.removeSelector, hst, htr]
    | some pos =>
      obtain ⟨m, hm⟩ := traverse_valid htr
      rw [htr, Option.bind_some, hm] at h; cases h

private theorem cleanup_filter (P : Char → Bool) (hP : ∀ c, isSpace c = true → P c = false) (hP2 : P '#' = false) (s : Str) :
    (let c := replaceAll §"# # " §"# " (replaceAll §"#  " §"# " s); if strip c = §"#" then [] else c).filter P = s.filter P := by
  have hsp : P ' ' = false := hP ' ' (by decide)
  have h1 : (replaceAll §"# # " §"# " (replaceAll §"#  " §"# " s)).filter P = s.filter P := by
    rw [replaceAll_filter P _ _ _ (by decide) (by simp [hsp, hP2]), replaceAll_filter P _ _ _ (by decide) (by simp [hsp, hP2])]
  simp only
  split
  · rename_i h
    rw [← h1]
    obtain ⟨a, c, he, ha, hc⟩ := strip_decomp (replaceAll §"# # " §"# " (replaceAll §"#  " §"# " s))
    rw [he, h]
    simp only [List.filter_append, List.filter_nil]
    have e1 : a.filter P = [] := List.filter_eq_nil_iff.2 (fun x hx => by rw [hP x (ha x hx)]; simp)
    have e2 : c.filter P = [] := List.filter_eq_nil_iff.2 (fun x hx => by rw [hP x (hc x hx)]; simp)
    rw [e1, e2]
    simp [hP2]
  · exact h1

theorem removeSelectorComment_eq (pre body post : Str) (h1 : '[' ∉ pre) (h2 : ']' ∉ post) :
    Recipe.removeSelectorComment (pre ++ ('[' :: (body ++ [']'])) ++ post) ('[' :: (body ++ [']'])) =
      (let c := replaceAll §"# # " §"# " (replaceAll §"#  " §"# " (pre ++ post)); if strip c = §"#" then [] else c) := by
  unfold Recipe.removeSelectorComment
  rw [replaceAll_once _ _ _ _ _ h1 (by
    rintro ⟨a, b, hab⟩
    exact h2 (by rw [← hab]; simp)), List.append_nil]

private theorem removeSelector_node (r : Recipe) (path pre body post : Str) (h : OrdinaryPath r path)
    (hc : commentAt r path = some (pre ++ ('[' :: (body ++ [']'])) ++ post)) (hpre : '[' ∉ pre) (hpost : ']' ∉ post)
    (hn : '\n' ∉ pre ++ ('[' :: (body ++ [']'])) ++ post) :
    (r.removeSelector path).1 = .ok (some ('[' :: (body ++ [']']))) ∧
    (∃ m, (r.removeSelector path).2.nodeAtPath path = .ok (some m) ∧
      m.comment = (let c := replaceAll §"# # " §"# " (replaceAll §"#  " §"# " (pre ++ post));
        if strip c = §"#" then [] else c)) ∧
    (∀ q, traverse (r.removeSelector path).2.root q = traverse r.root q) ∧
    ∃ st pos, strToStack path = .ok st ∧ traverse r.root st = some pos ∧
      onlyLineChanged pos r.root (r.removeSelector path).2.root := by
  obtain ⟨st, pos, n, h1, h2, h3, h4, h5⟩ := ordinary_path h
  rw [h4] at hc
  injection hc with hc
  have hs : selOf n.comment = some ('[' :: (body ++ [']'])) := by
    have he : pre ++ ('[' :: (body ++ [']'])) ++ post = pre ++ '[' :: (body ++ ']' :: post) := by simp
    rw [hc, selOf_selectorIn hn, he, selectorIn_some hpre hpost]
  unfold selOf at hs
  obtain ⟨m, hm, ht⟩ := Option.map_eq_some_iff.1 hs
  have hout : r.removeSelector path = (.ok (some m.text),
      { r with root := updateAt (setLineComment (Recipe.removeSelectorComment n.comment m.text)) pos r.root,
               selTbl := rebuildSelectors (updateAt (setLineComment (Recipe.removeSelectorComment n.comment m.text)) pos r.root),
               modified := true }) := by
    simp only [Recipe.removeSelector, h1, h2, h3, Option.map_some, Option.getD_some, hm]
  rw [hout, ht]
  have := h5 (Recipe.removeSelectorComment n.comment m.text) (r.removeSelector path).2 (by rw [hout])
  rw [hout, ht] at this
  refine ⟨rfl, ⟨_, this.1, ?_⟩, this.2.1, st, pos, h1, h2, this.2.2⟩
  show Recipe.removeSelectorComment n.comment _ = _
  rw [hc, removeSelectorComment_eq _ _ _ hpre hpost]

/-- C22: on a line whose comment is `pre[..]post`, `remove_selector` returns the selector; afterwards the line has no
selector, and of the rest of the comment everything but white space and `#` signs is kept in order. -/
theorem C22_removed (r : Recipe) (path pre body post : Str) (h : OrdinaryPath r path)
    (hc : commentAt r path = some (pre ++ ('[' :: (body ++ [']'])) ++ post)) (hpre : '[' ∉ pre) (hpost : ']' ∉ post)
    (hn : '\n' ∉ pre ++ ('[' :: (body ++ [']'])) ++ post) :
    let out := r.removeSelector path
    out.1 = .ok (some ('[' :: (body ++ [']']))) ∧ out.2.getSelectorAtPath path = .error .keyError ∧
      out.2.containsSelectorAtPath path = .ok false ∧
      (∃ c, commentAt out.2 path = some c ∧ words c = words (pre ++ post)) := by
  obtain ⟨h1, ⟨m, hm, hmc⟩, _⟩ := removeSelector_node r path pre body post h hc hpre hpost hn
  have hnone : selOf m.comment = none := by
    refine selOf_none_of_filter ?_ (pre.filter (fun c => c = '[' || c = ']')) (post.filter (fun c => c = '[' || c = ']'))
      (fun hx => hpre (List.mem_filter.1 hx).1) (fun hx => hpost (List.mem_filter.1 hx).1) ?_
    · rw [hmc]
      simp only
      split
      · simp
      · intro hx
        have h1 : '\n' ∈ pre ++ post := by
          unfold replaceAll at hx
          rcases replaceGo_subset _ _ _ _ _ hx with hx | hx
          · rcases replaceGo_subset _ _ _ _ _ hx with hx | hx
            · exact hx
            · simp at hx
          · simp at hx
        apply hn
        simp only [List.mem_append] at h1 ⊢
        rcases h1 with h1 | h1
        · exact Or.inl (Or.inl h1)
        · exact Or.inr h1
    · rw [hmc, cleanup_filter _ ?_ (by decide), List.filter_append]
      intro c hc
      by_cases h1 : c = '['
      · subst h1; exact absurd hc (by decide)
      · by_cases h2 : c = ']'
        · subst h2; exact absurd hc (by decide)
        · simp [h1, h2]
  have := readNoSelector hm hnone
  refine ⟨h1, this.1, this.2, m.comment, by simp only [commentAt, hm], ?_⟩
  rw [hmc]
  exact cleanup_filter _ (fun c hc => by simp [hc]) (by decide) _

/-- C22: nothing else changes. -/
theorem C22_elsewhere (r : Recipe) (path pre body post : Str) (h : OrdinaryPath r path)
    (hc : commentAt r path = some (pre ++ ('[' :: (body ++ [']'])) ++ post)) (hpre : '[' ∉ pre) (hpost : ']' ∉ post)
    (hn : '\n' ∉ pre ++ ('[' :: (body ++ [']'])) ++ post) :
    (∀ q, traverse (r.removeSelector path).2.root q = traverse r.root q) ∧
    ∃ st pos, strToStack path = .ok st ∧ traverse r.root st = some pos ∧
      onlyLineChanged pos r.root (r.removeSelector path).2.root :=
  (removeSelector_node r path pre body post h hc hpre hpost hn).2.2

/-- C22: the usual shapes. `# [sel]` leaves no comment, `# [sel] text` leaves `# text`. -/
theorem C22_usual_shapes (r : Recipe) (path body text : Str) (h : OrdinaryPath r path) (hb : '\n' ∉ body) :
    (commentAt r path = some (§"# [" ++ body ++ §"]") → commentAt (r.removeSelector path).2 path = some []) ∧
    (commentAt r path = some (§"# [" ++ body ++ §"] " ++ text) → ']' ∉ text → '#' ∉ text → '\n' ∉ text →
      (∃ c ∈ text, isSpace c = false) → commentAt (r.removeSelector path).2 path = some (§"# " ++ text)) := by
  constructor
  · intro hc
    obtain ⟨_, ⟨m, hm, hmc⟩, _⟩ := removeSelector_node r path §"# " body [] h (by rw [hc]; simp) (by decide) (by simp)
      (by simp [hb])
    simp only [commentAt, hm, hmc]
    decide
  · intro hc h1 h2 h3 h4
    obtain ⟨_, ⟨m, hm, hmc⟩, _⟩ := removeSelector_node r path §"# " body (' ' :: text) h (by rw [hc]; simp) (by decide)
      (by simp [h1]) (by simp [hb, h3])
    simp only [commentAt, hm, hmc]
    have ha : replaceAll §"#  " §"# " (§"# " ++ ' ' :: text) = §"# " ++ text := by
      have := replaceAll_once '#' §"  " §"# " [] text (by simp) (by
        rintro ⟨a, b, hab⟩; exact h2 (by rw [← hab]; simp))
      simpa using this
    have hb' : replaceAll §"# # " §"# " (§"# " ++ text) = §"# " ++ text := by
      apply replaceAll_absent
      rintro ⟨a, b, hab⟩
      have hcount := congrArg (List.count '#') hab
      have h0 : List.count '#' text = 0 := List.count_eq_zero.2 h2
      simp [List.count_append, h0] at hcount
      omega
    rw [ha, hb', if_neg]
    intro hst
    obtain ⟨c, hc1, hc2⟩ := h4
    obtain ⟨a, b, he, h5, h6⟩ := strip_decomp (§"# " ++ text)
    rw [hst] at he
    have : c ∈ a ++ §"#" ++ b := by rw [← he]; simp [hc1]
    simp only [List.mem_append, List.mem_singleton] at this
    rcases this with (this | this) | this
    · rw [h5 c this] at hc2; cases hc2
    · exact h2 (this ▸ hc1)
    · rw [h6 c this] at hc2; cases hc2

example : (exSel.removeSelector §"/a/y").1 = .ok (some §"[win]") ∧
    commentAt (exSel.removeSelector §"/a/y").2 §"/a/y" = some §"# text" ∧
    commentAt (exSel.removeSelector §"/a/x").2 §"/a/x" = some [] ∧
    (exSel.removeSelector §"/a/z").1 = .ok none ∧ (exSel.removeSelector §"/q").1 = .error .keyError := by decide +kernel
example : OrdinaryPath exSel §"/a/y" := .of_check (by decide +kernel)

/-! ## C23 -/

/-- C23: `add_comment` with a text without brackets on one line writes the text (behind the selector, if there is one)
and `get_selector_at_path` answers as before. -/
theorem C23_added_partial (r : Recipe) (path comment text : Str) (h : OrdinaryPath r path) (hc : commentAt r path = some comment)
    (hn : '\n' ∉ comment) (h1 : '[' ∉ text) (h2 : ']' ∉ text) (h3 : '\n' ∉ text) (h4 : strip text ≠ []) :
    let out := r.addComment path text
    out.1 = .ok () ∧ (∀ d, out.2.getSelectorAtPath path d = r.getSelectorAtPath path d) ∧
      (∀ sel, selectorIn comment = some sel → (strip text).head? ≠ some '#' →
        commentAt out.2 path = some (§"# " ++ sel ++ §" " ++ strip text)) ∧
      (∀ sel t, selectorIn comment = some sel → strip text = '#' :: t →
        commentAt out.2 path = some (§"# " ++ sel ++ §" " ++ strip t)) ∧
      (selectorIn comment = none → (strip text).head? ≠ some '#' → commentAt out.2 path = some (§"# " ++ strip text)) ∧
      (selectorIn comment = none → (strip text).head? = some '#' → commentAt out.2 path = some (strip text)) ∧
      (∀ q, traverse out.2.root q = traverse r.root q) ∧
      ∃ st pos, strToStack path = .ok st ∧ traverse r.root st = some pos ∧ onlyLineChanged pos r.root out.2.root := by
  obtain ⟨st, pos, n, g1, g2, g3, g4, g5⟩ := ordinary_path h
  rw [g4] at hc
  injection hc with hc
  subst hc
  obtain ⟨n', hn', _⟩ := id h
  have hnn : n' = n := by
    simp only [Recipe.nodeAtPath, g1, bind, Except.bind, g2, Option.bind_some, g3] at hn'
    injection hn' with hn'; injection hn' with hn'; exact hn'.symm
  subst hnn
  have hsub : ∀ c ∈ strip text, c ∈ text := by
    intro c hc
    obtain ⟨a, b, he, _, _⟩ := strip_decomp text
    rw [he]; simp [hc]
  have hms : (Regex.selector.matchStart (strip text)).isSome = false := by
    unfold Rx.matchStart
    cases hst : strip text with
    | nil => exact absurd hst h4
    | cons c cs =>
      rw [selector_matchAt_none (Or.inl (by rintro rfl; exact h1 (hsub _ (by rw [hst]; simp))))]
      rfl
  have hout : r.addComment path text = (.ok (),
      { r with root := updateAt (setLineComment (Recipe.addCommentText n'.comment (strip text))) pos r.root,
               modified := true }) := by
    simp only [Recipe.addComment, h4, if_false, hms, Bool.false_eq_true, g1, g2, g3, Option.map_some, Option.getD_some]
  obtain ⟨k1, k2, k3⟩ := g5 _ (r.addComment path text).2 (by rw [hout])
  have hsel := selOf_addCommentText n'.comment (strip text) hn (fun hx => h1 (hsub _ hx)) (fun hx => h2 (hsub _ hx))
    (fun hx => h3 (hsub _ hx))
  have hcom : commentAt (r.addComment path text).2 path = some (Recipe.addCommentText n'.comment (strip text)) := by
    simp only [commentAt, k1]; rfl
  refine ⟨by rw [hout], fun d => ?_, ?_, ?_, ?_, ?_, k2, st, pos, g1, g2, k3⟩
  · cases hso : selOf n'.comment with
    | some s => rw [readSelector hn' hso d, readSelector k1 (hsel.trans hso) d]
    | none =>
      have e1 : Regex.selector.search n'.comment = none := by unfold selOf at hso; simpa using hso
      have e2 : Regex.selector.search (Recipe.addCommentText n'.comment (strip text)) = none := by
        have := hsel.trans hso; unfold selOf at this; simpa using this
      have e3 : Regex.selector.search (setLineComment (Recipe.addCommentText n'.comment (strip text)) n').comment = none := e2
      simp only [Recipe.getSelectorAtPath, hn', k1, bind, Except.bind, e1, e3]
  all_goals
    intros
    rw [hcom]
    rename_i hs _
    rw [← selOf_selectorIn hn] at hs
    unfold selOf at hs
  · obtain ⟨m, hm, rfl⟩ := Option.map_eq_some_iff.1 hs
    rename_i hh
    have : Recipe.dropHash (strip text) = strip text := by
      unfold Recipe.dropHash
      split
      · rename_i heq; rw [heq] at hh; exact absurd rfl hh
      · rfl
    simp [Recipe.addCommentText, hm, this]
  · obtain ⟨m, hm, rfl⟩ := Option.map_eq_some_iff.1 hs
    rename_i hh
    simp [Recipe.addCommentText, hm, hh, Recipe.dropHash]
  · have hm : Regex.selector.search n'.comment = none := by simpa using hs
    rename_i hh
    simp [Recipe.addCommentText, hm, hh]
  · have hm : Regex.selector.search n'.comment = none := by simpa using hs
    rename_i hh
    simp [Recipe.addCommentText, hm, hh]

/-- C23: a blank text and a text that starts with a selector raise `ValueError`, a path that leads nowhere `KeyError`;
nothing happens. -/
theorem C23_errors (r : Recipe) (path text : Str) :
    (strip text = [] → r.addComment path text = (.error .valueError, r)) ∧
    (∀ body post, strip text = '[' :: (body ++ ']' :: post) → '\n' ∉ text →
      r.addComment path text = (.error .valueError, r)) ∧
    (strip text ≠ [] → '[' ∉ text → r.nodeAtPath path = .ok none → r.addComment path text = (.error .keyError, r)) := by
  have hsub : ∀ c ∈ strip text, c ∈ text := by
    intro c hc
    obtain ⟨a, b, he, _, _⟩ := strip_decomp text
    rw [he]; simp [hc]
  refine ⟨fun h => by simp [Recipe.addComment, h], fun body post h hn => ?_, fun h1 h2 h => ?_⟩
  · have hne : strip text ≠ [] := by rw [h]; simp
    have hms : (Regex.selector.matchStart (strip text)).isSome = true := by
      have hnt : '\n' ∉ strip text := fun hx => hn (hsub _ hx)
      rcases selector_cases (strip text) with h1 | ⟨p, q, he, hp, hq⟩ | ⟨pre, b, po, he, h1, h2⟩
      · exact absurd (by rw [h]; simp) h1
      · rw [h] at he
        cases p with
        | nil => injection he with _ he; exact absurd (by rw [← he]; simp) hq
        | cons c cs => injection he with he _; exact absurd (by rw [← he]; simp) hp
      · rw [h] at he
        cases pre with
        | nil =>
          unfold Rx.matchStart
          rw [h, he, List.nil_append, selector_matchAt_some _ h2]
          · rfl
          · intro hx
            apply hnt
            rw [h, he]
            exact List.mem_append_right _ (List.mem_cons_of_mem _ hx)
        | cons c cs => injection he with he _; exact absurd (by rw [← he]; simp) h1
    simp only [Recipe.addComment, hne, if_false, hms, if_true]
  · have hms : (Regex.selector.matchStart (strip text)).isSome = false := by
      unfold Rx.matchStart
      cases hst : strip text with
      | nil => exact absurd hst h1
      | cons c cs =>
        rw [selector_matchAt_none (Or.inl (by rintro rfl; exact h2 (hsub _ (by rw [hst]; simp))))]
        rfl
    cases hst : strToStack path with
    | error e => simp only [Recipe.nodeAtPath, hst, bind, Except.bind] at h; cases h
    | ok st =>
      simp only [Recipe.nodeAtPath, hst, bind, Except.bind, Except.ok.injEq] at h
      cases htr : traverse r.root st with
      | none => simp only [Recipe.addComment, h1, if_false, hms, Bool.false_eq_true, hst, htr]
      | some pos =>
        obtain ⟨m, hm⟩ := traverse_valid htr
        rw [htr, Option.bind_some, hm] at h; cases h

example : commentAt (exSel.addComment §"/a/y" §" # more ").2 §"/a/y" = some §"# [win] more" ∧
    commentAt (exSel.addComment §"/a/z" §"more").2 §"/a/z" = some §"# more" ∧
    (exSel.addComment §"/a/z" §"  ").1 = .error .valueError ∧ (exSel.addComment §"/a/z" §"[osx]").1 = .error .valueError ∧
    (exSel.addComment §"/a/q" §"x").1 = .error .keyError := by decide +kernel

/-- C23 fails for texts with a closing bracket: the selector swallows the text. -/
theorem C23_bracket_violation :
    exSel.getSelectorAtPath §"/a/x" = .ok §"[linux]" ∧
    (exSel.addComment §"/a/x" §"see [1] for more").2.getSelectorAtPath §"/a/x" = .ok §"[linux] see [1]" := by
  decide +kernel

end Crm
