import Verif.Lemmas.SelExpr
import Verif.Lemmas.SelStr

/-!
# Evaluation of selectors and the platform tables (C25–C28)
-/

namespace Crm
open Spec

theorem selContent_brackets (b : Str) : selContent (§"[" ++ b ++ §"]") false = b := by
  have : (§"[" ++ b ++ §"]").getLast? = some ']' := List.getLast?_concat
  unfold selContent
  rw [this]
  simp

theorem written_platforms {v1 : Bool} {body text : Str} (h : Written v1 body text) :
    (SelectorParser.mk' text v1).platforms = SelTree.evalO (parseSelectorTree (splitWs body)) := by
  unfold Written at h
  subst h
  cases v1
  · have : selContent (§"[" ++ body ++ §"]") false = body := selContent_brackets body
    simp only [SelectorParser.mk', SelectorParser.platforms, Bool.false_eq_true, if_false, this]
  · simp [SelectorParser.mk', SelectorParser.platforms, selContent]

/-! ## C28 -/

/-- C28: the operating-system lookup, for every string: spacing and letter case are ignored, unknown names give the
empty set. -/
theorem C28_platforms_by_os (s : Str) (p : Platform) : getPlatformsByOS s p = osWord (lowerS (strip s)) p.name :=
  getPlatformsByOS_eq s p

/-- C28: the architecture lookup, for every string. -/
theorem C28_platforms_by_arch (s : Str) (p : Platform) : getPlatformsByArch s p = archWord (lowerS (strip s)) p.name :=
  getPlatformsByArch_eq s p

/-- C28: every platform is on exactly one of `linux`, `osx` and `win`, and `unix` is `linux` together with `osx`. -/
theorem C28_os_partition (p : Platform) :
    [getPlatformsByOS §"linux" p, getPlatformsByOS §"osx" p, getPlatformsByOS §"win" p].count true = 1 ∧
    getPlatformsByOS §"unix" p = (getPlatformsByOS §"linux" p || getPlatformsByOS §"osx" p) := by
  cases p <;> decide

/-- C28: every operating system and every architecture selects some platform. -/
theorem C28_nonempty : (∀ o : OS, ∃ p, getPlatformsByOS o.name p = true) ∧
    (∀ a : Arch, ∃ p, getPlatformsByArch a.name p = true) := by
  refine ⟨fun o => ?_, fun a => ?_⟩
  · cases o
    · exact ⟨.linux64, by decide⟩
    · exact ⟨.osx64, by decide⟩
    · exact ⟨.linux64, by decide⟩
    · exact ⟨.win64, by decide⟩
  · cases a
    · exact ⟨.linuxS390x, by decide⟩
    · exact ⟨.linux64, by decide⟩
    · exact ⟨.linux64, by decide⟩
    · exact ⟨.osxArm64, by decide⟩
    · exact ⟨.linuxArmV6l, by decide⟩
    · exact ⟨.linuxArmV7l, by decide⟩
    · exact ⟨.linuxPpc64, by decide⟩
    · exact ⟨.linuxPpc64le, by decide⟩

/-- C28: names and platforms correspond one to one, and the lists of all members are complete. -/
theorem C28_names : (∀ p q : Platform, p.name = q.name → p = q) ∧ (∀ p : Platform, p ∈ Platform.all) ∧
    (∀ o : OS, o ∈ OS.all) ∧ (∀ a : Arch, a ∈ Arch.all) := by
  refine ⟨?_, fun p => ?_, fun o => ?_, fun a => ?_⟩
  · intro p q h
    cases p <;> cases q <;> first | rfl | exact absurd h (by decide)
  · cases p <;> decide
  · cases o <;> decide
  · cases a <;> decide

example : getPlatformsByOS §" Linux " .linux64 = true ∧ getPlatformsByOS §"beos" .linux64 = false := by decide

/-! ## C25 -/

/-- C25, what the code computes: `not` binds to the word behind it, and `and` and `or` bind equally strongly, to the
right. -/
theorem C25_right_associative (v1 : Bool) (text body : Str) (ts : List Str) (e : Expr) (hw : Written v1 body text)
    (hb : Words body ts) (ht : ts.map lowerS = e.tokens) (hp : e.proper) (p : Platform) :
    (SelectorParser.mk' text v1).platforms p = e.rightHolds p.name := by
  rw [written_platforms hw, splitWs_of_words hb]
  exact parse_expr e ts ht hp p

/-- C25 for expressions in which no `or` follows an `and` (all-`and`, all-`or`, and `a or b and c` chains, with any
number of `not`s): the selected platforms are those on which the expression is true.  Missing: `or` after `and`
(`C25_precedence_wrong`) and parentheses (`C25_parentheses_ignored`), where the claim is false of the code. -/
theorem C25_boolean_expression_partial (v1 : Bool) (text body : Str) (ts : List Str) (e : Expr)
    (hw : Written v1 body text) (hb : Words body ts) (ht : ts.map lowerS = e.tokens) (hp : e.proper)
    (ho : e.rest.Pairwise fun a b => a.1 = true → b.1 = true) (p : Platform) :
    (SelectorParser.mk' text v1).platforms p = e.pyHolds p.name := by
  rw [C25_right_associative v1 text body ts e hw hb ht hp p]
  exact right_eq_py p.name e.first e.rest ho

/-- `linux or NOT win and x86_64` meets the hypotheses. -/
example : let e : Expr := ⟨⟨0, §"linux"⟩, [(false, ⟨1, §"win"⟩), (true, ⟨0, §"x86_64"⟩)]⟩
    Written false §"linux or NOT win and x86_64" §"[linux or NOT win and x86_64]" ∧
    Words §"linux or NOT win and x86_64" [§"linux", §"or", §"NOT", §"win", §"and", §"x86_64"] ∧
    [§"linux", §"or", §"NOT", §"win", §"and", §"x86_64"].map lowerS = e.tokens ∧ e.proper ∧
    e.rest.Pairwise (fun a b => a.1 = true → b.1 = true) := by
  refine ⟨rfl, (splitWs_iff _ _).1 (by decide), by decide, by unfold Expr.proper; decide, ?_⟩
  simp

/-- C25 is false when an `or` follows an `and`: `linux and osx or win` is true on Windows but the parser selects
nothing there. -/
theorem C25_precedence_wrong :
    (SelectorParser.mk' §"[linux and osx or win]" false).platforms .win64 = false ∧
    (Expr.mk ⟨0, §"linux"⟩ [(true, ⟨0, §"osx"⟩), (false, ⟨0, §"win"⟩)]).pyHolds §"win-64" = true := by decide +kernel

/-- C25 is false for parenthesised selectors: brackets become part of an unknown word, so `not (linux or osx)` selects
Linux although it denotes the Windows platforms. -/
theorem C25_parentheses_ignored :
    (SelectorParser.mk' §"[not (linux or osx)]" false).platforms .linux64 = true := by decide +kernel

/-- C25: a selector applies to a platform query exactly when it selects the platform, and always to an empty query. -/
theorem C25_applies (s : SelectorParser) (q : Option Platform) :
    s.applies q = true ↔ ∀ p, q = some p → s.platforms p = true := by
  cases q <;> simp [SelectorParser.applies]

/-! ## C26 -/

/-- C26: amount of white space and letter case never change the selected platforms. -/
theorem C26_case_and_spacing (v1 v1' : Bool) (text text' body body' : Str) (ts ts' : List Str)
    (hw : Written v1 body text) (hw' : Written v1' body' text') (hb : Words body ts) (hb' : Words body' ts')
    (ht : ts.map lowerS = ts'.map lowerS) :
    (SelectorParser.mk' text v1).platforms = (SelectorParser.mk' text' v1').platforms := by
  funext p
  rw [written_platforms hw, written_platforms hw', splitWs_of_words hb, splitWs_of_words hb']
  exact parse_erase ts ts' ht p

example : Words §" Linux  AND win " [§"Linux", §"AND", §"win"] ∧ Words §"linux and win" [§"linux", §"and", §"win"] ∧
    [§"Linux", §"AND", §"win"].map lowerS = [§"linux", §"and", §"win"].map lowerS :=
  ⟨(splitWs_iff _ _).1 (by decide), (splitWs_iff _ _).1 (by decide), by decide⟩

/-- C26: every text has a reading as words, so the previous theorem is about every selector. -/
theorem C26_words_total (s : Str) : ∃ ts, Words s ts := ⟨_, splitWs_words s⟩

/-- C26: a word that is neither a platform, an operating system, an architecture nor an operator selects nothing. -/
theorem C26_unknown_word (v1 : Bool) (text w : Str) (hw : Written v1 w text) (hne : w ≠ [])
    (hsp : ∀ c ∈ w, isSpace c = false) (ho : lowerS w ∉ [§"and", §"or", §"not"])
    (hu : ∀ p : Platform, wordHolds (lowerS w) p.name = false) (p : Platform) :
    (SelectorParser.mk' text v1).platforms p = false := by
  have hb : Words w [w] := by
    have := Words.cons [] w [] [] (by simp) hne hsp (Or.inl rfl) (Words.nil [] (by simp))
    simpa using this
  have := C25_right_associative v1 text w [w] ⟨⟨0, lowerS w⟩, []⟩ hw hb (by simp [Expr.tokens, Lit.tokens])
    (by intro l hl; simp at hl; subst hl; simpa using ho) p
  rw [this]
  simp [Expr.rightHolds, rightGo, Lit.holds, hu p]

example : ∀ p : Platform, wordHolds (lowerS §"py36") p.name = false := by intro p; cases p <;> decide

/-- C26: the parser's recursion bound is never reached. -/
theorem C26_fuel_is_enough (st : List SelValue) (n m : Nat) (hn : st.length ≤ n) (hm : st.length ≤ m) :
    processPostfix n st = processPostfix m st := by
  induction n generalizing st m with
  | zero =>
    have : st = [] := by simpa using hn
    subst this
    cases m <;> rfl
  | succ n ih =>
    cases st with
    | nil => cases m <;> rfl
    | cons cur st =>
      obtain ⟨m, rfl⟩ : ∃ k, m = k + 1 := ⟨m - 1, by simp at hm; omega⟩
      simp only [List.length_cons, Nat.add_le_add_iff_right] at hn hm
      have h1 := ih st m hn hm
      have hlen : (processPostfix m st).2.length ≤ st.length := by
        rcases process_ld m st hm with ⟨h, h'⟩ | ⟨t, rest, h, hl, _⟩
        · rw [h']; simp
        · rw [h]; simp only; omega
      have h2 := ih (processPostfix m st).2 m (by omega) (by omega)
      cases cur with
      | op o =>
        cases o with
        | not => simp only [processPostfix, h1]
        | and => simp only [processPostfix, h1, h2]
        | or => simp only [processPostfix, h1, h2]
      | _ => rfl

/-! ## C27 -/

/-- C27: selectors that compare equal select the same platforms. -/
theorem C27_eq_sound (a b : Str) (v1 v1' : Bool)
    (h : (SelectorParser.mk' a v1).eq (SelectorParser.mk' b v1') = true) :
    (SelectorParser.mk' a v1).platforms = (SelectorParser.mk' b v1').platforms := by
  simp only [SelectorParser.eq, Bool.and_eq_true, beq_iff_eq] at h
  obtain ⟨hv, hs⟩ := h
  have hv' : v1 = v1' := hv
  subst hv'
  simp only [SelectorParser.str] at hs
  have hs := List.append_cancel_left hs
  simp only [SelectorParser.mk', SelectorParser.platforms] at hs ⊢
  have sh₁ := parse_shape (splitWs (selContent a v1)) (fun t ht => (splitWs_no_space _ t ht).2)
  have sh₂ := parse_shape (splitWs (selContent b v1)) (fun t ht => (splitWs_no_space _ t ht).2)
  have hnone : ∀ t : SelTree, t.LD → (∀ lab, ∀ i ∈ t.pre lab, i.2.Canonical) → t.str = §"None" →
      ∀ p, t.eval p = false := by
    intro t hld hc he p
    have hl : SelTree.LD (.node (.text §"None") none none) := .leaf (by simp)
    have hcl : ∀ lab, ∀ i ∈ (SelTree.node (.text §"None") none none).pre lab, i.2.Canonical := by
      intro lab i hi
      simp only [pre_node, preO_none, List.append_nil, List.mem_singleton] at hi
      subst hi
      exact (by unfold SelValue.Canonical; decide : (SelValue.text §"None").Canonical)
    have := tree_str_injective hld hl hc hcl (by rw [he]; decide)
    subst this
    rw [SelTree.eval]; rfl
  funext p
  rcases sh₁ with h₁ | ⟨t₁, h₁, l₁, c₁⟩ <;> rcases sh₂ with h₂ | ⟨t₂, h₂, l₂, c₂⟩
  · rw [h₁, h₂]
  · rw [h₁, h₂] at hs ⊢
    rw [evalO_some, hnone t₂ l₂ c₂ hs.symm p, SelTree.evalO]; rfl
  · rw [h₁, h₂] at hs ⊢
    rw [evalO_some, hnone t₁ l₁ c₁ hs p, SelTree.evalO]; rfl
  · rw [h₁, h₂] at hs ⊢
    rw [tree_str_injective l₁ l₂ c₁ c₂ hs]

/-- C27: equality is reflexive, symmetric and transitive. -/
theorem C27_eq_equivalence (a b c : SelectorParser) :
    a.eq a = true ∧ (a.eq b = true → b.eq a = true) ∧ (a.eq b = true → b.eq c = true → a.eq c = true) := by
  simp only [SelectorParser.eq, Bool.and_eq_true, beq_iff_eq, true_and]
  refine ⟨fun h => ⟨h.1.symm, h.2.symm⟩, fun h1 h2 => ⟨h1.1.trans h2.1, h1.2.trans h2.2⟩⟩

/-- C27: parsing the rendering of a selector gives an equal selector. -/
theorem C27_render_roundtrip (text : Str) (v1 : Bool) :
    let s := SelectorParser.mk' text v1
    (SelectorParser.mk' s.render v1).eq s = true ∧ (SelectorParser.mk' s.render v1).render = s.render := by
  cases v1
  · have hc : selContent (§"[" ++ strip (selContent text false) ++ §"]") false = strip (selContent text false) :=
      selContent_brackets _
    simp only [SelectorParser.mk', SelectorParser.render, Bool.false_eq_true, if_false, hc, splitWs_strip]
    refine ⟨by simp [SelectorParser.eq, SelectorParser.str], ?_⟩
    rw [strip_strip]
  · simp [SelectorParser.mk', SelectorParser.render, selContent, SelectorParser.eq, SelectorParser.str]

example : (SelectorParser.mk' §"[ linux  and win ]" false).eq (SelectorParser.mk' §"[Linux and WIN]" false) = true ∧
    (SelectorParser.mk' §"[ linux ]" false).eq (SelectorParser.mk' §"[not osx]" false) = false := by decide +kernel

/-- C27: equality is syntactic, so selectors with the same meaning can differ. -/
theorem C27_eq_incomplete :
    (SelectorParser.mk' §"[linux or osx]" false).eq (SelectorParser.mk' §"[unix]" false) = false ∧
    (SelectorParser.mk' §"[linux or osx]" false).platforms = (SelectorParser.mk' §"[unix]" false).platforms := by
  refine ⟨by decide +kernel, ?_⟩
  funext p
  cases p <;> decide +kernel

end Crm
