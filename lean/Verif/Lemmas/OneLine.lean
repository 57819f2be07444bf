import Verif.Spec.OneLine
import Verif.Lemmas.Regex
import Verif.Lemmas.Marker
import Verif.Lemmas.Str
import Verif.Lemmas.Edit
import Verif.Lemmas.Text
import Verif.Model.Parser

namespace Crm
open Spec

/-! ## Characters a match must contain -/

/-- Every match of `r` contains `c`. -/
def Needs (c : Char) (r : Rx) : Prop := ∀ s, ∀ s' ∈ r.run s, ∃ t, Consumes s s' t ∧ c ∈ t

theorem needs_chr (c : Char) : Needs c (Rx.chr c) := by
  intro s s' h
  simp only [Rx.chr, Rx.run] at h
  split at h
  · cases h
  · rename_i d cs hd
    split at h
    · rename_i hp
      simp only [beq_iff_eq] at hp; subst hp
      simp only [List.mem_singleton] at h; subst h
      exact ⟨[d], ⟨by simp [hd], by simp⟩, by simp⟩
    · cases h

theorem needs_seq_left {c : Char} {a : Rx} (b : Rx) (h : Needs c a) : Needs c (.seq a b) := by
  intro s s' hs
  simp only [Rx.run, List.mem_flatMap] at hs
  obtain ⟨s1, h1, h2⟩ := hs
  obtain ⟨t, ht, hc⟩ := h s s1 h1
  obtain ⟨t2, ht2, _⟩ := Rx.run_consumes b s1 s' h2
  exact ⟨t ++ t2, ht.trans ht2, by simp [hc]⟩

theorem needs_seq_right {c : Char} (a : Rx) {b : Rx} (h : Needs c b) : Needs c (.seq a b) := by
  intro s s' hs
  simp only [Rx.run, List.mem_flatMap] at hs
  obtain ⟨s1, h1, h2⟩ := hs
  obtain ⟨t, ht, _⟩ := Rx.run_consumes a s s1 h1
  obtain ⟨t2, ht2, hc⟩ := h s1 s' h2
  exact ⟨t ++ t2, ht.trans ht2, by simp [hc]⟩

theorem needs_alt {c : Char} {a b : Rx} (ha : Needs c a) (hb : Needs c b) : Needs c (.alt a b) := by
  intro s s' hs
  simp only [Rx.run, List.mem_append] at hs
  rcases hs with h | h
  · exact ha s s' h
  · exact hb s s' h

theorem needs_grp {c : Char} (n : Nat) {a : Rx} (h : Needs c a) : Needs c (.grp n a) := by
  intro s s' hs
  simp only [Rx.run, List.mem_map] at hs
  obtain ⟨s1, h1, rfl⟩ := hs
  obtain ⟨t, ht, hc⟩ := h s s1 h1
  exact ⟨t, ⟨ht.1, ht.2⟩, hc⟩

theorem needs_matchAt {c : Char} {r : Rx} (h : Needs c r) {bef aft : Str} (hc : c ∉ aft) : r.matchAt bef aft = none := by
  unfold Rx.matchAt
  split
  · rfl
  · rename_i s l hr
    obtain ⟨t, ht, hct⟩ := h ⟨bef, aft, []⟩ s (by rw [hr]; simp)
    have h1 : aft = t ++ s.aft := ht.1
    exact absurd (by rw [h1]; simp [hct]) hc

theorem needs_searchFrom {c : Char} {r : Rx} (h : Needs c r) {bef aft : Str} (hc : c ∉ aft) :
    r.searchFrom bef aft = none := by
  induction aft generalizing bef with
  | nil => rw [Rx.searchFrom, needs_matchAt h hc]
  | cons d ds ih =>
    rw [Rx.searchFrom, needs_matchAt h hc]
    exact ih (fun hd => hc (by simp [hd]))

theorem needs_search {c : Char} {r : Rx} (h : Needs c r) {s : Str} (hc : c ∉ s) : r.search s = none :=
  needs_searchFrom h hc

theorem sub_none {r : Rx} {f : RMatch → Str} (bef s : Str) (h : ∀ b a, a <:+ s → r.matchAt b a = none) :
    r.subGo f 0 bef s = s := by
  induction s generalizing bef with
  | nil => rfl
  | cons c cs ih =>
    rw [Rx.subGo, h _ _ (List.suffix_refl _)]
    simp only
    rw [ih _ (fun b a ha => h b a (ha.trans (List.suffix_cons c cs)))]

theorem findall_none {r : Rx} (bef s : Str) (h : ∀ b a, a <:+ s → r.matchAt b a = none) :
    r.findallGo 0 bef s = [] := by
  induction s generalizing bef with
  | nil => rfl
  | cons c cs ih =>
    rw [Rx.findallGo, h _ _ (List.suffix_refl _)]
    simp only
    rw [ih _ (fun b a ha => h b a (ha.trans (List.suffix_cons c cs)))]

/-! ## Jinja statements -/

theorem lit2_run {a b : Char} {s s' : MSt} (h : s' ∈ (Rx.lit [a, b]).run s) : [a, b] <+: s.aft := by
  simp only [Rx.lit, Rx.chr, Rx.run, List.mem_flatMap] at h
  obtain ⟨s1, h1, h2⟩ := h
  split at h1
  · cases h1
  · rename_i d cs hd
    split at h1
    · rename_i hp
      simp only [beq_iff_eq] at hp; subst hp
      simp only [List.mem_singleton] at h1; subst h1
      simp only at h2
      split at h2
      · cases h2
      · rename_i d2 es
        split at h2
        · rename_i hq
          simp only [beq_iff_eq] at hq; subst hq
          exact ⟨es, by rw [hd]; rfl⟩
        · cases h2
    · cases h1

/-- Every match of the Jinja-line expression starts with `{%` or `{#`. -/
theorem jinjaLine_matchAt {bef aft : Str} {m : RMatch} (h : Regex.jinjaV0Line.matchAt bef aft = some m) :
    §"{%" <+: aft ∨ §"{#" <+: aft := by
  unfold Rx.matchAt at h
  split at h
  · cases h
  · rename_i s l hr
    have hm : s ∈ Regex.jinjaV0Line.run ⟨bef, aft, []⟩ := by rw [hr]; simp
    simp only [Regex.jinjaV0Line, Rx.cat, Rx.run, List.mem_flatMap, List.mem_map, List.mem_append] at hm
    obtain ⟨s1, ⟨s2, h2, rfl⟩, _⟩ := hm
    rcases h2 with ⟨s3, h3, _⟩ | ⟨s3, h3, _⟩
    · exact Or.inl (lit2_run h3)
    · exact Or.inr (lit2_run h3)

theorem jinjaLine_sub {s : Str} (h : inStr §"{%" s = false ∧ inStr §"{#" s = false) :
    Regex.jinjaV0Line.sub (fun _ => []) s = s := by
  apply sub_none
  intro b a ha
  cases hm : Regex.jinjaV0Line.matchAt b a with
  | none => rfl
  | some m =>
    rcases jinjaLine_matchAt hm with h' | h'
    · exact absurd h' (inStr_false_iff.1 h.1 a ha)
    · exact absurd h' (inStr_false_iff.1 h.2 a ha)

theorem needs_trailingComment : Needs '#' Regex.detectTrailingComment :=
  needs_seq_right _ (needs_grp 2 (needs_chr '#'))

/-! ## Lines -/

theorem splitlinesGo_line (acc l : Str) (h : ∀ c ∈ l, isLineBreak c = false) (rest : Str) :
    splitlinesGo acc (l ++ rest) = splitlinesGo (l.reverse ++ acc) rest := by
  induction l generalizing acc with
  | nil => rfl
  | cons c cs ih =>
    have hc := h c (by simp)
    have hr : c ≠ '\r' := by rintro rfl; revert hc; decide
    rw [List.cons_append]
    have : splitlinesGo acc (c :: (cs ++ rest)) = splitlinesGo (c :: acc) (cs ++ rest) := by
      cases hcs : cs ++ rest with
      | nil => simp [splitlinesGo, hc]
      | cons d ds => simp [splitlinesGo, hc, hr]
    rw [this, ih _ (fun c hc => h c (by simp [hc]))]
    simp

theorem splitlines_one {l : Str} (h : ∀ c ∈ l, isLineBreak c = false) (hne : l ≠ []) : splitlines l = [l] := by
  have := splitlinesGo_line [] l h []
  simp only [List.append_nil] at this
  rw [splitlines, this]
  simp [splitlinesGo, hne]

theorem splitlines_one_nl {l : Str} (h : ∀ c ∈ l, isLineBreak c = false) : splitlines (l ++ §"\n") = [l] := by
  rw [splitlines, splitlinesGo_line [] l h]
  have : isLineBreak '\n' = true := by decide
  simp [splitlinesGo, this]

theorem trimmed_head {l : Str} (h : strip l = l) (hne : l ≠ []) : ∃ c cs, l = c :: cs ∧ isSpace c = false := by
  cases l with
  | nil => exact absurd rfl hne
  | cons c cs =>
    refine ⟨c, cs, rfl, ?_⟩
    cases hc : isSpace c with
    | false => rfl
    | true =>
      exfalso
      have h1 : (strip (c :: cs)).length ≤ (lstrip (c :: cs)).length := by
        simp only [strip, rstrip, List.length_reverse]
        exact Nat.le_trans (List.dropWhile_sublist _).length_le (by simp)
      have h2 : (lstrip (c :: cs)).length ≤ cs.length := by
        simp only [lstrip, List.dropWhile_cons, hc, if_true]
        exact (List.dropWhile_sublist _).length_le
      rw [h] at h1
      simp only [List.length_cons] at h1
      omega

theorem trimmed_indent {l : Str} (h : strip l = l) (hne : l ≠ []) : numTabSpaces l = 0 := by
  obtain ⟨c, cs, rfl, hc⟩ := trimmed_head h hne
  have : c ≠ ' ' := by rintro rfl; revert hc; decide
  simp [numTabSpaces, this]

/-- The tree of a text of one line. -/
theorem parseTree_oneLine {E : Env} {text : Str} {w : PyVal} (h : OneLine E text w) (nl : Str)
    (hnl : nl = [] ∨ nl = §"\n") :
    parseTree E (text ++ nl) = (parseLineNode E text).map fun n => { value := .str rootValue, children := [n] } := by
  have hsub : Regex.jinjaV0Line.sub (fun _ => []) (text ++ nl) = text ++ nl := by
    apply jinjaLine_sub
    rcases hnl with rfl | rfl
    · simpa using h.noStatement
    · have key : ∀ d : Char, inStr ['{', d] text = false → d ≠ '\n' → inStr ['{', d] (text ++ §"\n") = false := by
        intro d hd hdn
        rw [inStr_false_iff] at hd ⊢
        intro a ha hp
        obtain ⟨p, hp'⟩ := ha
        obtain ⟨q, hq⟩ := hp
        rcases List.append_eq_append_iff.1 hp' with ⟨x, hx1, hx2⟩ | ⟨x, hx1, hx2⟩
        · -- the suffix starts inside the text
          subst hx2
          cases x with
          | nil => simp at hq
          | cons x1 xs =>
            cases xs with
            | nil =>
              simp only [List.cons_append, List.nil_append, List.cons.injEq] at hq
              exact hdn hq.2.1
            | cons x2 xs =>
              simp only [List.cons_append, List.nil_append, List.cons.injEq] at hq
              obtain ⟨rfl, rfl, _⟩ := hq
              exact hd ('{' :: d :: xs) ⟨p, hx1.symm⟩ ⟨xs, rfl⟩
        · -- the suffix starts at or behind the line end
          have : a.length ≤ 1 := by
            have := congrArg List.length hx2
            simp only [List.length_append, List.length_cons, List.length_nil] at this
            omega
          have := congrArg List.length hq
          simp only [List.length_append, List.length_cons, List.length_nil] at this
          omega
      exact ⟨key '%' h.noStatement.1 (by decide), key '#' h.noStatement.2 (by decide)⟩
  have hlines : splitlines (text ++ nl) = [text] := by
    rcases hnl with rfl | rfl
    · rw [List.append_nil]; exact splitlines_one h.oneLine h.nonempty
    · exact splitlines_one_nl h.oneLine
  unfold parseTree
  simp only [hsub, hlines, List.length_cons, List.length_nil, bind, Except.bind]
  rw [buildLoop]
  simp only [h.trimmed, h.nonempty, if_false, trimmed_indent h.trimmed h.nonempty, bind, Except.bind, marker_none_line h.noMarker]
  cases parseLineNode E text with
  | error e => rfl
  | ok n =>
    simp only [attachLine, bind, Except.bind, Nat.lt_irrefl, if_false, gt_iff_lt]
    rfl

theorem parseYaml_ok {E : Env} {s : Str} {w : PyVal} (h : E.load s = .ok w) : parseYaml E s = .ok w := by
  unfold parseYaml
  simp only [h, bind, Except.bind, subJinja]

theorem parseLineNode_oneLine {E : Env} {text : Str} {w : PyVal} (h : OneLine E text w) :
    parseLineNode E text = match w with
      | .dict [] => .error .indexError
      | .dict ((k, v) :: _) =>
        .ok { value := .str k, children := if v = .none then [] else [{ value := v }], key := true }
      | .list [] => .error .indexError
      | .list (.dict [] :: _) => .error .indexError
      | .list (.dict ((k, v) :: _) :: _) =>
        .ok { listMember := true,
              children := [{ value := .str k, children := if v = .none then [] else [{ value := v }], key := true }] }
      | .list (v :: _) => .ok { value := v, listMember := true }
      | v => .ok { value := v } := by
  have hs : startsWith text §"#" = false := by
    cases ht : text with
    | nil => rfl
    | cons c cs =>
      have : c ≠ '#' := by rintro rfl; exact h.noComment (by rw [ht]; simp)
      simp only [startsWith, List.isPrefixOf, Bool.and_eq_false_imp, beq_iff_eq]
      intro he; exact absurd he.symm this
  unfold parseLineNode
  simp only [parseYaml_ok h.reads, bind, Except.bind, hs, Bool.false_eq_true, if_false,
    needs_search needs_trailingComment h.noComment]
  cases w with
  | dict kvs => cases kvs <;> rfl
  | list xs =>
    cases xs with
    | nil => rfl
    | cons x xs =>
      cases x with
      | dict kvs => cases kvs <;> rfl
      | _ => rfl
  | _ => rfl

/-- A one-line text that is not a `schema_version` field parses to a recipe with this one child. -/
theorem ofString_oneLine {E : Env} {text : Str} {w : PyVal} {n : Node} (h : OneLine E text w) (nl : Str)
    (hnl : nl = [] ∨ nl = §"\n") (hn : parseLineNode E text = .ok n) (hv : n.value ≠ .str §"schema_version") :
    (Recipe.ofString E (text ++ nl)).map (·.root.children) = .ok [n] := by
  unfold Recipe.ofString
  simp only [parseTree_oneLine h nl hnl, hn, Except.map, bind, Except.bind]
  have ht : traverse { value := .str rootValue, children := [n] } [rootValue, §"schema_version"] = none := by
    rw [traverse_locate, locate_single, childIdx_name (by decide)]
    have : pyEq n.value (.str §"schema_version") = false := by
      cases hp : pyEq n.value (.str §"schema_version") with
      | false => rfl
      | true => exact absurd (pyEq_str.1 hp) hv
    simp [this]
  have hst : strToStack §"/schema_version" = .ok [rootValue, §"schema_version"] := by decide
  have : getValueIn E { value := .str rootValue, children := [n] } §"/schema_version" (some (.int 0)) =
      .ok (.int 0) := by
    unfold getValueIn
    simp only [hst, ht, bind, Except.bind, Option.bind_none]
  simp only [this, schemaOf]

/-- The nodes a scalar value is turned into. -/
theorem newNodes_scalar {E : Env} {v w : PyVal} (hv : v.isPrimitive = true)
    (h : OneLine E (yamlText v) w) (hw : isScalar w = true) (hs : w ≠ .str §"schema_version")
    (hn : ∀ s, v = .str s → '\n' ∉ s) :
    newNodes E v = .ok [{ value := w }] := by
  rw [← stringify_text] at h
  rw [← generateSubtree_eq]
  have hp : parseLineNode E (pyStr (stringifyYaml v)) = .ok { value := w } := by
    rw [parseLineNode_oneLine h]
    cases w <;> first | rfl | (simp [isScalar] at hw)
  have := ofString_oneLine h [] (Or.inl rfl) hp hs
  rw [List.append_nil] at this
  unfold generateSubtree
  split
  · rename_i s
    rw [if_neg, this]
    simpa using hn s rfl
  · simp only [hv, Bool.not_true, Bool.false_eq_true, if_false, this]

/-- The nodes a mapping with one scalar entry is turned into. -/
theorem newNodes_entry {E : Env} {k text : Str} {v w : PyVal}
    (hd : E.dump (.dict [(k, v)]) = text ++ §"\n") (h : OneLine E text (.dict [(k, w)]))
    (hk : k ≠ §"schema_version") :
    newNodes E (.dict [(k, v)]) =
      .ok [{ value := .str k, key := true, children := if w = .none then [] else [{ value := w }] }] := by
  rw [← generateSubtree_eq]
  have hp : parseLineNode E text =
      .ok { value := .str k, key := true, children := if w = .none then [] else [{ value := w }] } := by
    rw [parseLineNode_oneLine h]
  have := ofString_oneLine h §"\n" (Or.inr rfl) hp (by simpa using hk)
  unfold generateSubtree
  simp only [PyVal.isPrimitive, Bool.not_false, if_true, hd, this]

end Crm
