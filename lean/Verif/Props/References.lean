import Verif.Lemmas.RegexLang
import Verif.Props.Queries
import Verif.Props.Utils
import Verif.Model.Bump

/-!
# Where a variable is used (C70) and the clean-up of hash type variables (C71)
-/

namespace Crm
open Spec

namespace Spec

/-- The text has, on one line, a template (`{{ … }}`, in the new format `${{ … }}`) in which the name occurs. -/
def mentions (schema : Schema) (var s : Str) : Prop :=
  ∃ before a b after, s = before ++ ((match schema with | .v0 => §"{{" | .v1 => §"${{") ++ a ++ var ++ b ++ §"}}") ++ after ∧
    '\n' ∉ a ∧ '\n' ∉ b

mutual
/-- The nodes with children (the root, keys with something below them, list elements that are mappings). -/
def inner : Node → List Node
  | ⟨v, c, cs, l, m, k⟩ => (if cs.isEmpty then [] else [⟨v, c, cs, l, m, k⟩]) ++ innerL cs
def innerL : List Node → List Node
  | [] => []
  | n :: ns => inner n ++ innerL ns
end

end Spec

theorem template_iff (opening var s : Str) :
    (Rx.cat [Rx.lit opening, .star Rx.dot, Rx.lit var, .star Rx.dot, Rx.lit §"}}"]).test s = true ↔
    ∃ before a b after, s = before ++ (opening ++ a ++ var ++ b ++ §"}}") ++ after ∧ '\n' ∉ a ∧ '\n' ∉ b := by
  rw [Rx.test_iff]
  have hdot : ∀ bef t, (Rx.star Rx.dot).Lang bef t ↔ '\n' ∉ t := by
    intro bef t
    rw [show Rx.dot = .cls (fun c => c != '\n') from rfl, Rx.lang_star_cls]
    constructor
    · intro h hc; have := h _ hc; simp at this
    · intro h c hc
      simp only [bne_iff_ne, ne_eq]
      rintro rfl; exact h hc
  simp only [Rx.cat, Rx.Lang]
  constructor
  · rintro ⟨pre, t, post, rfl, u1, v1, rfl, h1, u2, v2, rfl, h2, u3, v3, rfl, h3, u4, v4, rfl, h4, h5⟩
    rw [Rx.lang_lit] at h1 h3 h5
    have h2' := (hdot _ _).1 h2
    have h4' := (hdot _ _).1 h4
    subst h1; subst h3; subst h5
    exact ⟨pre, u2, u4, post, by simp, h2', h4'⟩
  · rintro ⟨before, a, b, after, rfl, ha, hb⟩
    exact ⟨before, opening ++ a ++ var ++ b ++ §"}}", after, by simp, opening, a ++ (var ++ (b ++ §"}}")), by simp,
      (Rx.lang_lit _ _ _).2 rfl, a, var ++ (b ++ §"}}"), rfl, (hdot _ _).2 ha, var, b ++ §"}}", rfl, (Rx.lang_lit _ _ _).2 rfl,
      b, §"}}", rfl, (hdot _ _).2 hb, (Rx.lang_lit _ _ _).2 rfl⟩

theorem varRef_iff (schema : Schema) (var s : Str) : (varRefRx schema var).test s = true ↔ mentions schema var s := by
  cases schema
  · exact template_iff §"{{" var s
  · exact template_iff §"${{" var s

mutual
theorem visit_inner : ∀ (n : Node) (p : Option (List Str)) (i : Nat),
    ((visit p i n).filter (fun np => !np.1.children.isEmpty)).map (·.1) = inner n
  | ⟨v, c, cs, l, m, k⟩, p, i => by
    simp only [visit, inner, List.filter_cons]
    have := visitL_inner cs (visitPath p i ⟨v, c, cs, l, m, k⟩) (physToVirt cs) (physToVirt_length cs)
    cases hcs : cs.isEmpty <;> simp [this]
theorem visitL_inner : ∀ (cs : List Node) (p : List Str) (is : List Nat), is.length = cs.length →
    ((visitL p is cs).filter (fun np => !np.1.children.isEmpty)).map (·.1) = innerL cs
  | [], p, is, _ => by cases is <;> rfl
  | c :: cs, p, is, h => by
    cases is with
    | nil => cases h
    | cons i is =>
      simp only [visitL, innerL, List.filter_append, List.map_append, visit_inner c, visitL_inner cs p is (by simpa using h)]
end

/-- C70: nothing is listed twice, nor anything for a variable the recipe does not define. -/
theorem C70_distinct (r : Recipe) (var : Str) :
    (r.getVariableReferences var).Nodup ∧ (r.containsVariable var = false → r.getVariableReferences var = []) := by
  unfold Recipe.getVariableReferences
  constructor
  · split
    · exact List.nodup_nil
    · exact (C57_dedupe _).2.1
  · intro h
    unfold Recipe.containsVariable at h
    rw [if_pos]
    cases hx : lookupD var r.vars <;> simp_all

/-- C70: the list has the path of every value whose text uses the variable in a template, and apart from these only
paths of keys whose name does. -/
theorem C70_references_partial (r : Recipe) (var : Str) (hv : r.containsVariable var = true) (f : Node → Bool)
    (hf : ∀ n, f n = true ↔ ∃ s, n.value = .str s ∧ mentions r.schema var s) :
    (∀ p ∈ pathsOf r f, p ∈ r.getVariableReferences var) ∧
    (∀ p ∈ r.getVariableReferences var, p ∈ pathsOf r f ∨ ∃ n ∈ inner r.root, f n = true) := by
  have hsome : (lookupD var r.vars).isNone = false := by
    unfold Recipe.containsVariable at hv
    cases hx : lookupD var r.vars <;> simp_all
  have hmem : ∀ p, p ∈ r.getVariableReferences var ↔ ∃ np ∈ visitAll r.root, f np.1 = true ∧ stackToStr np.2 = p := by
    intro p
    unfold Recipe.getVariableReferences
    rw [hsome, if_neg (by simp), (C57_dedupe _).1, List.mem_map]
    constructor
    · rintro ⟨np, h, rfl⟩
      obtain ⟨h1, h2⟩ := List.mem_filter.1 h
      refine ⟨np, h1, (hf _).2 ?_, rfl⟩
      split at h2
      · rename_i s hs; exact ⟨s, hs, (varRef_iff _ _ _).1 h2⟩
      · cases h2
    · rintro ⟨np, h1, h2, rfl⟩
      obtain ⟨s, hs, hm⟩ := (hf _).1 h2
      refine ⟨np, List.mem_filter.2 ⟨h1, ?_⟩, rfl⟩
      rw [hs]
      exact (varRef_iff _ _ _).2 hm
  constructor
  · intro p hp
    rw [pathsOf_eq, List.mem_map] at hp
    obtain ⟨np, h, rfl⟩ := hp
    obtain ⟨h1, h2⟩ := List.mem_filter.1 h
    simp only [Bool.and_eq_true] at h2
    exact (hmem _).2 ⟨np, h1, h2.2, rfl⟩
  · intro p hp
    obtain ⟨np, h1, h2, rfl⟩ := (hmem _).1 hp
    cases hc : np.1.children.isEmpty with
    | true =>
      left
      rw [pathsOf_eq, List.mem_map]
      refine ⟨np, List.mem_filter.2 ⟨h1, ?_⟩, rfl⟩
      obtain ⟨s, hs, _⟩ := (hf _).1 h2
      simp [Node.isLeaf, Node.isComment, Node.isSentinel, hc, hs, h2]
    | false =>
      right
      refine ⟨np.1, ?_, h2⟩
      rw [← visit_inner r.root none 0]
      exact List.mem_map_of_mem (List.mem_filter.2 ⟨h1, by simp [hc]⟩)

/-- The variable is used where it should be, in either format. -/
example : let r := Toy.recipe "{% set v = \"1\" %}\npackage:\n  name: p\n  version: {{ v }}\nsource:\n  url: http://x/{{ v | lower }}.gz\n"
    r.containsVariable §"v" = true ∧ r.getVariableReferences §"v" = [§"/package/version", §"/source/url"] := by
  decide +kernel
example : mentions .v1 §"v" §"a ${{ v }}" := ⟨§"a ", §" ", §" ", [], by decide, by decide, by decide⟩

/-- C70 asks for uses of the variable; a longer name that contains the variable's name, or text between two templates,
is taken for one as well. -/
theorem C70_substring_violation :
    let r := Toy.recipe "{% set v = \"1\" %}\n{% set dev = \"1\" %}\na: {{ dev }}\n"
    r.getVariableReferences §"v" = [§"/a"] := by decide +kernel

/-! ## C71 -/

namespace Spec

/-- The definitions of a hash type variable, as lines. -/
def hashTypeLines : List Str :=
  [§"{% set hash_type = \"sha256\" %}\n", §"{% set hashtype = \"sha256\" %}\n", §"{% set hash = \"sha256\" %}\n"]

/-- The ways to write a key that is a hash type variable. -/
def hashKeys : List Str :=
  [§"hash_type", §"hash", §"hashtype"].flatMap fun name =>
    [§"{{ " ++ name ++ §" }}:", §"'{{ " ++ name ++ §" }}:", §"{{ " ++ name ++ §" }}':", §"'{{ " ++ name ++ §" }}':"]

/-- What the clean-up makes of a line: a definition goes, a key becomes `sha256:`, all else stays. -/
def cleaned (l l' : Str) : Prop :=
  (l ∈ hashTypeLines ∧ l' = []) ∨
  (∃ b, l = b ++ §"\n" ∧ '\n' ∉ b) ∧ (∀ d ∈ hashTypeLines, ¬ d <:+ l) ∧
    (((∀ k ∈ hashKeys, ¬ k <:+: l) ∧ l' = l) ∨
      ∃ pre k post, l = pre ++ k ++ post ∧ k ∈ hashKeys ∧ '{' ∉ pre ∧ '\'' ∉ pre ∧ '{' ∉ post ∧ l' = pre ++ §"sha256:" ++ post)

end Spec

theorem newline_inj {a b x y : Str} (ha : '\n' ∉ a) (hb : '\n' ∉ b) (h : a ++ '\n' :: x = b ++ '\n' :: y) : a = b := by
  induction a generalizing b with
  | nil =>
    cases b with
    | nil => rfl
    | cons c cs => simp only [List.nil_append, List.cons_append, List.cons.injEq] at h; exact absurd (by rw [h.1]; exact List.mem_cons_self) hb
  | cons d ds ih =>
    cases b with
    | nil => simp only [List.nil_append, List.cons_append, List.cons.injEq] at h; exact absurd (by rw [← h.1]; exact List.mem_cons_self) ha
    | cons c cs =>
      simp only [List.cons_append, List.cons.injEq] at h
      rw [h.1, ih (fun h => ha (by simp [h])) (fun h => hb (by simp [h])) h.2]

/-- Removing a line from a text in front of which stands a line. -/
theorem replaceAll_line {v b rest : Str} (hv : ∃ a, v = a ++ §"\n" ∧ '\n' ∉ a) (hb : '\n' ∉ b) :
    (b ++ §"\n" = v → replaceAll v [] (b ++ §"\n" ++ rest) = replaceAll v [] rest) ∧
    (¬ v <:+ b ++ §"\n" → replaceAll v [] (b ++ §"\n" ++ rest) = b ++ §"\n" ++ replaceAll v [] rest) := by
  obtain ⟨a, rfl, ha⟩ := hv
  have hskip : ∀ (t : Str) (k : Nat) (rest : Str), t.length = k →
      replaceGo (a ++ §"\n") [] k (t ++ rest) = replaceGo (a ++ §"\n") [] 0 rest := by
    intro t
    induction t with
    | nil => intro k rest h; simp at h; subst h; rfl
    | cons c cs ih =>
      intro k rest h
      cases k with
      | zero => simp at h
      | succ k => simp only [List.cons_append, replaceGo]; exact ih k rest (by simpa using h)
  constructor
  · intro h
    rw [h]
    cases hx : a ++ §"\n" with
    | nil => simp at hx
    | cons c cs =>
      unfold replaceAll
      simp only [List.cons_append, replaceGo]
      rw [if_pos (by rw [List.isPrefixOf_iff_prefix]; exact ⟨rest, by simp⟩)]
      simp only [List.nil_append, List.length_cons, Nat.add_sub_cancel]
      rw [← hx]
      exact hskip cs cs.length rest rfl
  · intro h
    induction b with
    | nil =>
      unfold replaceAll
      simp only [List.nil_append, List.cons_append, replaceGo]
      rw [if_neg]
      intro hp
      rw [List.isPrefixOf_iff_prefix] at hp
      obtain ⟨y, hy⟩ := hp
      have := newline_inj (a := a) (b := []) (x := y) (y := rest) ha (by simp) (by simpa using hy)
      subst this
      exact h (List.suffix_refl _)
    | cons c cs ih =>
      have hb' : '\n' ∉ cs := fun h => hb (by simp [h])
      have := ih hb' (fun hs => h (hs.trans (by exact ⟨[c], rfl⟩)))
      unfold replaceAll at this ⊢
      simp only [List.cons_append, replaceGo] at this ⊢
      rw [if_neg, this]
      intro hp
      rw [List.isPrefixOf_iff_prefix] at hp
      obtain ⟨y, hy⟩ := hp
      have := newline_inj (a := a) (b := c :: cs) (x := y) (y := rest) ha hb (by simpa using hy)
      subst this
      exact h (List.suffix_refl _)

theorem hashLine_shape : ∀ d ∈ hashTypeLines, ∃ a, d = a ++ §"\n" ∧ '\n' ∉ a := by
  intro d hd
  refine ⟨d.dropLast, ?_, ?_⟩
  · revert d; decide
  · revert d; decide

theorem hashLine_suffix : ∀ d ∈ hashTypeLines, ∀ e ∈ hashTypeLines, d = e ∨ ¬ d <:+ e := by
  intro d hd e he
  by_cases h : d = e
  · exact Or.inl h
  · refine Or.inr fun hs => ?_
    have hlen : ∀ d ∈ hashTypeLines, ∀ e ∈ hashTypeLines, d ≠ e → (d.isSuffixOf e) = false := by decide
    have := hlen d hd e he h
    rw [List.isSuffixOf_iff_suffix.2 hs] at this
    cases this

/-- A line that is a definition or does not end in one. -/
def DefLine (l : Str) : Prop := l ∈ hashTypeLines ∨ ((∃ b, l = b ++ §"\n" ∧ '\n' ∉ b) ∧ ∀ d ∈ hashTypeLines, ¬ d <:+ l)

theorem removeDef {d : Str} (hd : d ∈ hashTypeLines) (lines : List Str) (h : ∀ l ∈ lines, DefLine l) :
    replaceAll d [] lines.flatten = (lines.filter (· ≠ d)).flatten := by
  induction lines with
  | nil => rfl
  | cons l lines ih =>
    have ih := ih (fun l hl => h l (by simp [hl]))
    rw [List.flatten_cons]
    rcases h l (by simp) with hl | ⟨⟨b, rfl, hb⟩, hl⟩
    · obtain ⟨b, rfl, hb⟩ := hashLine_shape l hl
      by_cases heq : b ++ §"\n" = d
      · rw [(replaceAll_line (hashLine_shape d hd) hb).1 heq, ih, List.filter_cons_of_neg (by simpa using heq)]
      · have hns : ¬ d <:+ b ++ §"\n" := (hashLine_suffix d hd _ hl).resolve_left (fun h => heq h.symm)
        rw [(replaceAll_line (hashLine_shape d hd) hb).2 hns, ih, List.filter_cons_of_pos (by simpa using heq)]
        simp
    · have hne : b ++ §"\n" ≠ d := fun heq => hl d hd (by rw [heq]; exact List.suffix_refl _)
      rw [(replaceAll_line (hashLine_shape d hd) hb).2 (hl d hd), ih, List.filter_cons_of_pos (by simpa using hne)]
      simp

theorem removeDefs (ds lines : List Str) (hds : ∀ d ∈ ds, d ∈ hashTypeLines) (h : ∀ l ∈ lines, DefLine l) :
    ds.foldl (fun c d => replaceAll d [] c) lines.flatten = (lines.filter (· ∉ ds)).flatten := by
  induction ds generalizing lines with
  | nil =>
    rw [List.filter_eq_self.2 (by simp)]
    rfl
  | cons d ds ih =>
    rw [List.foldl_cons, removeDef (hds d (by simp)) lines h, ih _ (fun d hd => hds d (by simp [hd]))
      (fun l hl => h l (List.mem_filter.1 hl).1), List.filter_filter]
    congr 1
    apply List.filter_congr
    intro l _
    by_cases h1 : l = d <;> by_cases h2 : l ∈ ds <;> simp [h1, h2]

/-- The language of the key expression. -/
theorem hashKey_lang (bef t : Str) : Regex.preProcessHashTypeKey.Lang bef t ↔ t ∈ hashKeys := by
  have hopt : ∀ bef t, (Rx.opt (Rx.chr '\'')).Lang bef t ↔ t = §"'" ∨ t = [] := by
    intro bef t; rw [Rx.lang_opt, Rx.lang_chr]
  have hname : ∀ bef t, (Rx.grp 1 (Rx.alts [Rx.lit §"hash_type", Rx.lit §"hash", Rx.lit §"hashtype"])).Lang bef t ↔
      t = §"hash_type" ∨ t = §"hash" ∨ t = §"hashtype" := by
    intro bef t
    show ((Rx.lit §"hash_type").Lang bef t ∨ (Rx.lit §"hash").Lang bef t ∨ (Rx.lit §"hashtype").Lang bef t) ↔ _
    simp only [Rx.lang_lit]
  constructor
  · rintro ⟨q1, t1, rfl, h1, u, t2, rfl, h2, n, t3, rfl, h3, w, t4, rfl, h4, q2, t5, rfl, h5, h6⟩
    rw [hopt] at h1 h5
    rw [Rx.lang_lit] at h2 h4
    have h3' := (hname _ _).1 h3
    have h6' : t5 = §":" := (Rx.lang_chr _ _ _).1 h6
    clear h3 h6
    subst h2; subst h4; subst h6'
    rcases h1 with rfl | rfl <;> rcases h5 with rfl | rfl <;> rcases h3' with rfl | rfl | rfl <;> decide
  · intro h
    have key : ∀ q1 n q2 : Str, q1 = §"'" ∨ q1 = [] → (n = §"hash_type" ∨ n = §"hash" ∨ n = §"hashtype") →
        q2 = §"'" ∨ q2 = [] →
        Regex.preProcessHashTypeKey.Lang bef (q1 ++ (§"{{ " ++ (n ++ (§" }}" ++ (q2 ++ §":"))))) := by
      intro q1 n q2 h1 h2 h3
      exact ⟨q1, _, rfl, (hopt _ _).2 h1, §"{{ ", _, rfl, (Rx.lang_lit _ _ _).2 rfl, n, _, rfl, (hname _ _).2 h2, §" }}", _, rfl,
        (Rx.lang_lit _ _ _).2 rfl, q2, §":", rfl, (hopt _ _).2 h3, (Rx.lang_chr _ _ _).2 rfl⟩
    simp only [hashKeys, List.flatMap_cons, List.flatMap_nil, List.append_nil, List.mem_append, List.mem_cons,
      List.not_mem_nil, or_false] at h
    rcases h with (rfl | rfl | rfl | rfl) | (rfl | rfl | rfl | rfl) | (rfl | rfl | rfl | rfl)
    · exact key [] _ [] (by simp) (Or.inl rfl) (by simp)
    · exact key §"'" _ [] (by simp) (Or.inl rfl) (by simp)
    · exact key [] _ §"'" (by simp) (Or.inl rfl) (by simp)
    · exact key §"'" _ §"'" (by simp) (Or.inl rfl) (by simp)
    · exact key [] _ [] (by simp) (Or.inr (Or.inl rfl)) (by simp)
    · exact key §"'" _ [] (by simp) (Or.inr (Or.inl rfl)) (by simp)
    · exact key [] _ §"'" (by simp) (Or.inr (Or.inl rfl)) (by simp)
    · exact key §"'" _ §"'" (by simp) (Or.inr (Or.inl rfl)) (by simp)
    · exact key [] _ [] (by simp) (Or.inr (Or.inr rfl)) (by simp)
    · exact key §"'" _ [] (by simp) (Or.inr (Or.inr rfl)) (by simp)
    · exact key [] _ §"'" (by simp) (Or.inr (Or.inr rfl)) (by simp)
    · exact key §"'" _ §"'" (by simp) (Or.inr (Or.inr rfl)) (by simp)

/-- Text in which no match starts is copied. -/
theorem subGo_copy (r : Rx) (f : RMatch → Str) (pre tail : Str) : ∀ bef,
    (∀ a c u, pre = a ++ c :: u → ∀ t, (∃ bef, r.Lang bef t) → ¬ t <+: c :: u ++ tail) →
    r.subGo f 0 bef (pre ++ tail) = pre ++ r.subGo f 0 (pre.reverse ++ bef) tail := by
  induction pre with
  | nil => intro bef _; rfl
  | cons c cs ih =>
    intro bef h
    simp only [List.cons_append, Rx.subGo]
    have hm : r.matchAt bef (c :: (cs ++ tail)) = none := by
      cases hx : r.matchAt bef (c :: (cs ++ tail)) with
      | none => rfl
      | some m =>
        obtain ⟨t, rest, h1, h2⟩ := (Rx.matchAt_isSome r bef (c :: (cs ++ tail))).1 (by rw [hx]; rfl)
        exact absurd ⟨rest, h1.symm⟩ (h [] c cs rfl t ⟨_, h2⟩)
    rw [hm]
    simp only
    rw [ih (c :: bef) (fun a d u hp => h (c :: a) d u (by rw [hp]; rfl))]
    simp

theorem key_prefix_line {k b u rest : Str} (hk : '\n' ∉ k) (h : k <+: b ++ §"\n" ++ rest) (hu : b = u) :
    k <+: u := by
  subst hu
  obtain ⟨y, hy⟩ := h
  rw [List.append_assoc] at hy
  rcases List.append_eq_append_iff.1 hy with ⟨z, h1, h2⟩ | ⟨z, h1, h2⟩
  · exact ⟨z, h1.symm⟩
  · cases z with
    | nil => rw [h1]; simp
    | cons c z =>
      simp only [List.cons_append, List.nil_append, List.cons.injEq] at h2
      exact absurd (by rw [h1, h2.1]; simp) hk

theorem keys_noNewline : ∀ k ∈ hashKeys, '\n' ∉ k := by decide
theorem keys_head : ∀ k ∈ hashKeys, ∃ c t, k = c :: t ∧ (c = '{' ∨ c = '\'') := by
  intro k hk
  refine ⟨k.headD ' ', k.tail, ?_, ?_⟩ <;> revert k <;> decide
theorem keys_brace : ∀ k ∈ hashKeys, '{' ∈ k := by decide
theorem keys_colon : ∀ k ∈ hashKeys, k = k.dropLast ++ §":" ∧ ':' ∉ k.dropLast := by decide

theorem colon_inj {a b x y : Str} (ha : ':' ∉ a) (hb : ':' ∉ b) (h : a ++ ':' :: x = b ++ ':' :: y) : a = b := by
  induction a generalizing b with
  | nil =>
    cases b with
    | nil => rfl
    | cons c cs => simp only [List.nil_append, List.cons_append, List.cons.injEq] at h; exact absurd (by rw [h.1]; exact List.mem_cons_self) hb
  | cons d ds ih =>
    cases b with
    | nil => simp only [List.nil_append, List.cons_append, List.cons.injEq] at h; exact absurd (by rw [← h.1]; exact List.mem_cons_self) ha
    | cons c cs =>
      simp only [List.cons_append, List.cons.injEq] at h
      rw [h.1, ih (fun h => ha (by simp [h])) (fun h => hb (by simp [h])) h.2]

/-- At a key the match is this key. -/
theorem key_match {k rest : Str} (hk : k ∈ hashKeys) (bef : Str) :
    ∃ m, Regex.preProcessHashTypeKey.matchAt bef (k ++ rest) = some m ∧ m.text = k := by
  have hsome := (Rx.matchAt_isSome Regex.preProcessHashTypeKey bef (k ++ rest)).2 ⟨k, rest, rfl, (hashKey_lang _ _).2 hk⟩
  cases hx : Regex.preProcessHashTypeKey.matchAt bef (k ++ rest) with
  | none => rw [hx] at hsome; cases hsome
  | some m =>
    refine ⟨m, rfl, ?_⟩
    unfold Rx.matchAt at hx
    split at hx
    · cases hx
    · rename_i s l hl
      injection hx with hx; subst hx
      obtain ⟨t, ht, hL⟩ := Regex.preProcessHashTypeKey.run_sound ⟨bef, k ++ rest, []⟩ s (by rw [hl]; simp)
      have ht1 : k ++ rest = t ++ s.aft := ht.1
      have htext : (k ++ rest).take ((k ++ rest).length - s.aft.length) = t := by
        rw [ht1]; simp
      simp only [htext]
      have h1 := keys_colon t ((hashKey_lang _ _).1 hL)
      have h2 := keys_colon k hk
      have := colon_inj (x := rest) (y := s.aft) h2.2 h1.2 (by
        have e : k.dropLast ++ §":" ++ rest = t.dropLast ++ §":" ++ s.aft := by rw [← h1.1, ← h2.1]; exact ht1
        simpa using e)
      rw [h1.1, h2.1, this]

theorem sub_line {l l' rest : Str} {b : Str} (hl : l = b ++ §"\n") (hb : '\n' ∉ b)
    (h : ((∀ k ∈ hashKeys, ¬ k <:+: l) ∧ l' = l) ∨
      ∃ pre k post, l = pre ++ k ++ post ∧ k ∈ hashKeys ∧ '{' ∉ pre ∧ '\'' ∉ pre ∧ '{' ∉ post ∧ l' = pre ++ §"sha256:" ++ post) :
    ∀ bef, ∃ bef', Regex.preProcessHashTypeKey.subGo (fun _ => §"sha256:") 0 bef (l ++ rest) =
      l' ++ Regex.preProcessHashTypeKey.subGo (fun _ => §"sha256:") 0 bef' rest := by
  have hins : ∀ (k c : Str) (x : Char) (u : Str), k ∈ hashKeys → l = c ++ x :: u → k <+: x :: u ++ rest → k <:+: l ∧ k <:+: x :: u := by
    intro k c x u hk hcu hp
    have hu : ∃ u0, x :: u = u0 ++ §"\n" ∧ '\n' ∉ u0 := by
      have e : b ++ §"\n" = c ++ x :: u := by rw [← hl]; exact hcu
      rcases List.append_eq_append_iff.1 e with ⟨z, h1, h2⟩ | ⟨z, h1, h2⟩
      · cases z with
        | nil => exact ⟨[], by simpa using h2.symm, by simp⟩
        | cons y z => simp at h2
      · exact ⟨z, h2, fun hm => hb (by rw [h1]; simp [hm])⟩
    obtain ⟨u0, hu0, hn⟩ := hu
    have : k <+: u0 := key_prefix_line (rest := rest) (keys_noNewline k hk) (by rw [← hu0]; exact hp) rfl
    have h2 : k <:+: x :: u := (this.trans ⟨§"\n", hu0.symm⟩).isInfix
    exact ⟨h2.trans (by rw [hcu]; exact (List.suffix_append _ _).isInfix), h2⟩
  intro bef
  rcases h with ⟨hno, rfl⟩ | ⟨pre, k, post, hpk, hk, h1, h2, h3, rfl⟩
  · refine ⟨_, subGo_copy _ _ l' rest bef ?_⟩
    rintro a c u hpre t ⟨bef', hL⟩ hp
    have hk := (hashKey_lang _ _).1 hL
    exact hno t hk (hins t a c u hk hpre hp).1
  · rw [hpk, List.append_assoc, List.append_assoc, subGo_copy _ _ pre _ bef (by
      rintro a c u hpre t ⟨bef', hL⟩ hp
      obtain ⟨d, t', rfl, hd⟩ := keys_head t ((hashKey_lang _ _).1 hL)
      simp only [List.cons_append] at hp
      obtain ⟨rfl, _⟩ := List.cons_prefix_cons.1 hp
      rcases hd with rfl | rfl
      · exact h1 (by rw [hpre]; simp)
      · exact h2 (by rw [hpre]; simp))]
    obtain ⟨m, hm, hmt⟩ := key_match (rest := post ++ rest) hk (pre.reverse ++ bef)
    obtain ⟨c, t, hct, _⟩ := keys_head k hk
    have hsub : ∀ bef, Regex.preProcessHashTypeKey.matchAt bef (k ++ (post ++ rest)) = some m →
        Regex.preProcessHashTypeKey.subGo (fun _ => §"sha256:") 0 bef (k ++ (post ++ rest)) =
        §"sha256:" ++ Regex.preProcessHashTypeKey.subGo (fun _ => §"sha256:") 0 (k.reverse ++ bef) (post ++ rest) := by
      intro bef hm
      rw [hct] at hm ⊢
      simp only [List.cons_append, Rx.subGo] at hm ⊢
      rw [hm]
      simp only [hmt, hct, List.length_cons, Nat.add_sub_cancel]
      rw [Rx.subGo_skip _ _ t.length _ t _ rfl]
      simp
    rw [hsub _ hm, subGo_copy _ _ post rest _ (by
      rintro a c u hpost t ⟨bef', hL⟩ hp
      have hk' := (hashKey_lang _ _).1 hL
      obtain ⟨y, z, hyz⟩ := (hins t (pre ++ k ++ a) c u hk' (by rw [hpk, hpost]; simp) hp).2
      exact h3 (by rw [hpost, List.mem_append]; right; rw [← hyz]; simp [keys_brace t hk']))]
    exact ⟨post.reverse ++ (k.reverse ++ (pre.reverse ++ bef)), by simp⟩

/-- C71: in a text of lines each of which is a definition of a hash type variable, or does not end in one and has at most
one key that is such a variable, the definitions go, the keys become `sha256:`, and all else stays, in whatever order the
three definitions are looked for.  Missing: lines that end in a definition, see the violations. -/
theorem C71_cleaned_partial (variants : List Str) (hperm : variants.Perm hashTypeLines) (lines : List (Str × Str))
    (h : ∀ l ∈ lines, cleaned l.1 l.2) :
    preProcessRemoveHashType variants (lines.map (·.1)).flatten = (lines.map (·.2)).flatten := by
  unfold preProcessRemoveHashType
  rw [removeDefs variants _ (fun d hd => hperm.mem_iff.1 hd) (by
    intro l hl
    rw [List.mem_map] at hl
    obtain ⟨x, hx, rfl⟩ := hl
    rcases h x hx with ⟨h1, _⟩ | ⟨h1, h2, _⟩
    · exact Or.inl h1
    · exact Or.inr ⟨h1, h2⟩)]
  unfold Rx.sub
  suffices ∀ bef, Regex.preProcessHashTypeKey.subGo (fun _ => §"sha256:") 0 bef
      ((lines.map (·.1)).filter (· ∉ variants)).flatten = (lines.map (·.2)).flatten from this []
  induction lines with
  | nil => intro bef; rfl
  | cons x lines ih =>
    intro bef
    have ih := ih (fun l hl => h l (by simp [hl]))
    rcases h x (by simp) with ⟨h1, h2⟩ | ⟨⟨b, hb, hbn⟩, h2, h3⟩
    · rw [List.map_cons, List.filter_cons_of_neg (by simpa using hperm.mem_iff.2 h1), ih, List.map_cons, List.flatten_cons, h2]
      rfl
    · have hni : x.1 ∉ variants := fun hm => h2 x.1 (hperm.mem_iff.1 hm) (List.suffix_refl _)
      rw [List.map_cons, List.filter_cons_of_pos (by simpa using hni), List.flatten_cons]
      obtain ⟨bef', hs⟩ := sub_line (rest := ((lines.map (·.1)).filter (· ∉ variants)).flatten) hb hbn h3 bef
      rw [hs, ih]
      rfl

theorem cleaned_def {l : Str} (h : l ∈ hashTypeLines) : cleaned l [] := Or.inl ⟨h, rfl⟩

example : cleaned §"{% set hash_type = \"sha256\" %}\n" [] := cleaned_def (by decide)
example : cleaned §"  {{ hash_type }}: abc\n" §"  sha256: abc\n" :=
  Or.inr ⟨⟨§"  {{ hash_type }}: abc", by decide, by decide⟩, by decide,
    Or.inr ⟨§"  ", §"{{ hash_type }}:", §" abc\n", by decide, by decide, by decide, by decide, by decide, by decide⟩⟩
example : preProcessRemoveHashType hashTypeVariants
      §"{% set hash_type = \"sha256\" %}\nsource:\n  {{ hash_type }}: abc\n" = §"source:\n  sha256: abc\n" := by decide +kernel

/-- C71 is false in general: the code looks for the definitions in the order of a Python set, and what is left can depend
on it. -/
theorem C71_order_violation :
    let text := §"{% set hash{% set hash = \"sha256\" %}\n_type = \"sha256\" %}\n"
    preProcessRemoveHashType [§"{% set hash_type = \"sha256\" %}\n", §"{% set hashtype = \"sha256\" %}\n",
      §"{% set hash = \"sha256\" %}\n"] text = §"{% set hash_type = \"sha256\" %}\n" ∧
    preProcessRemoveHashType [§"{% set hash = \"sha256\" %}\n", §"{% set hashtype = \"sha256\" %}\n",
      §"{% set hash_type = \"sha256\" %}\n"] text = [] := by decide +kernel

/-- C71 is false for a definition that has been commented out: the next line becomes part of the comment. -/
theorem C71_comment_violation :
    preProcessRemoveHashType hashTypeVariants §"# {% set hash_type = \"sha256\" %}\npackage:\n  name: p\n" =
      §"# package:\n  name: p\n" := by decide +kernel

end Crm
