import Verif.Lemmas.SelEdit
import Verif.Lemmas.TemplateText
import Verif.Props.SelectorTable
import Verif.Examples.ToyYaml

/-!
# The comments of a recipe and the selector of a line (C74, C75)
-/

namespace Crm
open Spec

namespace Spec

/-- What `get_comments_table` notes for the lines of a recipe: path and comment, in document order. -/
def noted (root : Node) : List (Str × Str) :=
  (nodesWithPaths root).filterMap fun np => (Recipe.commentOf np.1).map fun c => (np.2, c)

/-- A text that may be used as a selector: brackets on one line, at its start. -/
def SelectorText (d : Str) : Prop := ∃ body rest, d = '[' :: (body ++ ']' :: rest) ∧ '\n' ∉ body

end Spec

/-! ## The table -/

theorem foldl_insertD_lookup {α : Type} (l : List (Str × α)) (init : List (Str × α)) (k : Str) :
    lookupD k (l.foldl (fun t kv => insertD kv.1 kv.2 t) init) =
      ((l.reverse.find? fun kv => kv.1 = k).map (·.2)).or (lookupD k init) := by
  induction l generalizing init with
  | nil => simp
  | cons e es ih =>
    rw [List.foldl_cons, ih, List.reverse_cons, List.find?_append, lookupD_insertD]
    cases h : es.reverse.find? (fun kv => decide (kv.1 = k)) with
    | some x => simp
    | none =>
      simp only [Option.map_none, Option.none_or, List.find?_cons, List.find?_nil]
      by_cases hk : e.1 = k
      · subst hk; simp
      · have hk' : ¬ k = e.1 := fun h => hk h.symm
        simp [hk, hk']

theorem foldl_insertD_keys {α : Type} (l : List (Str × α)) (init : List (Str × α)) (hi : (init.map (·.1)).Nodup) :
    ((l.foldl (fun t kv => insertD kv.1 kv.2 t) init).map (·.1)).Nodup := by
  induction l generalizing init with
  | nil => exact hi
  | cons e es ih => exact ih _ (nodup_insertD _ _ _ hi)

theorem commentsTable_eq (r : Recipe) :
    r.getCommentsTable = (noted r.root).foldl (fun t kv => insertD kv.1 kv.2 t) [] := by
  unfold Recipe.getCommentsTable noted nodesWithPaths
  generalize ([] : List (Str × Str)) = init
  induction visitAll r.root generalizing init with
  | nil => rfl
  | cons np l ih =>
    simp only [List.foldl_cons, List.map_cons, List.filterMap_cons]
    rw [ih]
    cases Recipe.commentOf np.1 <;> rfl

/-- C74: the table holds one entry for each path that has a comment to be noted; if several lines share the path, the entry
is that of the last of them. -/
theorem C74_table (r : Recipe) (path : Str) :
    lookupD path r.getCommentsTable = ((noted r.root).reverse.find? fun e => e.1 = path).map (·.2) ∧
    (r.getCommentsTable.map (·.1)).Nodup := by
  rw [commentsTable_eq]
  exact ⟨by rw [foldl_insertD_lookup]; simp [lookupD], foldl_insertD_keys _ _ (by simp)⟩

/-- C74: a comment without a selector is noted as it is; lines without a comment and comment lines are not noted. -/
theorem C74_plain (n : Node) (hl : '\n' ∉ n.comment) (hs : selectorIn n.comment = none) :
    Recipe.commentOf n = if n.isComment = true ∨ n.comment = [] then none else some n.comment := by
  have h1 : Regex.selector.test n.comment = false := by
    have := selOf_selectorIn hl
    rw [hs] at this
    unfold selOf at this
    simp only [Option.map_eq_none_iff] at this
    simp [Rx.test, this]
  unfold Recipe.commentOf
  by_cases h2 : n.isComment = true ∨ n.comment = []
  · rw [if_pos h2, if_pos (by simpa using h2)]
  · rw [if_neg h2, if_neg (by simpa using h2), h1]
    simp

theorem replaceOne_filter (P : Char → Bool) (old new : Str) (h : old.filter P = new.filter P) (s : Str) :
    (replaceOne old new s).filter P = s.filter P := by
  induction s with
  | nil => rfl
  | cons c cs ih =>
    unfold replaceOne
    split
    · rename_i hp
      obtain ⟨t, ht⟩ := List.isPrefixOf_iff_prefix.1 hp
      rw [← ht, List.drop_left, List.filter_append, List.filter_append, h]
    · rw [List.filter_cons, List.filter_cons, ih]

theorem selector_sub (pre body post : Str) (h1 : '[' ∉ pre) (h2 : ']' ∉ post) (hn : '\n' ∉ body ++ ']' :: post) :
    Regex.selector.sub (fun _ => []) (pre ++ '[' :: (body ++ ']' :: post)) = pre ++ post := by
  unfold Rx.sub
  rw [subGo_text]
  · congr 1
    have hm := selector_matchAt_some (bef := pre.reverse ++ []) hn h2
    rw [Rx.subGo, hm]
    simp only [List.nil_append]
    have hlen : ('[' :: (body ++ [']'])).length - 1 = (body ++ [']']).length := by simp
    rw [hlen]
    have he : body ++ ']' :: post = (body ++ [']']) ++ post := by simp
    rw [he, Rx.subGo_skip _ _ _ _ _ _ rfl]
    have key : ∀ bef, Regex.selector.subGo (fun _ => []) 0 bef post = post := by
      intro bef
      have := subGo_text Regex.selector (fun _ => []) bef post [] (by
        intro x y hxy hy
        obtain ⟨c, cs, rfl⟩ := List.exists_cons_of_ne_nil hy
        refine selector_matchAt_none (Or.inr ?_)
        rw [show cs.append [] = cs from List.append_nil cs]
        exact fun hm => h2 (by rw [hxy]; simp [hm]))
      rw [List.append_nil] at this
      rw [this]
      simp [Rx.subGo]
    exact key _
  · intro x y hxy hy
    obtain ⟨c, cs, rfl⟩ := List.exists_cons_of_ne_nil hy
    exact selector_matchAt_none (Or.inl (fun hc => h1 (by rw [hxy, hc]; simp)))

/-- The text around the selector, as the table shows it. -/
def tidy (t : Str) : Str := replaceOne §"#  " §"# " (replaceOne §"#  # " §"# " (strip t))

theorem commentOf_selector (n : Node) (pre body post : Str) (hc : n.comment = pre ++ '[' :: (body ++ ']' :: post)) (h1 : '[' ∉ pre)
    (h2 : ']' ∉ post) (hn : '\n' ∉ n.comment) (hl : n.isComment = false) :
    Recipe.commentOf n = if tidy (pre ++ post) = [] ∨ tidy (pre ++ post) = §"#" then none
      else if (tidy (pre ++ post)).head? ≠ some '#' then some (§"# " ++ tidy (pre ++ post)) else some (tidy (pre ++ post)) := by
  have hn' : '\n' ∉ body ++ ']' :: post := fun h => hn (by rw [hc]; simp only [List.mem_append, List.mem_cons]; right; right; simpa using h)
  have ht : Regex.selector.test n.comment = true := by
    unfold Rx.test Rx.search
    rw [hc, selector_searchFrom_some hn' h2 h1]
    rfl
  have hne : ¬ ((n.isComment || decide (n.comment = [])) = true) := by simp [hl, hc]
  unfold Recipe.commentOf
  rw [if_neg hne, if_pos ht, hc, selector_sub pre body post h1 h2 hn']
  rfl

theorem filter_spaces (P : Char → Bool) (hP : ∀ c, isSpace c = true → P c = false) (s : Str) : (strip s).filter P = s.filter P := by
  obtain ⟨a, c, he, ha, hc⟩ := strip_decomp s
  have e1 : a.filter P = [] := List.filter_eq_nil_iff.2 (fun x hx => by rw [hP x (ha x hx)]; simp)
  have e2 : c.filter P = [] := List.filter_eq_nil_iff.2 (fun x hx => by rw [hP x (hc x hx)]; simp)
  conv => rhs; rw [he]
  rw [List.filter_append, List.filter_append, e1, e2]
  simp

theorem tidy_filter (P : Char → Bool) (hP : ∀ c, isSpace c = true → P c = false) (hP2 : P '#' = false) (s : Str) :
    (tidy s).filter P = s.filter P := by
  have hsp : P ' ' = false := hP ' ' (by decide)
  unfold tidy
  rw [replaceOne_filter P _ _ (by simp [hsp, hP2]), replaceOne_filter P _ _ (by simp [hsp, hP2]), filter_spaces P hP]

theorem replaceOne_subset (old new s : Str) (c : Char) (h : c ∈ replaceOne old new s) : c ∈ s ∨ c ∈ new := by
  induction s with
  | nil => cases h
  | cons d ds ih =>
    unfold replaceOne at h
    split at h
    · rcases List.mem_append.1 h with h | h
      · exact Or.inr h
      · exact Or.inl (List.mem_of_mem_drop h)
    · rcases List.mem_cons.1 h with h | h
      · exact Or.inl (by simp [h])
      · rcases ih h with h | h
        · exact Or.inl (by simp [h])
        · exact Or.inr h

theorem tidy_newline (s : Str) (h : '\n' ∉ s) : '\n' ∉ tidy s := by
  intro hm
  unfold tidy at hm
  rcases replaceOne_subset _ _ _ _ hm with hm | hm
  · rcases replaceOne_subset _ _ _ _ hm with hm | hm
    · obtain ⟨a, c, he, _, _⟩ := strip_decomp s
      exact h (by rw [he]; simp [hm])
    · exact absurd hm (by decide)
  · exact absurd hm (by decide)

/-- C74: of a comment with a selector, everything but the selector (and white space and number signs) is noted, in order; what is
noted starts with a number sign and has no selector in it. -/
theorem C74_selector_is_left_out (n : Node) (pre body post : Str) (hc : n.comment = pre ++ '[' :: (body ++ ']' :: post)) (h1 : '[' ∉ pre)
    (h2 : ']' ∉ post) (hn : '\n' ∉ n.comment) (c : Str) (h : Recipe.commentOf n = some c) :
    words c = words (pre ++ post) ∧ c.head? = some '#' ∧ selectorIn c = none := by
  have hl : n.isComment = false := by
    cases hb : n.isComment with
    | false => rfl
    | true => simp [Recipe.commentOf, hb] at h
  rw [commentOf_selector n pre body post hc h1 h2 hn hl] at h
  have hnl : '\n' ∉ pre ++ post := by
    intro hm; apply hn; rw [hc]
    simp only [List.mem_append, List.mem_cons] at hm ⊢
    rcases hm with hm | hm
    · exact Or.inl hm
    · exact Or.inr (Or.inr (Or.inr (Or.inr hm)))
  have hsp : ∀ c : Char, isSpace c = true → (!isSpace c && decide (c ≠ '#')) = false := fun c hc => by simp [hc]
  have hw : words (tidy (pre ++ post)) = words (pre ++ post) := tidy_filter _ hsp (by decide) _
  have hbr : ∀ c : Char, isSpace c = true → (decide (c = '[') || decide (c = ']')) = false := by
    intro c hc
    by_cases e1 : c = '['
    · subst e1; exact absurd hc (by decide)
    · by_cases e2 : c = ']'
      · subst e2; exact absurd hc (by decide)
      · simp [e1, e2]
  have hsel : ∀ p, p = [] ∨ p = §"# " → selectorIn (p ++ tidy (pre ++ post)) = none := by
    intro p hp
    have hn2 : '\n' ∉ p ++ tidy (pre ++ post) := by
      intro hm
      rcases List.mem_append.1 hm with hm | hm
      · rcases hp with rfl | rfl
        · cases hm
        · exact absurd hm (by decide)
      · exact tidy_newline _ hnl hm
    rw [← selOf_selectorIn hn2]
    refine selOf_none_of_filter hn2 (pre.filter (fun c => c = '[' || c = ']')) (post.filter (fun c => c = '[' || c = ']'))
      (fun hx => h1 (List.mem_filter.1 hx).1) (fun hx => h2 (List.mem_filter.1 hx).1) ?_
    rw [List.filter_append, tidy_filter _ hbr (by decide), List.filter_append]
    rcases hp with rfl | rfl
    · rfl
    · rfl
  split at h
  · cases h
  · rename_i hne
    split at h
    · injection h with h; subst h
      refine ⟨?_, rfl, hsel _ (Or.inr rfl)⟩
      rw [← hw]
      rfl
    · rename_i hhead
      injection h with h; subst h
      exact ⟨hw, Classical.not_not.1 hhead, hsel [] (Or.inl rfl)⟩

/-- C74: a comment that says something besides the selector is noted. -/
theorem C74_text_is_noted (n : Node) (pre body post : Str) (hc : n.comment = pre ++ '[' :: (body ++ ']' :: post)) (h1 : '[' ∉ pre)
    (h2 : ']' ∉ post) (hn : '\n' ∉ n.comment) (hl : n.isComment = false) (hw : words (pre ++ post) ≠ []) :
    (Recipe.commentOf n).isSome = true := by
  rw [commentOf_selector n pre body post hc h1 h2 hn hl]
  have hsp : ∀ c : Char, isSpace c = true → (!isSpace c && decide (c ≠ '#')) = false := fun c hc => by simp [hc]
  have hw' : words (tidy (pre ++ post)) = words (pre ++ post) := tidy_filter _ hsp (by decide) _
  rw [if_neg]
  · split <;> rfl
  · rintro (h | h)
    · rw [h] at hw'; exact hw hw'.symm
    · rw [h] at hw'; exact hw hw'.symm

/-- C74: a selector on its own is not a comment. -/
theorem C74_selector_only (n : Node) (w1 w2 body w3 : Str) (hc : n.comment = w1 ++ §"#" ++ w2 ++ '[' :: (body ++ ']' :: w3))
    (s1 : ∀ c ∈ w1, c = ' ') (s2 : ∀ c ∈ w2, c = ' ') (s3 : ∀ c ∈ w3, c = ' ') (hn : '\n' ∉ n.comment) (hl : n.isComment = false) :
    Recipe.commentOf n = none := by
  have hsp : ∀ w : Str, (∀ c ∈ w, c = ' ') → ∀ c ∈ w, isSpace c = true := fun w h c hc => by rw [h c hc]; decide
  rw [commentOf_selector n (w1 ++ §"#" ++ w2) body w3 hc ?_ ?_ hn hl]
  · have : strip (w1 ++ §"#" ++ w2 ++ w3) = §"#" := by
      rw [List.append_assoc]
      refine strip_around w1 §"#" (w2 ++ w3) (hsp w1 s1) ?_ ?_
      · intro c hc
        rcases List.mem_append.1 hc with hc | hc
        · exact hsp w2 s2 c hc
        · exact hsp w3 s3 c hc
      · exact ⟨by intro c hc; injection hc with hc; subst hc; decide, by intro c hc; injection hc with hc; subst hc; decide⟩
    unfold tidy
    rw [this]
    rfl
  · simp only [List.mem_append, not_or]
    exact ⟨⟨fun h => absurd (s1 _ h) (by decide), by decide⟩, fun h => absurd (s2 _ h) (by decide)⟩
  · exact fun h => absurd (s3 _ h) (by decide)

theorem replaceOne_absent (old new s : Str) (h : ¬ old <:+: s) : replaceOne old new s = s := by
  induction s with
  | nil => rfl
  | cons c cs ih =>
    unfold replaceOne
    rw [if_neg, ih]
    · rintro ⟨a, b, hab⟩
      exact h ⟨c :: a, b, by simp [← hab]⟩
    · intro hp
      obtain ⟨t, ht⟩ := List.isPrefixOf_iff_prefix.1 hp
      exact h ⟨[], t, by simpa using ht⟩

/-- C74: of `# [linux] text` the table shows `# text`. -/
theorem C74_usual (n : Node) (body text : Str) (hc : n.comment = §"# [" ++ body ++ §"] " ++ text) (ht : text ≠ [])
    (hcl : ∀ c, text.head? = some c ∨ text.getLast? = some c → isSpace c = false) (h1 : '#' ∉ text) (h2 : ']' ∉ text)
    (hn : '\n' ∉ n.comment) (hl : n.isComment = false) : Recipe.commentOf n = some (§"# " ++ text) := by
  rw [commentOf_selector n §"# " body (' ' :: text) (by rw [hc]; simp) (by decide) (by simp [h2]) hn hl]
  have hlast : (§"#  " ++ text).getLast? = text.getLast? := by
    rw [List.getLast?_append]
    cases h : text.getLast? with
    | some x => rfl
    | none => exact absurd (List.getLast?_eq_none_iff.1 h) ht
  have hstrip : strip (§"# " ++ ' ' :: text) = §"#  " ++ text := by
    apply strip_clean
    refine ⟨fun c hc => ?_, fun c hc => hcl c (Or.inr ?_)⟩
    · injection hc with hc; subst hc; decide
    · rw [← hlast]; exact hc
  have htidy : tidy (§"# " ++ ' ' :: text) = §"# " ++ text := by
    unfold tidy
    rw [hstrip, replaceOne_absent §"#  # "]
    · simp [replaceOne]
    · rintro ⟨a, b, hab⟩
      have hcount := congrArg (List.count '#') hab
      simp [List.count_eq_zero_of_not_mem h1] at hcount
      omega
  rw [htidy, if_neg (by simp), if_neg (by simp)]

/-! ## The selector of a line -/

/-- C75: what `get_selector_at_path` and `contains_selector_at_path` answer. -/
theorem C75_selector_at_path (r : Recipe) (path comment : Str) (hc : commentAt r path = some comment) (hn : '\n' ∉ comment) :
    (∀ s, selectorIn comment = some s → r.containsSelectorAtPath path = .ok true ∧ ∀ d, r.getSelectorAtPath path d = .ok s) ∧
    (selectorIn comment = none → r.containsSelectorAtPath path = .ok false ∧ r.getSelectorAtPath path none = .error .keyError ∧
      ∀ d, (SelectorText d → r.getSelectorAtPath path (some d) = .ok d) ∧
        (¬ SelectorText d → r.getSelectorAtPath path (some d) = .error .valueError)) := by
  unfold commentAt at hc
  split at hc
  · rename_i n hnode
    injection hc with hc; subst hc
    have hsel := selOf_selectorIn hn
    unfold selOf at hsel
    constructor
    · intro s hs
      rw [hs] at hsel
      obtain ⟨m, hm, rfl⟩ := Option.map_eq_some_iff.1 hsel
      refine ⟨?_, fun d => ?_⟩
      · simp only [Recipe.containsSelectorAtPath, hnode, bind, Except.bind, Rx.test, hm]; rfl
      · simp only [Recipe.getSelectorAtPath, hnode, bind, Except.bind, hm]
    · intro hs
      rw [hs] at hsel
      have hm : Regex.selector.search n.comment = none := by simpa using hsel
      refine ⟨?_, ?_, fun d => ?_⟩
      · simp only [Recipe.containsSelectorAtPath, hnode, bind, Except.bind, Rx.test, hm]; rfl
      · simp only [Recipe.getSelectorAtPath, hnode, bind, Except.bind, hm]
      · have hiff : (Regex.selector.matchStart d).isSome = true ↔ SelectorText d := by
          rw [Rx.matchStart_iff]
          constructor
          · rintro ⟨t, post, rfl, hl⟩
            obtain ⟨t1, r1, rfl, h1, t2, r2, rfl, h2, h3⟩ := hl
            have h3' := (Rx.lang_chr _ _ _).1 h3
            have h1' := (Rx.lang_chr _ _ _).1 h1
            have h2' := (Rx.lang_star_cls _ _ _).1 h2
            refine ⟨t2, post, by rw [h1', h3']; simp, fun hm => ?_⟩
            have := h2' _ hm
            exact absurd this (by decide)
          · rintro ⟨body, rest, rfl, hb⟩
            refine ⟨'[' :: (body ++ [']']), rest, by simp, [ '[' ], body ++ [']'], rfl, (Rx.lang_chr _ _ _).2 rfl, body, [']'], rfl,
              (Rx.lang_star_cls _ _ _).2 ?_, (Rx.lang_chr _ _ _).2 rfl⟩
            intro c hc
            have : c ≠ '\n' := fun h => hb (h ▸ hc)
            simpa using this
        constructor
        · intro hd
          have h := hiff.2 hd
          have : (Regex.selector.matchStart d).isNone = false := by
            cases hx : Regex.selector.matchStart d with
            | none => rw [hx] at h; cases h
            | some x => rfl
          simp only [Recipe.getSelectorAtPath, hnode, bind, Except.bind, hm, this, Bool.false_eq_true, if_false]
        · intro hd
          have : (Regex.selector.matchStart d).isNone = true := by
            cases hx : Regex.selector.matchStart d with
            | none => rfl
            | some x => exact absurd (hiff.1 (by rw [hx]; rfl)) hd
          simp only [Recipe.getSelectorAtPath, hnode, bind, Except.bind, hm, this, if_true]
  · cases hc

/-- C75: on a path that leads nowhere, asking for the selector raises `KeyError`, whatever the default. -/
theorem C75_no_such_path (r : Recipe) (path : Str) (h : r.nodeAtPath path = .ok none) (d : Option Str) :
    r.getSelectorAtPath path d = .error .keyError ∧ r.containsSelectorAtPath path = .ok false := by
  constructor
  · simp only [Recipe.getSelectorAtPath, h, bind, Except.bind]
  · simp only [Recipe.containsSelectorAtPath, h, bind, Except.bind]

/-- A recipe with all kinds of comments. -/
def commentRecipe : Recipe := Toy.recipe
  "# top\na: 1  # plain\nb: 2  # [linux]\nc: 3  # [linux] text\nd:\n  - x  # only here\n  - y  # [win] # more\n"

example : commentRecipe.getCommentsTable =
    [(§"/a", §"# plain"), (§"/c", §"# text"), (§"/d/0", §"# only here"), (§"/d/1", §"# more")] := by decide +kernel

example : commentAt commentRecipe §"/c" = some §"# [linux] text" ∧ selectorIn §"# [linux] text" = some §"[linux]" ∧
    commentAt commentRecipe §"/a" = some §"# plain" ∧ selectorIn §"# plain" = none ∧
    commentRecipe.getSelectorAtPath §"/a" (some §"x[osx]") = .error .valueError ∧
    commentRecipe.getSelectorAtPath §"/a" (some §"[osx]") = .ok §"[osx]" := by decide +kernel

example : SelectorText §"[osx] x" := ⟨§"osx", §" x", rfl, by decide⟩

/-- A bracket anywhere in a comment is taken for a selector, and cut out of the comment: `# see [1] and [2] below` is noted as
`# see below`. -/
theorem C74_brackets_in_the_text_are_lost :
    (Toy.recipe "a: 1  # see [1] and [2] below\n").getCommentsTable = [(§"/a", §"# see  below")] ∧
    (Toy.recipe "a: 1  # see [1] and [2] below\n").getSelectorAtPath §"/a" = .ok §"[1] and [2]" := by decide +kernel

end Crm
