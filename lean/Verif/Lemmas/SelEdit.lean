import Verif.Lemmas.SelTable
import Verif.Lemmas.SelExpr

/-! Lemmas about editing selectors and comments. -/

namespace Crm
open Spec

theorem selOf_selectorIn {s : Str} (h : '\n' ∉ s) : selOf s = selectorIn s := selectorIn_search s h

theorem isSingleKey_children {n : Node} (h : n.isSingleKey = true) : ∃ x, n.children = [x] := by
  unfold Node.isSingleKey at h
  match hc : n.children with
  | [] => simp [hc] at h
  | [x] => exact ⟨x, rfl⟩
  | x :: y :: l => simp [hc] at h

theorem nodeAt_updateAt_other {f : Node → Node} : ∀ (pos q : Pos) (n m : Node), nodeAt n pos = some m →
    (∀ q', q = pos ++ q' → False) →
    (nodeAt (updateAt f pos n) q).map (fun m => (m.value, m.listMember, m.multiline, m.key, m.children.length, m.comment)) =
      (nodeAt n q).map (fun m => (m.value, m.listMember, m.multiline, m.key, m.children.length, m.comment))
  | [], q, n, m, _, h2 => (h2 q rfl).elim
  | i :: pos, [], n, m, _, _ => by
    simp only [updateAt, nodeAt, Option.map_some, List.length_modify]
  | i :: pos, j :: q, n, m, h1, h2 => by
    simp only [nodeAt] at h1
    cases hc : n.children[i]? with
    | none => rw [hc] at h1; cases h1
    | some c =>
      rw [hc] at h1
      simp only [updateAt, nodeAt, List.getElem?_modify]
      by_cases hij : i = j
      · subst hij
        simp only [hc, if_true, Option.map_some]
        exact nodeAt_updateAt_other pos q c m h1 fun q' hq => h2 q' (by rw [hq]; rfl)
      · simp only [hij, if_false]
        cases n.children[j]? <;> rfl

theorem nodeAt_updateAt_below {f : Node → Node} (pos q : Pos) (n m : Node) (h : nodeAt n pos = some m) :
    nodeAt (updateAt f pos n) (pos ++ q) = nodeAt (f m) q := by
  induction pos generalizing n with
  | nil => injection h with h; subst h; rfl
  | cons i pos ih =>
    simp only [nodeAt] at h
    cases hc : n.children[i]? with
    | none => rw [hc] at h; cases h
    | some c =>
      rw [hc] at h
      simp only [List.cons_append, updateAt, nodeAt, List.getElem?_modify, hc, if_true, Option.map_some]
      exact ih c h

theorem nodeAt_append' (pos q : Pos) (n m : Node) (h : nodeAt n pos = some m) : nodeAt n (pos ++ q) = nodeAt m q := by
  induction pos generalizing n with
  | nil => injection h with h; subst h; rfl
  | cons i pos ih =>
    simp only [nodeAt] at h
    cases hc : n.children[i]? with
    | none => rw [hc] at h; cases h
    | some c =>
      rw [hc] at h
      simp only [List.cons_append, nodeAt, hc]
      exact ih c h

theorem onlyLineChanged_setLineComment (c : Str) (pos : Pos) (t n : Node) (h : nodeAt t pos = some n) :
    onlyLineChanged pos t (updateAt (setLineComment c) pos t) := by
  intro q
  by_cases hq : ∃ q', q = pos ++ q'
  · obtain ⟨q', rfl⟩ := hq
    rw [nodeAt_updateAt_below pos q' t n h, nodeAt_append' pos q' t n h]
    cases q' with
    | nil =>
      refine ⟨?_, fun h1 _ => absurd (by simp) h1⟩
      simp only [nodeAt, Option.map_some, setLineComment]
      split <;> simp
    | cons i q' =>
      by_cases hk : n.isSingleKey = true
      · obtain ⟨x, hx⟩ := isSingleKey_children hk
        have hc : (setLineComment c n).children = [{ x with comment := c }] := by simp [setLineComment, hk, hx]
        simp only [nodeAt, hc, hx]
        match i, q' with
        | 0, [] => exact ⟨rfl, fun _ h2 => absurd rfl h2⟩
        | 0, j :: q' => exact ⟨rfl, fun _ _ => rfl⟩
        | i + 1, q' => exact ⟨rfl, fun _ _ => rfl⟩
      · have hc : (setLineComment c n).children = n.children := by simp [setLineComment, hk]
        simp only [nodeAt, hc]
        exact ⟨trivial, fun _ _ => trivial⟩
  · have := nodeAt_updateAt_other (f := setLineComment c) pos q t n h fun q' hq' => hq ⟨q', hq'⟩
    constructor
    · have h2 := congrArg (Option.map fun (a : PyVal × Bool × _ × Bool × Nat × Str) => (a.1, a.2.1, a.2.2.1, a.2.2.2.1, a.2.2.2.2.1)) this
      rw [Option.map_map, Option.map_map] at h2
      exact h2
    · intro _ _
      have h2 := congrArg (Option.map fun (a : PyVal × Bool × _ × Bool × Nat × Str) => a.2.2.2.2.2) this
      rw [Option.map_map, Option.map_map] at h2
      exact h2

/-- Where an ordinary path leads, and what the recipe looks like after its comment was rewritten. -/
theorem ordinary_path {r : Recipe} {path : Str} (h : OrdinaryPath r path) :
    ∃ st pos n, strToStack path = .ok st ∧ traverse r.root st = some pos ∧ nodeAt r.root pos = some n ∧
      commentAt r path = some n.comment ∧
      ∀ (c : Str) (r' : Recipe), r'.root = updateAt (setLineComment c) pos r.root →
        r'.nodeAtPath path = .ok (some (setLineComment c n)) ∧
        (∀ q, traverse r'.root q = traverse r.root q) ∧ onlyLineChanged pos r.root r'.root := by
  obtain ⟨n, hn, h0, h1⟩ := h
  cases hst : strToStack path with
  | error e => simp only [Recipe.nodeAtPath, hst, bind, Except.bind] at hn; cases hn
  | ok st =>
    have hn' := hn
    simp only [Recipe.nodeAtPath, hst, bind, Except.bind, Except.ok.injEq] at hn
    cases htr : traverse r.root st with
    | none => rw [htr] at hn; cases hn
    | some pos =>
      rw [htr] at hn
      simp only [Option.bind_some] at hn
      refine ⟨st, pos, n, rfl, htr, hn, ?_, ?_⟩
      · simp only [commentAt, hn']
      · intro c r' hr'
        have hs := similar_setLineComment (R := fun _ _ => True) (fun _ => trivial) (n := n) (c := c) h0
          (fun x hx hk => h1 hk x hx) trivial (fun _ _ _ => trivial)
        have hu := similar_updateAt (R := fun _ _ => True) (fun _ => trivial) pos r.root n hn hs
        rw [← hr'] at hu
        refine ⟨?_, fun q => traverse_similar q _ _ hu, ?_⟩
        · simp only [Recipe.nodeAtPath, hst, bind, Except.bind, traverse_similar st _ _ hu, htr, Option.bind_some]
          rw [hr', nodeAt_updateAt_self pos r.root n hn]
        · rw [hr']; exact onlyLineChanged_setLineComment c pos r.root n hn

/-! ## String surgery -/

theorem replaceGo_filter (P : Char → Bool) (old new : Str) (hne : old ≠ []) (h : old.filter P = new.filter P) :
    ∀ (s : Str) (k : Nat), (replaceGo old new k s).filter P = (s.drop k).filter P
  | [], k => by simp [replaceGo]
  | c :: cs, k + 1 => by simp only [replaceGo, List.drop_succ_cons]; exact replaceGo_filter P old new hne h cs k
  | c :: cs, 0 => by
    simp only [replaceGo]
    split
    · rename_i hp
      obtain ⟨t, ht⟩ := List.isPrefixOf_iff_prefix.1 hp
      rw [List.filter_append, replaceGo_filter P old new hne h cs]
      obtain ⟨x, xs, rfl⟩ := List.exists_cons_of_ne_nil hne
      simp only [List.cons_append, List.cons.injEq] at ht
      obtain ⟨rfl, rfl⟩ := ht
      rw [← h]
      simp only [List.length_cons, Nat.add_sub_cancel, List.drop_left, List.drop_zero]
      rw [← List.filter_append]; rfl
    · rw [List.drop_zero, List.filter_cons, List.filter_cons, replaceGo_filter P old new hne h cs 0, List.drop_zero]

theorem replaceAll_filter (P : Char → Bool) (old new s : Str) (hne : old ≠ []) (h : old.filter P = new.filter P) :
    (replaceAll old new s).filter P = s.filter P := by
  unfold replaceAll; rw [replaceGo_filter P old new hne h]; simp

theorem replaceGo_subset (old new : Str) : ∀ (s : Str) (k : Nat) (c : Char), c ∈ replaceGo old new k s → c ∈ s ∨ c ∈ new
  | [], k, c, h => by simp [replaceGo] at h
  | x :: cs, k + 1, c, h => by
    simp only [replaceGo] at h
    rcases replaceGo_subset old new cs k c h with h | h
    · exact Or.inl (List.mem_cons_of_mem _ h)
    · exact Or.inr h
  | x :: cs, 0, c, h => by
    simp only [replaceGo] at h
    split at h
    · rcases List.mem_append.1 h with h | h
      · exact Or.inr h
      · rcases replaceGo_subset old new cs _ c h with h | h
        · exact Or.inl (List.mem_cons_of_mem _ h)
        · exact Or.inr h
    · rcases List.mem_cons.1 h with h | h
      · exact Or.inl (by rw [h]; simp)
      · rcases replaceGo_subset old new cs 0 c h with h | h
        · exact Or.inl (List.mem_cons_of_mem _ h)
        · exact Or.inr h

/-- Nothing is replaced where the text does not occur. -/
theorem replaceAll_absent (old new s : Str) (h : ¬ old <:+: s) : replaceAll old new s = s := by
  unfold replaceAll
  induction s with
  | nil => rfl
  | cons c cs ih =>
    simp only [replaceGo]
    rw [if_neg]
    · rw [ih]
      intro hi
      exact h (List.IsInfix.trans hi (List.suffix_cons c cs).isInfix)
    · intro hp
      exact h (List.isPrefixOf_iff_prefix.1 hp).isInfix

theorem replaceGo_skip (old new : Str) : ∀ (a b : Str), replaceGo old new a.length (a ++ b) = replaceGo old new 0 b
  | [], b => by simp
  | c :: a, b => by simp only [List.length_cons, List.cons_append, replaceGo]; exact replaceGo_skip old new a b

/-- Exactly one occurrence, and no match starts in front of it. -/
theorem replaceAll_once (x : Char) (xs new pre post : Str) (hpre : x ∉ pre) (hpost : ¬ (x :: xs) <:+: post) :
    replaceAll (x :: xs) new (pre ++ (x :: xs) ++ post) = pre ++ new ++ post := by
  unfold replaceAll
  induction pre with
  | nil =>
    simp only [List.nil_append, List.cons_append, replaceGo]
    rw [if_pos (by simp)]
    simp only [List.length_cons, Nat.add_sub_cancel, replaceGo_skip]
    have := replaceAll_absent (x :: xs) new post hpost
    unfold replaceAll at this
    rw [this]
  | cons c cs ih =>
    simp only [List.mem_cons, not_or] at hpre
    simp only [List.cons_append, replaceGo]
    rw [if_neg]
    · have := ih hpre.2
      simp only [List.cons_append, List.append_assoc] at this ⊢
      rw [this]
    · intro hp
      obtain ⟨t, ht⟩ := List.isPrefixOf_iff_prefix.1 hp
      simp only [List.cons_append, List.cons.injEq] at ht
      exact hpre.1 ht.1

theorem replaceOne_head (x : Char) (s new : Str) : replaceOne [x] new (x :: s) = new ++ s := by
  simp [replaceOne]

theorem extractSelector_brackets (body : Str) : extractSelector ('[' :: (body ++ [']'])) = body := by
  unfold extractSelector
  rw [replaceOne_head]
  simp only [List.nil_append, List.reverse_append, List.reverse_cons, List.reverse_nil]
  rw [List.singleton_append, replaceOne_head]
  simp

/-- A comment in which no opening bracket is followed by a closing one has no selector. -/
theorem selOf_none_of_filter {s : Str} (hn : '\n' ∉ s) (a b : Str) (ha : '[' ∉ a) (hb : ']' ∉ b)
    (h : s.filter (fun c => c = '[' || c = ']') = a ++ b) : selOf s = none := by
  rw [selOf_selectorIn hn]
  rcases selector_cases s with h1 | ⟨p, q, rfl, hp, hq⟩ | ⟨pre, body, post, rfl, _, _⟩
  · rw [← selOf_selectorIn hn]; unfold selOf
    rw [show Regex.selector.search s = none from selector_searchFrom_none h1]; rfl
  · simp only [selectorIn, dropWhile_ne_eq _ _ hp]
    rw [dropWhile_ne_nil]
    · rfl
    · simp only [List.mem_reverse, List.mem_cons, not_or]; exact ⟨by decide, hq⟩
  · exfalso
    have h2 : (pre ++ '[' :: (body ++ ']' :: post)).filter (fun c => c = '[' || c = ']') =
        pre.filter (fun c => c = '[' || c = ']') ++ '[' :: (body.filter (fun c => c = '[' || c = ']') ++
          ']' :: post.filter (fun c => c = '[' || c = ']')) := by
      simp [List.filter_append]
    rw [h2] at h
    rcases List.append_eq_append_iff.1 h with ⟨c, h3, h4⟩ | ⟨c, h3, h4⟩
    · cases c with
      | nil =>
        simp only [List.nil_append] at h4
        exact hb (by rw [← h4]; simp)
      | cons y ys =>
        injection h4 with h4 h5
        exact ha (by rw [h3, ← h4]; simp)
    · exact hb (by rw [h4]; simp)

/-- Where the selector of a comment is. -/
theorem selOf_some_iff {s sel : Str} (hn : '\n' ∉ s) (h : selOf s = some sel) :
    ∃ pre body post, sel = '[' :: (body ++ [']']) ∧ s = pre ++ sel ++ post ∧ '[' ∉ pre ∧ ']' ∉ post := by
  rw [selOf_selectorIn hn] at h
  rcases selector_cases s with h1 | ⟨p, q, rfl, hp, hq⟩ | ⟨pre, body, post, rfl, h1, h2⟩
  · have : selOf s = none := by
      unfold selOf; rw [show Regex.selector.search s = none from selector_searchFrom_none h1]; rfl
    rw [selOf_selectorIn hn, h] at this; cases this
  · simp only [selectorIn, dropWhile_ne_eq _ _ hp] at h
    rw [dropWhile_ne_nil] at h
    · simp at h
    · simp only [List.mem_reverse, List.mem_cons, not_or]; exact ⟨by decide, hq⟩
  · rw [selectorIn_some h1 h2] at h
    injection h with h
    exact ⟨pre, body, post, h.symm, by rw [← h]; simp, h1, h2⟩

end Crm
