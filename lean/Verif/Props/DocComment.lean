import Verif.Lemmas.DocComment
import Verif.Lemmas.SameAnswers
import Verif.Props.DocEdit
import Verif.Props.Open

/-! # Selectors and comments in the file (C101) -/

namespace Crm
open Spec Doc

theorem edit_ordinary {path base c c' : Str} {ds ds' : List Doc} {r : Recipe} (hr : r.root = Doc.root ds)
    (he : CommentEdit path base c c' ds ds') : OrdinaryPath r path ∧ commentAt r path = some c := by
  obtain ⟨init, last, hp, hc, hw⟩ := he
  obtain ⟨st, pos, d, d', g1, g2, g3, hrec, g4, _⟩ := entry_place hp hc hw (fun _ _ h => h)
  have hn : r.nodeAtPath path = .ok (some d.node) := by
    simp only [Recipe.nodeAtPath, g1, bind, Except.bind, hr, g2, Option.bind_some, g3]
  refine ⟨⟨d.node, hn, ?_, ?_⟩, by simp only [commentAt, hn, g4]⟩
  · cases hrec with
    | scalar k vt v hv => exact Or.inl rfl
    | item vt v hv => exact Or.inl (isSentinel_false hv)
    | empty k => exact Or.inl rfl
    | block k cs hcs => exact Or.inl rfl
  · intro hsk x hx
    cases hrec with
    | scalar k vt v hv =>
      simp only [node, List.mem_singleton] at hx
      subst hx
      exact isSentinel_false hv
    | item vt v hv => simp [node] at hx
    | empty k => simp [node] at hx
    | block k cs hcs =>
      match cs, hcs with
      | [], _ => simp [node, nodes] at hx
      | [d], h => simp [node, nodes, Node.isSingleKey, Node.isLeaf, h d rfl] at hsk
      | _ :: _ :: _, _ => simp [node, nodes, Node.isSingleKey] at hsk

theorem edit_line {path base c c' : Str} {ds ds' : List Doc} {r : Recipe} (hr : r.root = Doc.root ds)
    (he : CommentEdit path base c c' ds ds') (n : Node) (hn : r.nodeAtPath path = .ok (some n)) : n.comment = c ∧ ordinaryLine n := by
  obtain ⟨init, last, hp, hc, hw⟩ := he
  obtain ⟨st, pos, d, d', g1, g2, g3, hrec, g4, _⟩ := entry_place hp hc hw (fun _ _ h => h)
  have hn' : r.nodeAtPath path = .ok (some d.node) := by
    simp only [Recipe.nodeAtPath, g1, bind, Except.bind, hr, g2, Option.bind_some, g3]
  rw [hn] at hn'
  injection hn' with hn'
  injection hn' with hn'
  subst hn'
  refine ⟨g4, ?_, ?_⟩
  · cases hrec with
    | scalar k vt v hv => exact Or.inl rfl
    | item vt v hv => exact Or.inl (isSentinel_false hv)
    | empty k => exact Or.inl rfl
    | block k cs hcs => exact Or.inl rfl
  · intro hsk x hx
    cases hrec with
    | scalar k vt v hv =>
      simp only [node, List.mem_singleton] at hx
      subst hx
      exact ⟨isSentinel_false hv, rfl⟩
    | item vt v hv => simp [node] at hx
    | empty k => simp [node] at hx
    | block k cs hcs =>
      match cs, hcs with
      | [], _ => simp [node, nodes] at hx
      | [d], h => simp [node, nodes, Node.isSingleKey, Node.isLeaf, h d rfl] at hsk
      | _ :: _ :: _, _ => simp [node, nodes, Node.isSingleKey] at hsk

/-- An index that agrees with the tree gives the answers of the index of the tree. -/
theorem agrees_selectors {r r' : Recipe} (h : indexAgrees r) (h' : r'.selTbl = rebuildSelectors r.root) : SameSelectors r r' := by
  unfold indexAgrees at h
  rw [← h'] at h
  have hlook : ∀ s, (lookupD s r.selTbl).map (fun x : List SelInfo => x.map (·.path)) =
      (lookupD s r'.selTbl).map fun x : List SelInfo => x.map (·.path) := by
    intro s
    rw [← lookupD_map, ← lookupD_map, h]
  refine ⟨?_, ?_, ?_⟩
  · have h1 := congrArg (fun l : List (Str × List (List Str)) => l.map (·.1)) h
    simp only [List.map_map, Function.comp_def] at h1
    exact h1
  · intro s
    have := congrArg Option.isSome (hlook s)
    simp only [Option.isSome_map] at this
    exact this
  · intro s
    have := hlook s
    unfold Recipe.getSelectorPaths
    cases ha : lookupD s r.selTbl <;> cases hb : lookupD s r'.selTbl <;> rw [ha, hb] at this
    · cases this
    · cases this
    · rename_i x y
      simp only [Option.map_some, Option.some.injEq] at this
      have e := congrArg (List.map stackToStr) this
      simp only [List.map_map] at e
      exact congrArg dedupe e

theorem edit_saved {E : Env} {vars : List (Str × PyVal)} {path base c c' : Str} {ds ds' : List Doc} {r r' : Recipe} {pos : Pos} {st : List Str}
    (hv : Writable E vars) (h : Document E ds) (hr : Recipe.ofString E (recipeText vars ds) = .ok r) (hs : r.schema = .v1 → vars = [])
    (he : CommentEdit path base c c' ds ds') (ho : OkL E ds') (hst : strToStack path = .ok st) (htr : traverse r.root st = some pos)
    (hroot : r'.root = updateAt (setLineComment c') pos r.root) (hvars : r'.vars = r.vars) (hsch : r'.schema = r.schema)
    (hm : r'.modified = true) : LineSaved vars ds' base c c' r r' := by
  obtain ⟨t1, t2, t3⟩ := C31_text_is_kept_partial E vars ds r hv h hr hs
  obtain ⟨init, last, hp, hc, hw⟩ := he
  obtain ⟨st', pos', _, _, g1, g2, g3, _, g4, ns', g5, g6, _⟩ := entry_place hp hc hw (fun _ _ h => h)
  rw [hst] at g1
  injection g1 with g1
  subst g1
  rw [t2, g2] at htr
  injection htr with htr
  subst htr
  rw [t2, g5] at hroot
  have htext : r'.render = recipeText vars ds' := by
    rw [shows_render hroot g6 ho, hsch, hvars]
    cases hcs : r.schema with
    | v0 => rw [if_pos rfl, t3 hcs]
    | v1 => rw [if_neg (by decide), hs hcs]
  have hkl : KeyLine (withComment base c) (withComment base c') ds ds' := by
    refine within_keyLine hw ?_
    rintro cs cs' ⟨pre, d, d', post, rfl, rfl, _, hrec, rfl⟩
    obtain ⟨e1, e2, e3, e4, e5, e6, e7, e8, e9⟩ := recommented_node hrec
    refine ⟨pre, d, d', post, rfl, rfl, e4, e5, fun level => ⟨[], ind level, d.under level, ?_, ?_, fun _ => ⟨[], by simp⟩⟩⟩
    · simp [lines, head, e7]
    · simp [lines, head, e8, e6, e9]
  obtain ⟨xs, ys, k1, k2, k3⟩ := keyLine_text (vars := vars) hkl
  exact ⟨htext, ⟨xs, ys, by rw [t1, k1], by rw [htext, k2], k3⟩, hm⟩

theorem edit_exact {path base c c' : Str} {ds ds' : List Doc} {r : Recipe} {pos : Pos} {st : List Str}
    (t2 : r.root = Doc.root ds) (he : CommentEditInside path base c c' ds ds') (hst : strToStack path = .ok st)
    (htr : traverse r.root st = some pos) : updateAt (setLineComment c') pos r.root = Doc.root ds' := by
  obtain ⟨init, last, hp, hc, hw⟩ := he
  obtain ⟨st', pos', _, _, g1, g2, g3, _, g4, ns', g5, g6, g7⟩ := entry_place (base := base) (c := c) (c' := c') hp hc hw (fun _ _ h => h.1)
  rw [hst] at g1
  injection g1 with g1
  subst g1
  rw [t2, g2] at htr
  injection htr with htr
  subst htr
  rw [t2, g5, g7]
  · rfl
  · intro hn cs cs' hR
    rw [hR.2 hn]

theorem edit_read_back {E : Env} {vars : List (Str × PyVal)} {ds ds' : List Doc} {r r' : Recipe}
    (hv : Writable E vars) (h : Document E ds) (h' : Document E ds') (hr : Recipe.ofString E (recipeText vars ds) = .ok r)
    (hf : SameFormat ds ds') (htext : r'.render = recipeText vars ds')
    (hroot : r'.root = Doc.root ds') (hvars : r'.vars = r.vars) (hsch : r'.schema = r.schema) :
    ∃ r'', Recipe.ofString E r'.render = .ok r'' ∧ SameAnswers E r' r'' ∧ r''.render = r'.render ∧
      r''.root = r'.root ∧ r''.selTbl = rebuildSelectors r'.root := by
  obtain ⟨_, r2, b1, b2, b3, b4, _, hsel⟩ := open_same hv h h' hr hf
  have q1 : r'.root = r2.root := by rw [hroot, b2]
  have q2 : r'.vars = r2.vars := by rw [hvars, b3]
  have q3 : r'.schema = r2.schema := by rw [hsch, b4]
  exact ⟨r2, by rw [htext]; exact b1, same_answers q1 q2 q3 E, same_render q1 q2 q3, q1.symm, by rw [hsel, q1]⟩

/-- `add_selector` on a recipe whose tree is that of a document. -/
theorem addSelector_tree {r : Recipe} {ds ds' : List Doc} {path base c c' body : Str} {mode : SelMode} (t2 : r.root = Doc.root ds)
    (hb : '\n' ∉ body) (hw : SelectorWritten body mode c c') (he : CommentEdit path base c c' ds ds') :
    ∃ st pos, strToStack path = .ok st ∧ traverse r.root st = some pos ∧
      r.addSelector path (§"[" ++ body ++ §"]") mode = (.ok (), edited r (updateAt (setLineComment c') pos r.root)) := by
  obtain ⟨h1, h2⟩ := edit_ordinary t2 he
  obtain ⟨st, pos, n, g1, g2, g3, g4, _⟩ := ordinary_path h1
  have hc : n.comment = c := by rw [g4] at h2; injection h2
  have hx : addSelectorComment c ('[' :: (body ++ [']'])) mode = c' := by
    cases hw with
    | fresh => simp [addSelectorComment]
    | replaced c hm => simp [addSelectorComment, hm]
    | joined c old hm hsel hn =>
      have hne : c ≠ [] := by rintro rfl; simp [selectorIn] at hsel
      have hs := selOf_selectorIn hn
      rw [hsel] at hs
      unfold selOf at hs
      obtain ⟨rm, hrm, ht⟩ := Option.map_eq_some_iff.1 hs
      have : §"[" ++ old ++ §"]" = '[' :: (old ++ [']']) := by simp
      rw [this] at ht
      simp only [addSelectorComment, hne, hm, or_self, if_false, hrm, ht, extractSelector_brackets]
    | before text hm ht =>
      have hs : Regex.selector.search ('#' :: text) = none := selector_searchFrom_none (by simp [ht])
      simp [addSelectorComment, hm, hs, replaceOne_head]
  have hbr : §"[" ++ body ++ §"]" = '[' :: (body ++ [']']) := by simp
  rw [hbr]
  refine ⟨st, pos, g1, g2, ?_⟩
  simp only [Recipe.addSelector, g1, g2, matchStart_brackets hb, Bool.false_eq_true, if_false, g3, Option.map_some, Option.getD_some, hc, hx]
  rfl

/-- C101: `add_selector` changes one line of the file: the comment behind it becomes the selector (joined to what was there in
the other modes). -/
theorem C101_add_selector_partial (E : Env) (vars : List (Str × PyVal)) (ds ds' : List Doc) (r : Recipe) (path base c c' body : Str)
    (mode : SelMode) (hv : Writable E vars) (h : Document E ds) (hr : Recipe.ofString E (recipeText vars ds) = .ok r)
    (hs : r.schema = .v1 → vars = []) (hb : '\n' ∉ body) (hw : SelectorWritten body mode c c')
    (he : CommentEdit path base c c' ds ds') (ho : OkL E ds') :
    ∃ r', r.addSelector path (§"[" ++ body ++ §"]") mode = (.ok (), r') ∧ LineSaved vars ds' base c c' r r' ∧
      (CommentEditInside path base c c' ds ds' → Document E ds' → SameFormat ds ds' →
        ReadBackSel E r') := by
  obtain ⟨t1, t2, t3⟩ := C31_text_is_kept_partial E vars ds r hv h hr hs
  obtain ⟨st, pos, g1, g2, hout⟩ := addSelector_tree t2 hb hw he
  have hsav := edit_saved (r' := edited r (updateAt (setLineComment c') pos r.root)) hv h hr hs he ho g1 g2 rfl rfl rfl rfl
  refine ⟨_, hout, hsav, ?_⟩
  intro hi h' hf
  obtain ⟨r2, b1, b2, b3, _, b4⟩ := edit_read_back hv h h' hr hf hsav.text (edit_exact t2 hi g1 g2) rfl rfl
  exact ⟨r2, b1, b2, b3, same_selectors b4.symm⟩

/-- `remove_selector` on a recipe whose tree is that of a document. -/
theorem removeSelector_tree {r : Recipe} {ds ds' : List Doc} {path base c c' body : Str} (t2 : r.root = Doc.root ds)
    (hb : '\n' ∉ body) (hw : SelectorRemoved body c c') (he : CommentEdit path base c c' ds ds') :
    ∃ st pos, strToStack path = .ok st ∧ traverse r.root st = some pos ∧
      r.removeSelector path = (.ok (some (§"[" ++ body ++ §"]")), edited r (updateAt (setLineComment c') pos r.root)) := by
  obtain ⟨h1, h2⟩ := edit_ordinary t2 he
  obtain ⟨st, pos, n, g1, g2, g3, g4, g5⟩ := ordinary_path h1
  have hc : n.comment = c := by rw [g4] at h2; injection h2
  have hsel : selOf c = some (§"[" ++ body ++ §"]") := by
    cases hw with
    | alone =>
      have := selOf_new body hb [] (by simp) (by simp)
      simpa using this
    | before text q1 q2 q3 q4 =>
      have := selOf_new body hb (' ' :: text) (by simp [q1]) (by simp [q3])
      simpa using this
  unfold selOf at hsel
  obtain ⟨m, hm, ht⟩ := Option.map_eq_some_iff.1 hsel
  have hout : r.removeSelector path = (.ok (some m.text),
      { r with root := updateAt (setLineComment (Recipe.removeSelectorComment c m.text)) pos r.root,
               selTbl := rebuildSelectors (updateAt (setLineComment (Recipe.removeSelectorComment c m.text)) pos r.root),
               modified := true }) := by
    simp only [Recipe.removeSelector, g1, g2, g3, Option.map_some, Option.getD_some, hc, hm]
  have hx : Recipe.removeSelectorComment c m.text = c' := by
    have k := (g5 (Recipe.removeSelectorComment c m.text) (r.removeSelector path).2 (by rw [hout])).1
    have k' : commentAt (r.removeSelector path).2 path = some (Recipe.removeSelectorComment c m.text) := by
      simp only [commentAt, k]; rfl
    cases hw with
    | alone =>
      have := (C22_usual_shapes r path body [] h1 hb).1 h2
      rw [k'] at this
      injection this
    | before text q1 q2 q3 q4 =>
      have := (C22_usual_shapes r path body text h1 hb).2 h2 q1 q2 q3 q4
      rw [k'] at this
      injection this
  refine ⟨st, pos, g1, g2, ?_⟩
  rw [hout, ht]
  rw [ht] at hx
  rw [hx]
  rfl

/-- C101: `remove_selector` gives the selector and takes it from the line; a comment behind it stays. -/
theorem C101_remove_selector_partial (E : Env) (vars : List (Str × PyVal)) (ds ds' : List Doc) (r : Recipe) (path base c c' body : Str)
    (hv : Writable E vars) (h : Document E ds) (hr : Recipe.ofString E (recipeText vars ds) = .ok r)
    (hs : r.schema = .v1 → vars = []) (hb : '\n' ∉ body) (hw : SelectorRemoved body c c')
    (he : CommentEdit path base c c' ds ds') (ho : OkL E ds') :
    ∃ r', r.removeSelector path = (.ok (some (§"[" ++ body ++ §"]")), r') ∧ LineSaved vars ds' base c c' r r' ∧
      (CommentEditInside path base c c' ds ds' → Document E ds' → SameFormat ds ds' →
        ReadBackSel E r') := by
  obtain ⟨t1, t2, t3⟩ := C31_text_is_kept_partial E vars ds r hv h hr hs
  obtain ⟨st, pos, g1, g2, hout⟩ := removeSelector_tree t2 hb hw he
  have hsav := edit_saved (r' := edited r (updateAt (setLineComment c') pos r.root)) hv h hr hs he ho g1 g2 rfl rfl rfl rfl
  refine ⟨_, hout, hsav, ?_⟩
  intro hi h' hf
  have hex := edit_exact t2 hi g1 g2
  obtain ⟨r2, b1, b2, b3, _, b4⟩ := edit_read_back hv h h' hr hf hsav.text hex rfl rfl
  exact ⟨r2, b1, b2, b3, same_selectors b4.symm⟩

/-- `add_comment` on a recipe whose tree is that of a document. -/
theorem addComment_tree {r : Recipe} {ds ds' : List Doc} {path base c c' text : Str} (t2 : r.root = Doc.root ds)
    (hn : '\n' ∉ c) (h1 : '[' ∉ text) (h2 : ']' ∉ text) (h3 : '\n' ∉ text) (h4 : strip text ≠ [])
    (hw : CommentWritten text c c') (he : CommentEdit path base c c' ds ds') :
    ∃ st pos, strToStack path = .ok st ∧ traverse r.root st = some pos ∧
      r.addComment path text = (.ok (), { r with root := updateAt (setLineComment c') pos r.root, modified := true }) := by
  obtain ⟨o1, o2⟩ := edit_ordinary t2 he
  obtain ⟨k1, _, k2, k3, k4, k5, _⟩ := C23_added_partial r path c text o1 o2 hn h1 h2 h3 h4
  obtain ⟨st, pos, n, g1, g2, g3, g4, g5⟩ := ordinary_path o1
  have hc : n.comment = c := by rw [g4] at o2; injection o2
  have hroot : r.addComment path text =
      (.ok (), { r with root := updateAt (setLineComment (Recipe.addCommentText c (strip text))) pos r.root, modified := true }) := by
    have : (Regex.selector.matchStart (strip text)).isSome = false := by
      cases hms : (Regex.selector.matchStart (strip text)).isSome with
      | false => rfl
      | true => rw [Recipe.addComment] at k1; simp [h4, hms] at k1
    simp only [Recipe.addComment, h4, if_false, this, Bool.false_eq_true, g1, g2, g3, Option.map_some, Option.getD_some, hc]
  have hx : Recipe.addCommentText c (strip text) = c' := by
    have k := (g5 (Recipe.addCommentText c (strip text)) (r.addComment path text).2 (by rw [hroot])).1
    have k' : commentAt (r.addComment path text).2 path = some (Recipe.addCommentText c (strip text)) := by
      simp only [commentAt, k]; rfl
    have fin : ∀ y, commentAt (r.addComment path text).2 path = some y → Recipe.addCommentText c (strip text) = y := by
      intro y hy; rw [k'] at hy; injection hy
    cases hw with
    | behind sel q1 q2 => exact fin _ (k2 sel q1 q2)
    | behindHash sel t q1 q2 => exact fin _ (k3 sel t q1 q2)
    | plain q1 q2 => exact fin _ (k4 q1 q2)
    | hash q1 q2 => exact fin _ (k5 q1 q2)
  exact ⟨st, pos, g1, g2, by rw [hroot, hx]⟩

/-- C101: `add_comment` writes the comment on its line, behind the selector if there is one. -/
theorem C101_add_comment_partial (E : Env) (vars : List (Str × PyVal)) (ds ds' : List Doc) (r : Recipe) (path base c c' text : Str)
    (hv : Writable E vars) (h : Document E ds) (hr : Recipe.ofString E (recipeText vars ds) = .ok r)
    (hs : r.schema = .v1 → vars = []) (hn : '\n' ∉ c) (h1 : '[' ∉ text) (h2 : ']' ∉ text) (h3 : '\n' ∉ text) (h4 : strip text ≠ [])
    (hw : CommentWritten text c c') (he : CommentEdit path base c c' ds ds') (ho : OkL E ds') :
    ∃ r', r.addComment path text = (.ok (), r') ∧ LineSaved vars ds' base c c' r r' ∧
      (CommentEditInside path base c c' ds ds' → Document E ds' → SameFormat ds ds' →
        ReadBackSel E r') := by
  obtain ⟨t1, t2, t3⟩ := C31_text_is_kept_partial E vars ds r hv h hr hs
  obtain ⟨st, pos, g1, g2, hout⟩ := addComment_tree t2 hn h1 h2 h3 h4 hw he
  have hsav := edit_saved (r' := { r with root := updateAt (setLineComment c') pos r.root, modified := true }) hv h hr hs he ho g1 g2
    rfl rfl rfl rfl
  refine ⟨_, hout, hsav, ?_⟩
  intro hi h' hf
  obtain ⟨r2, b1, b2, b3, b4, b5⟩ := edit_read_back hv h h' hr hf hsav.text (edit_exact t2 hi g1 g2) rfl rfl
  have ha := addComment_agrees r path text (C19_initially E _ r hr) h1 h2 h3 fun n hn' => by
    obtain ⟨l1, l2⟩ := edit_line t2 he n hn'
    exact ⟨by rw [l1]; exact hn, l2⟩
  rw [hout] at ha
  exact ⟨r2, b1, b2, b3, agrees_selectors ha b5⟩

theorem inside_edit {path base c c' : Str} {ds ds' : List Doc} (h : CommentEditInside path base c c' ds ds') :
    CommentEdit path base c c' ds ds' := by
  obtain ⟨init, last, h1, h2, h3⟩ := h
  exact ⟨init, last, h1, h2, within_mono h3 fun _ _ h => h.1⟩

/-! ## A file that meets the hypotheses -/

namespace DocCommentExample

/-- A file with a selector in a list, and the same file after one edit each. -/
def file (name patch : Str) : List Doc :=
  [ block §"package" [] [scalar §"name" §"foo" (.str §"foo") name, scalar §"version" §"1.2" (.flt §"1.2") []],
    comment §"# where",
    block §"source" [] [
      elem (scalar §"url" §"a.tgz" (.str §"a.tgz") §"# [unix]") [
        block §"patches" [] [item §"p1" (.str §"p1") patch, comment §"# last", item §"2" (.int 2) []]]] ]

theorem document (name patch : Str) (h : (name, patch) ∈ [([], §"# [osx] why"), (§"# [win]", §"# [osx] why"), ([], §"# [osx or win]"),
    ([], §"# why"), ([], §"# [osx] first"), (§"# main", §"# [osx] why"), ([], §"# [osx]")]) : Document Toy.env (file name patch) := by
  simp only [List.mem_cons, Prod.mk.injEq, List.not_mem_nil, or_false] at h
  rcases h with ⟨rfl, rfl⟩ | ⟨rfl, rfl⟩ | ⟨rfl, rfl⟩ | ⟨rfl, rfl⟩ | ⟨rfl, rfl⟩ | ⟨rfl, rfl⟩ | ⟨rfl, rfl⟩ <;>
    exact documentB_sound (by decide +kernel)

theorem fresh (name patch : Str) : Fresh §"schema_version" (file name patch) := by simp [Fresh, file, node]

/-- The key of a mapping. -/
theorem atName (c c' patch : Str) : CommentEditInside §"/package/name" §"name: foo" c c' (file c patch) (file c' patch) :=
  ⟨[§"package"], §"name", by decide, by decide,
    .key (pre := []) (c := []) (cs := [scalar §"name" §"foo" (.str §"foo") c, scalar §"version" §"1.2" (.flt §"1.2") []])
      (cs' := [scalar §"name" §"foo" (.str §"foo") c', scalar §"version" §"1.2" (.flt §"1.2") []]) (by decide) (by simp [Fresh])
      (.here ⟨⟨[], _, _, _, rfl, rfl, by
        simp only [Names, show isDigitS §"name" = false from by decide, Bool.false_eq_true, if_false]
        exact ⟨rfl, by simp [Fresh]⟩, .scalar _ _ _ (by simp), rfl⟩, fun h => absurd h (by decide)⟩)⟩

/-- An item of a list inside an element of a list. -/
theorem atPatch (name c c' : Str) : CommentEditInside §"/source/0/patches/0" §"- p1" c c' (file name c) (file name c') :=
  ⟨[§"source", §"0", §"patches"], §"0", by decide, by decide,
    .key (pre := (file name c).take 2) (post := []) (c := [])
      (cs := [elem (scalar §"url" §"a.tgz" (.str §"a.tgz") §"# [unix]") [
        block §"patches" [] [item §"p1" (.str §"p1") c, comment §"# last", item §"2" (.int 2) []]]])
      (cs' := [elem (scalar §"url" §"a.tgz" (.str §"a.tgz") §"# [unix]") [
        block §"patches" [] [item §"p1" (.str §"p1") c', comment §"# last", item §"2" (.int 2) []]]])
      (by decide) (by simp [Fresh, file, node])
      (.element (pre := []) (post := []) (by decide) (by decide)
        (.key (pre := [scalar §"url" §"a.tgz" (.str §"a.tgz") §"# [unix]"]) (post := []) (c := [])
          (cs := [item §"p1" (.str §"p1") c, comment §"# last", item §"2" (.int 2) []])
          (cs' := [item §"p1" (.str §"p1") c', comment §"# last", item §"2" (.int 2) []])
          (by decide) (by simp [Fresh, node])
          (.here ⟨⟨[], _, _, _, rfl, rfl, by
            simp only [Names, show isDigitS §"0" = true from by decide, if_true]
            exact ⟨⟨_, _, _, rfl⟩, by decide⟩, .item _ _ (by simp), rfl⟩, fun h => absurd h (by decide)⟩)))⟩

example : SelectorWritten §"win" .replace [] §"# [win]" := .fresh
example : CommentEditInside §"/package/name" §"name: foo" [] §"# [win]" (file [] §"# [osx] why") (file §"# [win]" §"# [osx] why") :=
  atName _ _ _
example : SelectorWritten §"win" .or §"# [osx] why" §"# [osx or win]" := .joined _ §"osx" (by decide) (by decide) (by decide)
example : CommentEditInside §"/source/0/patches/0" §"- p1" §"# [osx] why" §"# [osx or win]" (file [] §"# [osx] why") (file [] §"# [osx or win]") :=
  atPatch _ _ _
example : SelectorWritten §"win" .and §"# why" §"# [win] why" := .before §" why" (by decide) (by decide)
example : SelectorRemoved §"osx" §"# [osx] why" §"# why" :=
  .before §"why" (by decide) (by decide) (by decide) ⟨'w', by decide, by decide⟩
example : CommentEditInside §"/source/0/patches/0" §"- p1" §"# [osx] why" §"# why" (file [] §"# [osx] why") (file [] §"# why") := atPatch _ _ _
example : CommentWritten §" first " §"# [osx] why" §"# [osx] first" := .behind _ §"[osx]" (by decide) (by decide)
example : CommentWritten §"main" [] §"# main" := .plain _ (by decide) (by decide)

/-- All of it put together: the file after adding a selector to the item. -/
example (r : Recipe) (hr : Recipe.ofString Toy.env (recipeText sampleVars (file [] §"# [osx] why")) = .ok r) (hs : r.schema = .v0) :
    ∃ r', r.addSelector §"/source/0/patches/0" §"[win]" .or = (.ok (), r') ∧
      r'.render = recipeText sampleVars (file [] §"# [osx or win]") ∧ ReadBackSel Toy.env r' := by
  obtain ⟨r', h1, h2, h3⟩ := C101_add_selector_partial Toy.env sampleVars (file [] §"# [osx] why") (file [] §"# [osx or win]") r
    §"/source/0/patches/0" §"- p1" §"# [osx] why" §"# [osx or win]" §"win" .or sample_writable (document _ _ (by simp)) hr (by rw [hs]; decide)
    (by decide) (.joined _ §"osx" (by decide) (by decide) (by decide)) (inside_edit (atPatch _ _ _)) (document _ _ (by simp)).1
  exact ⟨r', h1, h2.text, h3 (atPatch _ _ _) (document _ _ (by simp)) (same_fresh (fresh _ _) (fresh _ _))⟩

end DocCommentExample

/-! ## Where the full statement fails -/

/-- A selector added to an element of a list that is a mapping is reported by the recipe in memory, but never written. -/
theorem C101_element_selector_lost_violation :
    let r := Toy.recipe "outputs:\n  - name: a\n    x: 1\n"
    let out := r.addSelector §"/outputs/0" §"[win]"
    out.1 = .ok () ∧ out.2.getSelectorAtPath §"/outputs/0" = .ok §"[win]" ∧ out.2.render = r.render ∧
      (Toy.recipe "outputs:\n  - name: a\n    x: 1\n").containsSelectorAtPath §"/outputs/0" = .ok false :=
  ⟨by decide +kernel, by decide +kernel, by decide +kernel, by decide +kernel⟩

/-- A selector added to a section with one item is written on two lines: it now stands behind the item as well, and stays with the
item when others are added to the section. -/
theorem C101_single_item_violation :
    let r := Toy.recipe "a:\n  b:\n    - x\nc: 1\n"
    let r1 := (r.addSelector §"/a/b" §"[win]").2
    let out := r1.patch Toy.env (mkPatch §"add" §"/a/b/-" [(§"value", .str §"y")])
    r1.render = §"a:\n  b:  # [win]\n    - x  # [win]\n\nc: 1\n" ∧
      out.2.render = §"a:\n  b:  # [win]\n    - x  # [win]\n    - y\n\nc: 1\n" :=
  ⟨by decide +kernel, by decide +kernel⟩

/-- A selector on the first line of a list element: the recipe in memory has it at the key alone, the file read again has it for the
element as well. -/
theorem C101_first_line_violation :
    let r := Toy.recipe "outputs:\n  - name: a\n    x: 1\n"
    let r1 := (r.addSelector §"/outputs/0/name" §"[win]").2
    r1.render = §"outputs:\n  - name: a  # [win]\n    x: 1\n" ∧ r1.containsSelectorAtPath §"/outputs/0" = .ok false ∧
      (Toy.recipe "outputs:\n  - name: a  # [win]\n    x: 1\n").containsSelectorAtPath §"/outputs/0" = .ok true :=
  ⟨by decide +kernel, by decide +kernel, by decide +kernel⟩

end Crm
