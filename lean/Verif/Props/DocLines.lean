import Verif.Spec.DocLines
import Verif.Props.BumpFile
import Verif.Lemmas.DocItem

/-!
# C99: the lines that an edit touches

`Spec/DocEdit.lean` says what an edit does to the document, `Spec/DocLines.lean` what becomes of the lines of the file.
-/

namespace Crm
open Spec Doc

/-- The lines of `old` below the line of an entry make way for those of `new`. -/
def EntrySwap (old new ds ds' : List Doc) : Prop :=
  ∃ pre d d' post, ds = pre ++ d :: post ∧ ds' = pre ++ d' :: post ∧ d.isComment = false ∧ d'.isComment = false ∧
    ∀ level, ∃ line before l after, d.lines level = line :: before ++ linesL l old ++ after ∧
      d'.lines level = line :: before ++ linesL l new ++ after

theorem entrySwap_list {old new ds ds' : List Doc} (h : EntrySwap old new ds ds') (level : Nat) :
    ∃ line before l after, linesL level ds = line :: before ++ linesL l old ++ after ∧
      linesL level ds' = line :: before ++ linesL l new ++ after := by
  obtain ⟨pre, d, d', post, rfl, rfl, _, _, hl⟩ := h
  obtain ⟨line, before, l, after, h1, h2⟩ := hl level
  rw [linesL_mid, linesL_mid, h1, h2]
  cases pre with
  | nil => exact ⟨line, before, l, after ++ linesL level post, by simp [linesL], by simp [linesL]⟩
  | cons p pre =>
    exact ⟨ind level ++ p.head, p.under level ++ linesL level pre ++ line :: before, l, after ++ linesL level post, by simp [linesL],
      by simp [linesL]⟩

theorem elem_swap {old new rest rest' : List Doc} {first first' : Doc} {i : Nat}
    (h : ∀ level, ∃ line before l after, linesL level (first :: rest) = line :: before ++ linesL l old ++ after ∧
      linesL level (first' :: rest') = line :: before ++ linesL l new ++ after) :
    ∃ line before l after, (elem first rest).lines i = line :: before ++ linesL l old ++ after ∧
      (elem first' rest').lines i = line :: before ++ linesL l new ++ after := by
  obtain ⟨line, before, l, after, h1, h2⟩ := h (i + 1)
  simp only [linesL, List.cons_append, List.cons.injEq] at h1 h2
  have hh : first.head = first'.head := List.append_cancel_left (h1.1.trans h2.1.symm)
  refine ⟨ind i ++ (§"- " ++ first.head), before, l, after, ?_, ?_⟩
  · rw [elem_line, h1.2]; simp
  · rw [elem_line, h2.2, hh]; simp

theorem within_entrySwap {old new : List Doc} {path : List Str} {inner : Bool} {ds ds' : List Doc}
    (h : Within (Swap inner old new) path ds ds') (hne : path ≠ []) (hn : endsInNumber path = true → inner = true) :
    EntrySwap old new ds ds' := by
  induction h with
  | here _ => exact absurd rfl hne
  | @key k c cs cs' pre post path hk _ hw ih =>
    refine ⟨pre, _, _, post, rfl, rfl, (sec_lines 0 k c _).2, (sec_lines 0 k c _).2, fun level => ?_⟩
    rw [(sec_lines level k c _).1, (sec_lines level k c _).1]
    cases path with
    | nil =>
      cases hw with
      | here h =>
        obtain ⟨a, b, rfl, rfl, _⟩ := h
        exact ⟨ind level ++ withComment (k ++ §":") c, linesL (level + 1) a, level + 1, linesL (level + 1) b, by simp [linesL_append], by simp [linesL_append]⟩
    | cons q qs =>
      obtain ⟨line, before, l, after, h1, h2⟩ :=
        entrySwap_list (ih (by simp) (by rw [← endsInNumber_cons k]; exact hn)) (level + 1)
      exact ⟨ind level ++ withComment (k ++ §":") c, line :: before, l, after, by rw [h1]; simp, by rw [h2]; simp⟩
  | @element i first rest first' rest' pre post path hi _ hw ih =>
    refine ⟨pre, _, _, post, rfl, rfl, rfl, rfl, fun level => elem_swap fun lev => ?_⟩
    cases path with
    | nil =>
      cases hw with
      | here h =>
        obtain ⟨a, b, h1, h2, h3⟩ := h
        cases a with
        | nil => exact absurd rfl (h3 (hn (by simp [endsInNumber, hi])))
        | cons f a =>
          rw [h1, h2]
          exact ⟨ind lev ++ f.head, f.under lev ++ linesL lev a, lev, linesL lev b, by simp [linesL_append, linesL],
            by simp [linesL_append, linesL]⟩
    | cons q qs => exact entrySwap_list (ih (by simp) (by rw [← endsInNumber_cons i]; exact hn)) lev

theorem entrySwap_file {old new ds ds' : List Doc} (vars : List (Str × PyVal)) (h : EntrySwap old new ds ds') :
    BlockDiffers old new (fileTextLines vars ds) (fileTextLines vars ds') := by
  obtain ⟨pre, d, d', post, rfl, rfl, hd, hd', hl⟩ := h
  obtain ⟨line, before, l, after, h1, h2⟩ := hl 0
  refine ⟨vars.map (fun kv => defLine kv.1 kv.2) ++ (if vars = [] then [] else [[]]) ++ (documentLines pre ++ line :: before), l,
    after ++ ([[]] ++ documentLines post), ?_, ?_⟩
  · rw [fileTextLines, documentLines_join, documentLines, h1, hd]; simp
  · rw [fileTextLines, documentLines_join, documentLines, h2, hd']; simp

theorem within_ends {k : Str} {new : Doc} {inner : Bool} {path : List Str} {ds ds' : List Doc} (h : Within (EndsFresh k new) path ds ds')
    (h0 : path = [] → inner = true → ds ≠ []) (h1 : path ≠ [] → endsInNumber path = inner) :
    Within (Swap inner [] [new]) path ds ds' := by
  induction h with
  | @here ds ds' h => exact .here ⟨ds, [], by simp, by simp [h.2], h0 rfl⟩
  | @key k' c cs cs' pre post path hk hf _ ih =>
    refine .key hk hf (ih ?_ ?_)
    · rintro rfl hi
      rw [← h1 (by simp)] at hi
      simp [endsInNumber, hk] at hi
    · intro hne
      rw [← h1 (by simp)]
      cases path with
      | nil => exact absurd rfl hne
      | cons q qs => rw [endsInNumber_cons]
  | @element i first rest first' rest' pre post path hi hn _ ih =>
    refine .element hi hn (ih (by simp) ?_)
    intro hne
    rw [← h1 (by simp)]
    cases path with
    | nil => exact absurd rfl hne
    | cons q qs => rw [endsInNumber_cons]

/-- What is written before and after an edit. -/
theorem edit_text {E : Env} {vars : List (Str × PyVal)} {ds ds' : List Doc} {r : Recipe} {p : PyVal} (hv : Writable E vars)
    (h : Document E ds) (hr : Recipe.ofString E (recipeText vars ds) = .ok r) (hs : r.schema = .v1 → vars = [])
    (he : DocEdit E p ds ds') (ho : OkL E ds') :
    ∃ r', r.patch E p = (.ok true, r') ∧ r.render = joinStr §"\n" (fileTextLines vars ds) ∧
      r'.render = joinStr §"\n" (fileTextLines vars ds') := by
  obtain ⟨r', h1, h2, _⟩ := C99_edits_are_written_partial E vars ds ds' [p] r hv h hr hs (.cons he .nil) ho
  refine ⟨r', ?_, (C31_text_is_kept_partial E vars ds r hv h hr hs).1, h2⟩
  simp only [applyAll] at h1
  split at h1
  · rename_i r1 hpe
    injection h1 with h1
    rw [hpe, h1]
  · cases h1

/-- C99: an edit of the entries of a section or of a list, or of an element of a list behind its first entry, changes the lines of
the entries it names, and no other line of the file.  (With the first entry of an element its dash moves, so there `old` and `new`
are the whole element.) -/
theorem C99_edit_changes_its_lines_partial (E : Env) (vars : List (Str × PyVal)) (ds ds' old new : List Doc) (r : Recipe) (p : PyVal)
    (place : List Str) (hv : Writable E vars) (h : Document E ds) (hr : Recipe.ofString E (recipeText vars ds) = .ok r)
    (hs : r.schema = .v1 → vars = []) (he : DocEdit E p ds ds') (hne : place ≠ [])
    (hw : Within (Swap (endsInNumber place) old new) place ds ds') (ho : OkL E ds') :
    ∃ r' xs ys, r.patch E p = (.ok true, r') ∧ r.render = joinStr §"\n" xs ∧ r'.render = joinStr §"\n" ys ∧
      BlockDiffers old new xs ys := by
  obtain ⟨r', h1, h2, h3⟩ := edit_text hv h hr hs he ho
  exact ⟨r', _, _, h1, h2, h3, entrySwap_file vars (within_entrySwap hw hne id)⟩

/-- C99: an edit at the top of the recipe changes the lines of the entries it names, with the empty lines behind them, and no other
line of the file. -/
theorem C99_top_edit_changes_its_lines_partial (E : Env) (vars : List (Str × PyVal)) (ds ds' old new : List Doc) (r : Recipe) (p : PyVal)
    (hv : Writable E vars) (h : Document E ds) (hr : Recipe.ofString E (recipeText vars ds) = .ok r)
    (hs : r.schema = .v1 → vars = []) (he : DocEdit E p ds ds') (hw : Swap false old new ds ds') (ho : OkL E ds') :
    ∃ r' xs ys, r.patch E p = (.ok true, r') ∧ r.render = joinStr §"\n" xs ∧ r'.render = joinStr §"\n" ys ∧
      TopBlockDiffers old new xs ys := by
  obtain ⟨r', h1, h2, h3⟩ := edit_text hv h hr hs he ho
  obtain ⟨a, b, rfl, rfl, _⟩ := hw
  refine ⟨r', _, _, h1, h2, h3, vars.map (fun kv => defLine kv.1 kv.2) ++ (if vars = [] then [] else [[]]) ++ documentLines a,
    documentLines b, ?_, ?_⟩ <;> simp [fileTextLines, documentLines_join]

/-- C99: `remove` of a key takes the lines of the key and of what is below it out of the file. -/
theorem C99_remove_key_lines_partial (E : Env) (vars : List (Str × PyVal)) (ds ds' : List Doc) (d : Doc) (r : Recipe) (p : PyVal)
    (init : List Str) (k : Str) (hv : Writable E vars) (h : Document E ds)
    (hr : Recipe.ofString E (recipeText vars ds) = .ok r) (hs : r.schema = .v1 → vars = []) (hc : ∀ c ∈ init ++ [k], Component c)
    (hk : isDigitS k = false) (hp : IsPatch p §"remove" (absPath (init ++ [k]))) (hd : d.keyOf = some k)
    (hne : init ≠ []) (hw : Within (fun cs cs' => ∃ pre post, cs = pre ++ d :: post ∧ cs' = pre ++ post ∧ Fresh k pre ∧
      (endsInNumber init = true → pre ≠ [])) init ds ds') (ho : OkL E ds') :
    ∃ r' xs ys, r.patch E p = (.ok true, r') ∧ r.render = joinStr §"\n" xs ∧ r'.render = joinStr §"\n" ys ∧
      BlockDiffers [d] [] xs ys := by
  refine C99_edit_changes_its_lines_partial E vars ds ds' [d] [] r p init hv h hr hs ?_ hne (within_mono hw ?_) ho
  · refine .removeKey init k hc hk hp (within_mono hw ?_)
    rintro cs cs' ⟨pre, post, rfl, rfl, hf, _⟩
    exact ⟨pre, d, post, rfl, by simp, hd, hf⟩
  · rintro cs cs' ⟨pre, post, rfl, rfl, _, hpre⟩
    exact ⟨pre, post, by simp, by simp, hpre⟩

/-- C99: `remove` of an item of a list takes its line out of the file. -/
theorem C99_remove_item_line_partial (E : Env) (vars : List (Str × PyVal)) (ds ds' : List Doc) (vt c : Str) (v : PyVal) (r : Recipe)
    (p : PyVal) (init : List Str) (i : Str) (hv : Writable E vars) (h : Document E ds)
    (hr : Recipe.ofString E (recipeText vars ds) = .ok r) (hs : r.schema = .v1 → vars = []) (hc : ∀ c ∈ init ++ [i], Component c)
    (hi : isDigitS i = true) (hp : IsPatch p §"remove" (absPath (init ++ [i]))) (hne : init ≠ []) (hnum : endsInNumber init = false)
    (hnv : v ≠ .sentinel) (hw : Within (fun cs cs' => ∃ pre post, cs = pre ++ item vt v c :: post ∧ cs' = pre ++ post ∧
      entryCount pre = natOfStr i) init ds ds') (ho : OkL E ds') :
    ∃ r' before level after, r.patch E p = (.ok true, r') ∧
      r.render = joinStr §"\n" (before ++ (ind level ++ withComment (§"- " ++ vt) c) :: after) ∧
      r'.render = joinStr §"\n" (before ++ after) := by
  have he : DocEdit E p ds ds' := by
    refine .removeItem init i hc hi hp (within_mono hw ?_)
    rintro cs cs' ⟨pre, post, rfl, rfl, hf⟩
    exact ⟨pre, vt, v, c, post, rfl, by simp, hnv, hf⟩
  obtain ⟨r', xs, ys, h1, h2, h3, before, level, after, rfl, rfl⟩ :=
    C99_edit_changes_its_lines_partial E vars ds ds' [item vt v c] [] r p init hv h hr hs he hne (within_mono hw (by
      rintro cs cs' ⟨pre, post, rfl, rfl, _⟩
      exact ⟨pre, post, by simp, by simp, by simp [hnum]⟩)) ho
  exact ⟨r', before, level, after, h1, by rw [h2]; simp [linesL, head, base, trail, under], by rw [h3]; simp [linesL]⟩

/-- C99: `add` at the place of an item of a list puts one line in front of it. -/
theorem C99_add_item_line_partial (E : Env) (vars : List (Str × PyVal)) (ds ds' : List Doc) (r : Recipe) (p v w : PyVal)
    (init : List Str) (i : Str) (hv : Writable E vars) (h : Document E ds)
    (hr : Recipe.ofString E (recipeText vars ds) = .ok r) (hs : r.schema = .v1 → vars = []) (hc : ∀ c ∈ init ++ [i], Component c)
    (hi : isDigitS i = true) (hp : IsPatch p §"add" (absPath (init ++ [i]))) (hval : field p §"value" = some v) (hsc : Scalar E v w)
    (hne : init ≠ []) (hnum : endsInNumber init = false)
    (hw : Within (ItemBefore (natOfStr i) (item (yamlText w) w [])) init ds ds') (ho : OkL E ds') :
    ∃ r' before level after, r.patch E p = (.ok true, r') ∧ r.render = joinStr §"\n" (before ++ after) ∧
      r'.render = joinStr §"\n" (before ++ (ind level ++ (§"- " ++ yamlText w)) :: after) := by
  obtain ⟨r', xs, ys, h1, h2, h3, before, level, after, rfl, rfl⟩ :=
    C99_edit_changes_its_lines_partial E vars ds ds' [] [item (yamlText w) w []] r p init hv h hr hs
      (.addItem init i v w hc hi hp hval hsc hw) hne (within_mono hw (by
      rintro cs cs' ⟨pre, vt, o, c, post, rfl, rfl, _, _⟩
      exact ⟨pre, item vt o c :: post, by simp, by simp, by simp [hnum]⟩)) ho
  exact ⟨r', before, level, after, h1, by rw [h2]; simp [linesL], by rw [h3]; simp [linesL, head, base, trail, under, withComment]⟩

/-- C99: `add` of a key that is not there puts the lines of its value at the end of the section, and touches no other line. -/
theorem C99_add_key_lines_partial (E : Env) (vars : List (Str × PyVal)) (ds ds' : List Doc) (new : Doc) (r : Recipe) (p v : PyVal)
    (init : List Str) (k : Str) (hv : Writable E vars) (h : Document E ds)
    (hr : Recipe.ofString E (recipeText vars ds) = .ok r) (hs : r.schema = .v1 → vars = []) (hc : ∀ c ∈ init ++ [k], Component c)
    (hk : isDigitS k = false) (hk' : k ≠ §"-") (hp : IsPatch p §"add" (absPath (init ++ [k]))) (hval : field p §"value" = some v)
    (hcol : Collection E (.dict [(k, v)]) [new]) (hne : init ≠ []) (hw : Within (EndsFresh k new) init ds ds') (ho : OkL E ds') :
    ∃ r' xs ys, r.patch E p = (.ok true, r') ∧ r.render = joinStr §"\n" xs ∧ r'.render = joinStr §"\n" ys ∧
      BlockDiffers [] [new] xs ys := by
  have hds : ds ≠ [] := by
    intro hd
    subst hd
    generalize hx : ([] : List Doc) = x at hw
    cases hw with
    | here _ => exact hne rfl
    | key _ _ _ => simp at hx
    | element _ _ _ => simp at hx
  refine C99_edit_changes_its_lines_partial E vars ds ds' [] [new] r p init hv h hr hs
    (.addKey init k v new hc hk hk' hp hval hcol hds hw) hne ?_ ho
  exact within_ends hw (fun h => absurd h hne) fun _ => rfl

/-! ## Concrete cases -/

namespace DocLinesExample
open DocEditExample

/-- `C99_remove_key_lines_partial`: a key with a list below it, in an element of a list. -/
example : Within (fun cs cs' => ∃ pre post, cs = pre ++ block §"patches" [] [item §"p1" (.str §"p1") §"# [osx]", comment §"# last",
      item §"2" (.int 2) []] :: post ∧ cs' = pre ++ post ∧ Fresh §"patches" pre ∧ (endsInNumber [§"source", §"0"] = true → pre ≠ []))
    [§"source", §"0"] before
    (before.take 2 ++ block §"source" [] [elem (scalar §"url" §"a.tgz" (.str §"a.tgz") §"# [unix]") []] :: before.drop 3) :=
  .key (pre := before.take 2) (post := before.drop 3) (c := [])
    (cs := [elem (scalar §"url" §"a.tgz" (.str §"a.tgz") §"# [unix]") [
      block §"patches" [] [item §"p1" (.str §"p1") §"# [osx]", comment §"# last", item §"2" (.int 2) []]]])
    (cs' := [elem (scalar §"url" §"a.tgz" (.str §"a.tgz") §"# [unix]") []]) (by decide) (by simp [Fresh, before, node])
    (.element (pre := []) (post := []) (by decide) (by decide)
      (.here ⟨[scalar §"url" §"a.tgz" (.str §"a.tgz") §"# [unix]"], [], rfl, rfl, by simp [Fresh, node], by simp⟩))

/-- `C99_remove_item_line_partial`: the second item of a list with a comment line between the items. -/
example : Within (fun cs cs' => ∃ pre post, cs = pre ++ item §"2" (.int 2) [] :: post ∧ cs' = pre ++ post ∧ entryCount pre = natOfStr §"1")
    [§"patches"]
    [block §"patches" [] [item §"p1" (.str §"p1") [], comment §"# last", item §"2" (.int 2) []]]
    [block §"patches" [] [item §"p1" (.str §"p1") [], comment §"# last"]] :=
  .key (pre := []) (post := []) (c := []) (cs := [item §"p1" (.str §"p1") [], comment §"# last", item §"2" (.int 2) []])
    (cs' := [item §"p1" (.str §"p1") [], comment §"# last"]) (by decide) (by simp [Fresh])
    (.here ⟨[item §"p1" (.str §"p1") [], comment §"# last"], [], rfl, rfl, by decide⟩)

/-- `C99_add_key_lines_partial` and `C99_edit_changes_its_lines_partial`: the third step of the history. -/
example : Within (EndsFresh §"tags" (block §"tags" [] [item §"x" (.str §"x") [], item §"y" (.str §"y") []])) [§"about"] after2 after3 :=
  .key (pre := after2.take 3) (post := []) (c := []) (cs := [])
    (cs' := [block §"tags" [] [item §"x" (.str §"x") [], item §"y" (.str §"y") []]])
    (by decide) (by simp [Fresh, after2, node]) (.here ⟨by simp [Fresh], rfl⟩)
example : BlockDiffers [] [block §"tags" [] [item §"x" (.str §"x") [], item §"y" (.str §"y") []]]
    [§"about:", []] [§"about:", §"  tags:", §"    - x", §"    - y", []] := ⟨[§"about:"], 1, [[]], by decide, by decide⟩

/-- `C99_top_edit_changes_its_lines_partial`: a section goes, the comment line in front of it stays. -/
example : Swap false [empty §"about" []] [] before (before.take 3) := ⟨before.take 3, [], rfl, rfl, by simp⟩
example : DocEdit Toy.env (mkPatch §"remove" §"/about") before (before.take 3) :=
  .removeKey [] §"about" (by decide) (by decide) (isPatch (by decide))
    (.here ⟨before.take 3, empty §"about" [], [], rfl, rfl, rfl, by simp [Fresh, before, node]⟩)

end DocLinesExample

end Crm
