import Verif.Lemmas.DocValue
import Verif.Props.RoundTrip
import Verif.Props.Open

/-!
# C99: what an edit does to the file

A recipe whose text is laid out as in `Spec/Document.lean` is opened, patched and written.  `Spec/DocEdit.lean` says what a patch
does to the document.
-/

namespace Crm
open Spec Doc

theorem docEdits_apply {E : Env} {ps : List PyVal} {ds ds' : List Doc} (h : DocEdits E ps ds ds') :
    ∀ (r : Recipe) (ns : List Node), r.root = { value := .str §"/", children := ns } → ShowsL ds ns →
      ∃ r' ns', applyAll E ps r = some r' ∧ r'.root = { value := .str §"/", children := ns' } ∧ ShowsL ds' ns' ∧
        r'.vars = r.vars ∧ r'.schema = r.schema ∧ r'.init = r.init ∧ (ps = [] ∨ r'.modified = true) := by
  induction h with
  | nil => intro r ns hr hs; exact ⟨r, ns, rfl, hr, hs, rfl, rfl, rfl, Or.inl rfl⟩
  | @cons p ps ds ds' ds'' h1 h2 ih =>
    intro r ns hr hs
    obtain ⟨ns', hp, hs'⟩ := docEdit_patch h1 r ns hr hs
    obtain ⟨r', ns'', g1, g2, g3, g4, g5, g6, g7⟩ := ih (edited r { value := .str §"/", children := ns' }) ns' rfl hs'
    refine ⟨r', ns'', ?_, g2, g3, g4, g5, g6, Or.inr ?_⟩
    · simp only [applyAll, hp, g1]
    · rcases g7 with rfl | g7
      · simp only [applyAll, Option.some.injEq] at g1; rw [← g1]; rfl
      · exact g7

theorem shows_render {E : Env} {r : Recipe} {ds : List Doc} {ns : List Node} (hr : r.root = { value := .str §"/", children := ns })
    (hs : ShowsL ds ns) (h : OkL E ds) : r.render = recipeText (if r.schema = .v0 then r.vars else []) ds := by
  unfold Recipe.render recipeText
  rw [hr, shows_document E ds ns hs h]
  cases hs : r.schema with
  | v0 => simp only [if_true, renderVars_defs]
  | v1 => rfl

/-- C99: every patch of the list answers `True`, and what is written afterwards is the text of the edited document. -/
theorem C99_edits_are_written_partial (E : Env) (vars : List (Str × PyVal)) (ds ds' : List Doc) (ps : List PyVal) (r : Recipe)
    (hv : Writable E vars) (h : Document E ds) (hr : Recipe.ofString E (recipeText vars ds) = .ok r) (hs : r.schema = .v1 → vars = [])
    (he : DocEdits E ps ds ds') (ho : OkL E ds') :
    ∃ r', applyAll E ps r = some r' ∧ r'.render = recipeText vars ds' ∧ (ps ≠ [] → r'.modified = true) := by
  obtain ⟨_, h2, h3⟩ := C31_text_is_kept_partial E vars ds r hv h hr hs
  obtain ⟨r', ns', g1, g2, g3, g4, g5, _, g7⟩ := docEdits_apply he r (nodes ds) h2 (shows_nodes ds)
  refine ⟨r', g1, ?_, fun hne => g7.resolve_left hne⟩
  rw [shows_render g2 g3 ho, g4, g5]
  cases hc : r.schema with
  | v0 => rw [if_pos rfl, h3 hc]
  | v1 => rw [if_neg (by decide), hs hc]

theorem open_v0 {E : Env} {vars : List (Str × PyVal)} {ds : List Doc} (hv : Writable E vars) (h : Document E ds)
    (hf : Fresh §"schema_version" ds) : ∃ r, Recipe.ofString E (recipeText vars ds) = .ok r ∧ r.schema = .v0 ∧ r.root = Doc.root ds ∧
      r.vars = vars ∧ r.modified = false := by
  obtain ⟨h1, h2⟩ := C31_recipe_text_is_read E vars ds hv h
  have hst : strToStack §"/schema_version" = .ok [rootValue, §"schema_version"] := by decide
  have hg : getValueIn E (Doc.root ds) §"/schema_version" (some (.int 0)) = .ok (.int 0) := by
    unfold getValueIn
    simp only [hst, bind, Except.bind, traverse_locate, locate_missing (by decide) hf, Option.bind_none]
  unfold Recipe.ofString
  simp only [h1, h2, bind, Except.bind, hg, schemaOf]
  exact ⟨_, rfl, rfl, rfl, rfl, rfl⟩

theorem entryNamed_fresh {k : Str} {ds : List Doc} (h : Fresh k ds) : entryNamed k ds = none := by
  unfold entryNamed
  rw [List.find?_eq_none]
  intro d hd
  simpa using h d hd

theorem same_fresh {ds ds' : List Doc} (h : Fresh §"schema_version" ds) (h' : Fresh §"schema_version" ds') : SameFormat ds ds' :=
  ⟨by rw [entryNamed_fresh h, entryNamed_fresh h'], Or.inl h⟩

theorem root_entry {k : Str} (hk : isDigitS k = false) (ds : List Doc) :
    (locate (Doc.root ds) [k]).bind (nodeAt (Doc.root ds)) = (entryNamed k ds).map node := by
  have hch : (Doc.root ds).children = ds.map node := nodes_map ds
  rw [locate_single, childIdx_name hk, hch, List.findIdx?_map]
  unfold entryNamed
  have hf : (fun c : Node => pyEq c.value (.str k)) ∘ node = fun d : Doc => decide (d.node.value = .str k) := by
    funext d
    rw [Bool.eq_iff_iff]
    simp only [Function.comp_apply, decide_eq_true_eq, pyEq_str]
  rw [hf]
  cases hi : ds.findIdx? (fun d => decide (d.node.value = .str k)) with
  | none =>
    rw [List.findIdx?_eq_none_iff] at hi
    rw [List.find?_eq_none.2 (by simpa using hi)]
    rfl
  | some i =>
    obtain ⟨h1, h2, h3⟩ := List.findIdx?_eq_some_iff_getElem.1 hi
    have : ds.find? (fun d => decide (d.node.value = .str k)) = some ds[i] := by
      rw [List.find?_eq_some_iff_getElem]
      exact ⟨h2, i, h1, rfl, fun j hj => by simpa using h3 j hj⟩
    rw [this]
    simp [nodeAt, hch, h1]

theorem value_of_entry {E : Env} {k : Str} {ds ds' : List Doc} (d : Option PyVal) (hst : strToStack (§"/" ++ k) = .ok [rootValue, k])
    (hk : isDigitS k = false) (h : entryNamed k ds = entryNamed k ds') :
    getValueIn E (Doc.root ds) (§"/" ++ k) d = getValueIn E (Doc.root ds') (§"/" ++ k) d := by
  unfold getValueIn
  simp only [hst, bind, Except.bind, traverse_locate, root_entry hk, h]

/-- Opening a document of the same format. -/
theorem open_same {E : Env} {vars : List (Str × PyVal)} {ds ds' : List Doc} {r : Recipe} (hv : Writable E vars) (h : Document E ds)
    (h' : Document E ds') (hr : Recipe.ofString E (recipeText vars ds) = .ok r) (hf : SameFormat ds ds') :
    r.root = Doc.root ds ∧ ∃ r', Recipe.ofString E (recipeText vars ds') = .ok r' ∧ r'.root = Doc.root ds' ∧ r'.vars = r.vars ∧
      r'.schema = r.schema ∧ r'.modified = false ∧ r'.selTbl = rebuildSelectors r'.root := by
  obtain ⟨p1, p2⟩ := C31_recipe_text_is_read E vars ds hv h
  obtain ⟨q1, q2⟩ := C31_recipe_text_is_read E vars ds' hv h'
  obtain ⟨root, sv, e1, e2, _, e3, e4, _, _, e5, e6⟩ := ofString_parts hr
  rw [p1] at e1
  injection e1 with e1
  subst e1
  refine ⟨e3, ?_⟩
  have hs := value_of_entry (E := E) (some (.int 0)) (by decide) (by decide) hf.1
  have hs' : getValueIn E (Doc.root ds') §"/schema_version" (some (.int 0)) = .ok sv := by rw [← e2]; exact hs.symm
  unfold Recipe.ofString
  cases hsv : schemaOf sv with
  | v0 =>
    simp only [q1, q2, bind, Except.bind, hs', hsv]
    refine ⟨_, rfl, rfl, ?_, by rw [e4, hsv], rfl, rfl⟩
    rw [e5 hsv, p2]
  | v1 =>
    obtain ⟨v, g1, g2⟩ := e6 hsv
    have hc : entryNamed §"context" ds = entryNamed §"context" ds' := by
      rcases hf.2 with hfr | hc
      · have : getValueIn E (Doc.root ds) §"/schema_version" (some (.int 0)) = .ok (.int 0) := by
          have hst : strToStack §"/schema_version" = .ok [rootValue, §"schema_version"] := by decide
          unfold getValueIn
          simp only [hst, bind, Except.bind, traverse_locate, locate_missing (by decide) hfr, Option.bind_none]
        rw [this] at e2
        injection e2 with e2
        subst e2
        cases hsv
      · exact hc
    have hcv := value_of_entry (E := E) (some (.dict [])) (by decide) (by decide) hc
    have hcv' : getValueIn E (Doc.root ds') §"/context" (some (.dict [])) = .ok v := by rw [← g1]; exact hcv.symm
    simp only [q1, bind, Except.bind, hs', hsv, hcv']
    exact ⟨_, rfl, rfl, g2.symm, by rw [e4, hsv], rfl, rfl⟩

/-- C99: opening the file that is written after the edits gives the edited document, and at every path the value that the recipe
in memory has there. -/
theorem C99_saved_edits_are_read_back_partial (E : Env) (vars : List (Str × PyVal)) (ds ds' : List Doc) (ps : List PyVal) (r : Recipe)
    (hv : Writable E vars) (h : Document E ds) (h' : Document E ds') (hr : Recipe.ofString E (recipeText vars ds) = .ok r)
    (hs : r.schema = .v1 → vars = []) (hf : SameFormat ds ds') (he : DocEdits E ps ds ds') :
    ∃ r' r'', applyAll E ps r = some r' ∧ Recipe.ofString E r'.render = .ok r'' ∧ r''.root = Doc.root ds' ∧ r''.vars = r'.vars ∧
      r''.schema = r'.schema ∧ r''.modified = false ∧ r''.render = r'.render ∧ r'.render = recipeText vars ds' ∧
      (∀ path, r'.containsValue path = r''.containsValue path) ∧
      ∀ path default subVars, r'.getValue E path default subVars = r''.getValue E path default subVars := by
  obtain ⟨_, h2, h3⟩ := C31_text_is_kept_partial E vars ds r hv h hr hs
  obtain ⟨r', ns', g1, g2, g3, g4, g5, _, _⟩ := docEdits_apply he r (nodes ds) h2 (shows_nodes ds)
  have hv' : (if r.schema = .v0 then r.vars else []) = vars := by
    cases hc : r.schema with
    | v0 => rw [if_pos rfl, h3 hc]
    | v1 => rw [if_neg (by decide), hs hc]
  have hren : r'.render = recipeText vars ds' := by rw [shows_render g2 g3 h'.1, g4, g5, hv']
  obtain ⟨_, r'', k1, k3, k4, k2, k5, _⟩ := open_same hv h h' hr hf
  have hrel : Rel E r'.root r''.root := by
    rw [g2, k3]
    exact .sec _ _ false ds' ns' h'.1 g3 (by simp) (by simp)
  refine ⟨r', r'', g1, by rw [hren]; exact k1, k3, by rw [k4, g4], by rw [k2, g5], k5, ?_, hren, ?_, ?_⟩
  · rw [C31_render E r'' ds' k3 h'.1, k2, k4, hren, hv']
  · intro path
    unfold Recipe.containsValue
    cases hst : strToStack path with
    | error e => rfl
    | ok stack =>
      simp only [bind, Except.bind]
      match stack with
      | [] => rfl
      | [p] => rfl
      | p :: q :: rest =>
        simp only [traverse, traverseRec_locate, (rel_locate (q :: rest) hrel).1]
  · intro path default subVars
    unfold Recipe.getValue Recipe.ctx
    rw [g4, g5, k2, k4]
    exact rel_value hrel path default _

/-! ## One line changes -/

theorem linesL_append (level : Nat) (a b : List Doc) : linesL level (a ++ b) = linesL level a ++ linesL level b := by
  induction a with
  | nil => rfl
  | cons d a ih => simp [linesL, ih]

theorem documentLines_join (a b : List Doc) : documentLines (a ++ b) = documentLines a ++ documentLines b := by
  induction a with
  | nil => rfl
  | cons d a ih => simp [documentLines, ih]

theorem linesL_single (level : Nat) (d : Doc) : linesL level [d] = d.lines level := by simp [linesL, lines]

theorem linesL_mid (level : Nat) (a b : List Doc) (d : Doc) : linesL level (a ++ d :: b) = linesL level a ++ (d.lines level ++ linesL level b) := by
  rw [linesL_append]; simp [linesL, lines]

theorem sec_lines (level : Nat) (k c : Str) (cs : List Doc) :
    (sec k c cs).lines level = (ind level ++ withComment (k ++ §":") c) :: linesL (level + 1) cs ∧ (sec k c cs).isComment = false := by
  unfold sec
  split
  · rename_i h; subst h; exact ⟨rfl, rfl⟩
  · exact ⟨rfl, rfl⟩

theorem elem_line (level : Nat) (first : Doc) (rest : List Doc) :
    (elem first rest).lines level = (ind level ++ (§"- " ++ first.head)) :: (first.under (level + 1) ++ linesL (level + 1) rest) := by
  simp only [lines, under, head, base, trail, withComment]
  split <;> simp_all

/-- The line of one key changes. -/
def KeyLine (a b : Str) (cs cs' : List Doc) : Prop :=
  ∃ pre d d' post, cs = pre ++ d :: post ∧ cs' = pre ++ d' :: post ∧ d.isComment = false ∧ d'.isComment = false ∧
    ∀ level, ∃ before margin after, d.lines level = before ++ (margin ++ a) :: after ∧
      d'.lines level = before ++ (margin ++ b) :: after ∧ (before = [] → ∃ m, margin = ind level ++ m)

theorem within_keyLine {R : List Doc → List Doc → Prop} {path : List Str} {ds ds' : List Doc} {a b : Str} (h : Within R path ds ds')
    (hR : ∀ cs cs', R cs cs' → KeyLine a b cs cs') : KeyLine a b ds ds' := by
  induction h with
  | here h => exact hR _ _ h
  | @key k c cs cs' pre post path _ _ _ ih =>
    obtain ⟨p, d, d', q, rfl, rfl, _, _, hl⟩ := ih
    refine ⟨pre, _, _, post, rfl, rfl, (sec_lines 0 k c _).2, (sec_lines 0 k c _).2, ?_⟩
    intro level
    obtain ⟨before, margin, after, h1, h2, _⟩ := hl (level + 1)
    refine ⟨(ind level ++ withComment (k ++ §":") c) :: (linesL (level + 1) p ++ before), margin, after ++ linesL (level + 1) q, ?_, ?_, by simp⟩
    · rw [(sec_lines level k c _).1, linesL_mid, h1]; simp
    · rw [(sec_lines level k c _).1, linesL_mid, h2]; simp
  | @element i first rest first' rest' pre post path _ _ _ ih =>
    obtain ⟨p, d, d', q, e1, e2, _, _, hl⟩ := ih
    refine ⟨pre, _, _, post, rfl, rfl, rfl, rfl, ?_⟩
    intro level
    obtain ⟨before, margin, after, h1, h2, h3⟩ := hl (level + 1)
    rw [elem_line, elem_line]
    cases p with
    | nil =>
      simp only [List.nil_append, List.cons.injEq] at e1 e2
      obtain ⟨e1, e3⟩ := e1
      obtain ⟨e2, e4⟩ := e2
      subst e1 e2 e3 e4
      simp only [lines] at h1 h2
      cases before with
      | nil =>
        obtain ⟨m, rfl⟩ := h3 rfl
        simp only [List.nil_append, List.cons.injEq, List.append_assoc, List.append_cancel_left_eq] at h1 h2
        refine ⟨[], ind level ++ (§"- " ++ m), after ++ linesL (level + 1) rest', ?_, ?_, fun _ => ⟨_, rfl⟩⟩
        · rw [h1.1, h1.2]; simp
        · rw [h2.1, h2.2]; simp
      | cons l before =>
        simp only [List.cons_append, List.cons.injEq] at h1 h2
        have hh : first.head = first'.head := List.append_cancel_left (h1.1.trans h2.1.symm)
        refine ⟨(ind level ++ (§"- " ++ first.head)) :: before, margin, after ++ linesL (level + 1) rest', ?_, ?_, by simp⟩
        · rw [h1.2]; simp
        · rw [h2.2, hh]; simp
    | cons f p =>
      simp only [List.cons_append, List.cons.injEq] at e1 e2
      obtain ⟨e1, e3⟩ := e1
      obtain ⟨e2, e4⟩ := e2
      subst e1 e2 e3 e4
      refine ⟨(ind level ++ (§"- " ++ first'.head)) :: (first'.under (level + 1) ++ linesL (level + 1) p ++ before), margin,
        after ++ linesL (level + 1) q, ?_, ?_, by simp⟩
      · rw [linesL_mid, h1]; simp
      · rw [linesL_mid, h2]; simp

theorem keyLine_text {a b : Str} {vars : List (Str × PyVal)} {ds ds' : List Doc} (h : KeyLine a b ds ds') :
    ∃ xs ys, recipeText vars ds = joinStr §"\n" xs ∧ recipeText vars ds' = joinStr §"\n" ys ∧ OneLineDiffers a b xs ys := by
  obtain ⟨pre, d, d', post, rfl, rfl, hd, hd', hl⟩ := h
  obtain ⟨before, margin, after, h1, h2, _⟩ := hl 0
  refine ⟨_, _, rfl, rfl, ?_⟩
  refine ⟨vars.map (fun kv => defLine kv.1 kv.2) ++ (if vars = [] then [] else [[]]) ++ (documentLines pre ++ before), margin,
    after ++ ([[]] ++ documentLines post), ?_, ?_⟩
  · rw [documentLines_join, documentLines, h1, hd]; simp
  · rw [documentLines_join, documentLines, h2, hd']; simp

theorem within_mono {R S : List Doc → List Doc → Prop} {path : List Str} {ds ds' : List Doc} (h : Within R path ds ds')
    (hRS : ∀ cs cs', R cs cs' → S cs cs') : Within S path ds ds' := by
  induction h with
  | here h => exact .here (hRS _ _ h)
  | key h1 h2 _ ih => exact .key h1 h2 ih
  | element h1 h2 _ ih => exact .element h1 h2 ih

theorem one_line {E : Env} {vars : List (Str × PyVal)} {ds ds' : List Doc} {r : Recipe} {p : PyVal} {a b : Str} (hv : Writable E vars)
    (h : Document E ds) (hr : Recipe.ofString E (recipeText vars ds) = .ok r) (hs : r.schema = .v1 → vars = [])
    (he : DocEdit E p ds ds') (hkl : KeyLine a b ds ds') (ho : OkL E ds') :
    ∃ r' xs ys, r.patch E p = (.ok true, r') ∧ r.render = joinStr §"\n" xs ∧ r'.render = joinStr §"\n" ys ∧
      OneLineDiffers a b xs ys := by
  obtain ⟨r', h1, h2, _⟩ := C99_edits_are_written_partial E vars ds ds' [p] r hv h hr hs (.cons he .nil) ho
  obtain ⟨xs, ys, e1, e2, e3⟩ := keyLine_text (vars := vars) hkl
  refine ⟨r', xs, ys, ?_, ?_, by rw [h2, e2], e3⟩
  · simp only [applyAll] at h1
    split at h1
    · rename_i r1 hpe
      injection h1 with h1
      rw [hpe, h1]
    · cases h1
  · rw [(C31_text_is_kept_partial E vars ds r hv h hr hs).1, e1]

/-- C99: `replace` of the value behind a key changes one line of the file; what stands behind the value on that line, a comment or
selector, is gone (`C99_selector_lost_violation`). -/
theorem C99_replace_changes_one_line_partial (E : Env) (vars : List (Str × PyVal)) (ds ds' : List Doc) (r : Recipe) (p v w : PyVal)
    (init : List Str) (k vt c : Str) (old : PyVal) (hv : Writable E vars) (h : Document E ds)
    (hr : Recipe.ofString E (recipeText vars ds) = .ok r) (hs : r.schema = .v1 → vars = [])
    (hc : ∀ c ∈ init ++ [k], Component c) (hk : isDigitS k = false) (hp : IsPatch p §"replace" (absPath (init ++ [k])))
    (hval : field p §"value" = some v) (hsc : Scalar E v w) (hw : Within (ScalarBecomes k vt old c w) init ds ds') (ho : OkL E ds') :
    ∃ r' xs ys, r.patch E p = (.ok true, r') ∧ r.render = joinStr §"\n" xs ∧ r'.render = joinStr §"\n" ys ∧
      OneLineDiffers (withComment (k ++ §": " ++ vt) c) (k ++ §": " ++ yamlText w) xs ys := by
  have he : DocEdit E p ds ds' := by
    refine .replaceKey init k v w hc hk hp hval hsc (within_mono hw ?_)
    rintro cs cs' ⟨pre, post, rfl, rfl, hf⟩
    exact ⟨pre, _, post, rfl, by simp, rfl, hf⟩
  refine one_line hv h hr hs he (within_keyLine hw ?_) ho
  rintro cs cs' ⟨pre, post, rfl, rfl, _⟩
  refine ⟨pre, _, _, post, rfl, rfl, rfl, rfl, fun level => ⟨[], ind level, [], rfl, ?_, fun _ => ⟨[], by simp⟩⟩⟩
  simp [lines, under, head, base, trail, withComment]

/-- C99: the same for `replace` of a list item. -/
theorem C99_replace_item_changes_one_line_partial (E : Env) (vars : List (Str × PyVal)) (ds ds' : List Doc) (r : Recipe) (p v w : PyVal)
    (init : List Str) (i vt c : Str) (old : PyVal) (hv : Writable E vars) (h : Document E ds)
    (hr : Recipe.ofString E (recipeText vars ds) = .ok r) (hs : r.schema = .v1 → vars = [])
    (hc : ∀ c ∈ init ++ [i], Component c) (hi : isDigitS i = true) (hp : IsPatch p §"replace" (absPath (init ++ [i])))
    (hval : field p §"value" = some v) (hsc : Scalar E v w) (hold : old ≠ .sentinel)
    (hw : Within (fun cs cs' => ∃ pre post, cs = pre ++ item vt old c :: post ∧ cs' = pre ++ item (yamlText w) w [] :: post ∧
      entryCount pre = natOfStr i) init ds ds') (ho : OkL E ds') :
    ∃ r' xs ys, r.patch E p = (.ok true, r') ∧ r.render = joinStr §"\n" xs ∧ r'.render = joinStr §"\n" ys ∧
      OneLineDiffers (withComment (§"- " ++ vt) c) (§"- " ++ yamlText w) xs ys := by
  have he : DocEdit E p ds ds' := by
    refine .replaceItem init i v w hc hi hp hval hsc (within_mono hw ?_)
    rintro cs cs' ⟨pre, post, rfl, rfl, hf⟩
    exact ⟨pre, _, _, _, post, rfl, by simp, hold, hf⟩
  refine one_line hv h hr hs he (within_keyLine hw ?_) ho
  rintro cs cs' ⟨pre, post, rfl, rfl, _⟩
  refine ⟨pre, _, _, post, rfl, rfl, rfl, rfl, fun level => ⟨[], ind level, [], rfl, ?_, fun _ => ⟨[], by simp⟩⟩⟩
  simp [lines, under, head, base, trail, withComment]

/-! ## A concrete history -/

namespace DocEditExample

def before : List Doc :=
  [ block §"package" [] [scalar §"name" §"foo" (.str §"foo") [], scalar §"version" §"1.2" (.flt §"1.2") §"# [win]"],
    comment §"# where",
    block §"source" [] [
      elem (scalar §"url" §"a.tgz" (.str §"a.tgz") §"# [unix]") [
        block §"patches" [] [item §"p1" (.str §"p1") §"# [osx]", comment §"# last", item §"2" (.int 2) []]]],
    empty §"about" [] ]

def after1 : List Doc :=
  [ block §"package" [] [scalar §"name" §"foo" (.str §"foo") [], scalar §"version" §"2" (.int 2) []],
    comment §"# where",
    block §"source" [] [
      elem (scalar §"url" §"a.tgz" (.str §"a.tgz") §"# [unix]") [
        block §"patches" [] [item §"p1" (.str §"p1") §"# [osx]", comment §"# last", item §"2" (.int 2) []]]],
    empty §"about" [] ]

def after2 : List Doc :=
  [ block §"package" [] [scalar §"name" §"foo" (.str §"foo") [], scalar §"version" §"2" (.int 2) []],
    comment §"# where",
    block §"source" [] [
      elem (scalar §"url" §"a.tgz" (.str §"a.tgz") §"# [unix]") [
        block §"patches" [] [item §"p1" (.str §"p1") §"# [osx]", comment §"# last", item §"p2" (.str §"p2") [], item §"2" (.int 2) []]]],
    empty §"about" [] ]

def after3 : List Doc :=
  [ block §"package" [] [scalar §"name" §"foo" (.str §"foo") [], scalar §"version" §"2" (.int 2) []],
    comment §"# where",
    block §"source" [] [
      elem (scalar §"url" §"a.tgz" (.str §"a.tgz") §"# [unix]") [
        block §"patches" [] [item §"p1" (.str §"p1") §"# [osx]", comment §"# last", item §"p2" (.str §"p2") [], item §"2" (.int 2) []]]],
    block §"about" [] [block §"tags" [] [item §"x" (.str §"x") [], item §"y" (.str §"y") []]] ]

def after4 : List Doc :=
  [ block §"package" [] [scalar §"name" §"foo" (.str §"foo") [], scalar §"version" §"2" (.int 2) []],
    comment §"# where",
    empty §"source" [],
    block §"about" [] [block §"tags" [] [item §"x" (.str §"x") [], item §"y" (.str §"y") []]] ]

def patches : List PyVal :=
  [ mkPatch §"replace" §"/package/version" [(§"value", .int 2)],
    mkPatch §"add" §"/source/0/patches/1" [(§"value", .str §"p2")],
    mkPatch §"add" §"/about/tags" [(§"value", .list [.str §"x", .str §"y"])],
    mkPatch §"remove" §"/source/0" ]

theorem isPatch {p : PyVal} {name target : Str} (h : schemaValid p = true ∧ field p §"op" = some (.str name) ∧
    field p §"path" = some (.str target)) : IsPatch p name target := ⟨(schemaValid_iff _).1 h.1, h.2.1, h.2.2⟩

theorem scalar_int : Scalar Toy.env (.int 2) (.int 2) :=
  ⟨rfl, by simp, ⟨by decide +kernel, by decide +kernel, by decide +kernel, by decide +kernel, by decide +kernel, by decide +kernel,
    by decide +kernel⟩, rfl, by simp⟩

theorem scalar_p2 : Scalar Toy.env (.str §"p2") (.str §"p2") :=
  ⟨rfl, by rintro s ⟨⟩; decide, ⟨by decide +kernel, by decide +kernel, by decide +kernel, by decide +kernel, by decide +kernel,
    by decide +kernel, by decide +kernel⟩, rfl, by decide⟩

theorem step1 : DocEdit Toy.env (mkPatch §"replace" §"/package/version" [(§"value", .int 2)]) before after1 :=
  .replaceKey [§"package"] §"version" (.int 2) (.int 2) (by decide) (by decide) (isPatch (by decide)) rfl scalar_int
    (.key (pre := []) (c := []) (cs := [scalar §"name" §"foo" (.str §"foo") [], scalar §"version" §"1.2" (.flt §"1.2") §"# [win]"])
      (cs' := [scalar §"name" §"foo" (.str §"foo") [], scalar §"version" §"2" (.int 2) []]) (by decide) (by simp [Fresh])
      (.here ⟨[scalar §"name" §"foo" (.str §"foo") []], _, [], rfl, rfl, rfl, by simp [Fresh, node]⟩))

theorem step2 : DocEdit Toy.env (mkPatch §"add" §"/source/0/patches/1" [(§"value", .str §"p2")]) after1 after2 :=
  .addItem [§"source", §"0", §"patches"] §"1" (.str §"p2") (.str §"p2") (by decide) (by decide) (isPatch (by decide)) rfl scalar_p2
    (.key (pre := after1.take 2) (c := [])
      (cs := [elem (scalar §"url" §"a.tgz" (.str §"a.tgz") §"# [unix]") [
        block §"patches" [] [item §"p1" (.str §"p1") §"# [osx]", comment §"# last", item §"2" (.int 2) []]]])
      (cs' := [elem (scalar §"url" §"a.tgz" (.str §"a.tgz") §"# [unix]") [
        block §"patches" [] [item §"p1" (.str §"p1") §"# [osx]", comment §"# last", item §"p2" (.str §"p2") [], item §"2" (.int 2) []]]])
      (by decide) (by simp [Fresh, after1, node])
      (.element (pre := []) (post := []) (by decide) (by decide)
        (.key (pre := [scalar §"url" §"a.tgz" (.str §"a.tgz") §"# [unix]"]) (post := []) (c := [])
          (cs := [item §"p1" (.str §"p1") §"# [osx]", comment §"# last", item §"2" (.int 2) []])
          (cs' := [item §"p1" (.str §"p1") §"# [osx]", comment §"# last", item §"p2" (.str §"p2") [], item §"2" (.int 2) []])
          (by decide) (by simp [Fresh, node])
          (.here ⟨[item §"p1" (.str §"p1") §"# [osx]", comment §"# last"], _, _, _, [], rfl, rfl, by simp, by decide⟩))))

theorem tags : Collection Toy.env (.dict [(§"tags", .list [.str §"x", .str §"y"])])
    [block §"tags" [] [item §"x" (.str §"x") [], item §"y" (.str §"y") []]] :=
  ⟨Or.inr ⟨_, rfl⟩, okLB_sound _ _ (by decide +kernel), by simp, by decide, by decide +kernel, by simp [Fresh, node]⟩

theorem step3 : DocEdit Toy.env (mkPatch §"add" §"/about/tags" [(§"value", .list [.str §"x", .str §"y"])]) after2 after3 :=
  .addKey [§"about"] §"tags" (.list [.str §"x", .str §"y"]) _ (by decide) (by decide) (by decide) (isPatch (by decide)) rfl tags
    (by simp [after2])
    (.key (pre := after2.take 3) (post := []) (c := []) (cs := [])
      (cs' := [block §"tags" [] [item §"x" (.str §"x") [], item §"y" (.str §"y") []]])
      (by decide) (by simp [Fresh, after2, node]) (.here ⟨by simp [Fresh], rfl⟩))

theorem step4 : DocEdit Toy.env (mkPatch §"remove" §"/source/0") after3 after4 :=
  .removeElem [§"source"] §"0" (by decide) (by decide) (isPatch (by decide))
    (.key (pre := after3.take 2) (post := after3.drop 3) (c := [])
      (cs := [elem (scalar §"url" §"a.tgz" (.str §"a.tgz") §"# [unix]") [
        block §"patches" [] [item §"p1" (.str §"p1") §"# [osx]", comment §"# last", item §"p2" (.str §"p2") [], item §"2" (.int 2) []]]])
      (cs' := []) (by decide) (by simp [Fresh, after3, node]) (.here ⟨[], _, _, [], rfl, rfl, by decide⟩))

example : DocEdits Toy.env patches before after4 := .cons step1 (.cons step2 (.cons step3 (.cons step4 .nil)))
example : Document Toy.env before ∧ Document Toy.env after3 ∧ Document Toy.env after4 :=
  ⟨documentB_sound (by decide +kernel), documentB_sound (by decide +kernel), documentB_sound (by decide +kernel)⟩
example : SameFormat before after4 := same_fresh (by simp [Fresh, before, node]) (by simp [Fresh, after4, node])
/-- A recipe of the new format with variables. -/
example : SameFormat
    [scalar §"schema_version" §"1" (.int 1) [], block §"context" [] [scalar §"n" §"2" (.int 2) []], empty §"about" []]
    [scalar §"schema_version" §"1" (.int 1) [], block §"context" [] [scalar §"n" §"2" (.int 2) []], scalar §"about" §"x" (.str §"x") []] :=
  ⟨rfl, Or.inr rfl⟩
example : recipeText [(§"n", .int 3)] after3 = §"{% set n = 3 %}

package:
  name: foo
  version: 2

# where
source:
  - url: a.tgz  # [unix]
    patches:
      - p1  # [osx]
      # last
      - p2
      - 2

about:
  tags:
    - x
    - y
" := by decide +kernel

/-- `C99_replace_changes_one_line_partial` for the first step. -/
example : Within (ScalarBecomes §"version" §"1.2" (.flt §"1.2") §"# [win]" (.int 2)) [§"package"] before after1 :=
  .key (pre := []) (c := []) (cs := [scalar §"name" §"foo" (.str §"foo") [], scalar §"version" §"1.2" (.flt §"1.2") §"# [win]"])
    (cs' := [scalar §"name" §"foo" (.str §"foo") [], scalar §"version" §"2" (.int 2) []]) (by decide) (by simp [Fresh])
    (.here ⟨[scalar §"name" §"foo" (.str §"foo") []], [], rfl, rfl, by simp [Fresh, node]⟩)

end DocEditExample

/-! ## Where the full statement fails -/

/-- Replacing a value takes the selector behind it out of the file, while the recipe in memory still reports the selector: the value
is now given on all platforms, and what the API says is no longer what the file says. -/
theorem C99_selector_lost_violation :
    let r := Toy.recipe "build:\n  number: 1  # [win]\n  skip: true\n"
    let out := r.patch Toy.env (mkPatch §"replace" §"/build/number" [(§"value", .int 0)])
    out.1 = .ok true ∧ out.2.render = §"build:\n  number: 0\n  skip: true\n" ∧
      out.2.getSelectorAtPath §"/build/number" = .ok §"[win]" ∧
      (Toy.recipe "build:\n  number: 0\n  skip: true\n").containsSelectorAtPath §"/build/number" = .ok false :=
  ⟨by decide +kernel, by decide +kernel, by decide +kernel, by decide +kernel⟩

/-- The comment that was lost comes back with a later edit of the same key. -/
theorem C99_comment_returns_violation :
    let r := Toy.recipe "build:\n  number: 1  # [win]\n  skip: true\n"
    let r1 := (r.patch Toy.env (mkPatch §"replace" §"/build/number" [(§"value", .int 0)])).2
    let r2 := (r1.patch Toy.env (mkPatch §"replace" §"/build/number" [(§"value", .list [.int 0])])).2
    r1.render = §"build:\n  number: 0\n  skip: true\n" ∧ r2.render = §"build:\n  number:  # [win]\n    - 0\n  skip: true\n" :=
  ⟨by decide +kernel, by decide +kernel⟩

end Crm
