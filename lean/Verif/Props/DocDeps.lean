import Verif.Lemmas.DocDeps
import Verif.Props.DepsEdit
import Verif.Lemmas.CleanEdit
import Verif.Props.DocLines

/-! # Dependencies in the file (C102) -/

namespace Crm
open Spec Doc

/-- What follows once the tree of the edited recipe is that of `ds'`. -/
theorem exact_saved {E : Env} {vars : List (Str × PyVal)} {ds ds' : List Doc} {r : Recipe} {P : List Str → List Str → Prop}
    (hv : Writable E vars) (h : Document E ds) (hr : Recipe.ofString E (recipeText vars ds) = .ok r) (hs : r.schema = .v1 → vars = [])
    (ho : OkL E ds') (hP : P (fileTextLines vars ds) (fileTextLines vars ds')) :
    LinesSaved vars ds' P r (edited r (Doc.root ds')) ∧
      (Document E ds' → SameFormat ds ds' → ReadBackSel E (edited r (Doc.root ds'))) := by
  obtain ⟨t1, t2, t3⟩ := C31_text_is_kept_partial E vars ds r hv h hr hs
  have htext : (edited r (Doc.root ds')).render = recipeText vars ds' := by
    rw [shows_render (r := edited r (Doc.root ds')) rfl (shows_nodes ds') ho]
    show recipeText (if r.schema = .v0 then r.vars else []) ds' = _
    cases hcs : r.schema with
    | v0 => rw [if_pos rfl, t3 hcs]
    | v1 => rw [if_neg (by decide), hs hcs]
  refine ⟨⟨htext, ⟨_, _, by rw [t1, fileTextLines_text], by rw [htext, fileTextLines_text], hP⟩, rfl⟩, ?_⟩
  intro h' hf
  obtain ⟨r2, b1, b2, b3, _, b4⟩ := edit_read_back (r' := edited r (Doc.root ds')) hv h h' hr hf htext rfl rfl rfl
  exact ⟨r2, b1, b2, b3, same_selectors b4.symm⟩

theorem item_lines (vt : Str) (v : PyVal) (c : Str) (level : Nat) :
    (item vt v c).lines level = [ind level ++ withComment (§"- " ++ vt) c] := by
  simp [lines, under, head, base, trail]

/-- The selector of the new entry, in the second step. -/
theorem entry_written {dm ds' : List Doc} {comps : List Str} {n : Nat} {vt c c' body : Str} {mode : SelMode} (r : Recipe)
    (hc : ∀ x ∈ comps, Component x) (hk : endsInNumber comps = false) (hb : '\n' ∉ body) (hcc : SelectorWritten body mode c c')
    (hw : Within (EntryRecommented (natStr n) (§"- " ++ vt) c c') comps dm ds') :
    (edited r (Doc.root dm)).addSelector (absPath (comps ++ [natStr n])) (§"[" ++ body ++ §"]") mode =
      (.ok (), edited r (Doc.root ds')) := by
  have hcomp : ∀ x ∈ comps ++ [natStr n], Component x := by
    intro x hx
    rcases List.mem_append.1 hx with hx | hx
    · exact hc x hx
    · simp only [List.mem_singleton] at hx; subst hx; exact isDigitS_component (isDigitS_natStr n)
  have he : CommentEditInside (absPath (comps ++ [natStr n])) (§"- " ++ vt) c c' dm ds' :=
    ⟨comps, natStr n, rfl, hcomp, within_mono hw fun _ _ h => ⟨h, fun hn => by rw [hk] at hn; cases hn⟩⟩
  obtain ⟨st, pos, g1, g2, g3⟩ := addSelector_tree (r := edited r (Doc.root dm)) rfl hb hcc (inside_edit he)
  rw [g3, edit_exact rfl he g1 g2]
  rfl

theorem entry_selector {dm ds' : List Doc} {comps : List Str} {n : Nat} {vt c body : Str} {mode : SelMode} (r : Recipe)
    (hc : ∀ x ∈ comps, Component x) (hk : endsInNumber comps = false) (hb : '\n' ∉ body) (hcc : c = §"# [" ++ body ++ §"]")
    (hw : Within (EntryRecommented (natStr n) (§"- " ++ vt) [] c) comps dm ds') :
    (edited r (Doc.root dm)).addSelector (absPath (comps ++ [natStr n])) (§"[" ++ body ++ §"]") mode =
      (.ok (), edited r (Doc.root ds')) := by
  subst hcc
  exact entry_written r hc hk hb .fresh hw

/-- The selector that was put back gets the new one joined to it. -/
theorem entry_joined {old body : Str} {selMode : SelMode} (hm : selMode ≠ .replace) (ho : '\n' ∉ old) :
    SelectorWritten body selMode (§"# [" ++ old ++ §"]")
      (§"# [" ++ old ++ (if selMode = .and then §" and " else §" or ") ++ body ++ §"]") := by
  refine .joined _ _ hm ?_ (by simp [ho])
  have := selOf_new old ho [] (by simp) (by simp)
  rw [selOf_selectorIn (by simp [ho])] at this
  simpa using this

theorem depAppend_tree (E : Env) (M : Str → Option Str) (ds ds' : List Doc) (r : Recipe) (dep : Dep)
    (mode : DepMode) (selMode : SelMode) (comps : List Str) (i : Str) (n : Nat) (w : PyVal) (c : Str) (items : List PyVal)
    (t2 : r.root = Doc.root ds)
    (hsp : SectionPath comps) (hi : isDigitS i = true) (hp : dep.path = absPath (comps ++ [i]))
    (hcur : r.getValue E (absPath comps) (some (.list [])) true = .ok (.list items)) (hx : mode ≠ .exactPosition)
    (hn : mode = .useBoth ∨ textItems items ∧ ∀ x ∈ items, ¬ named M dep.data.name x)
    (hsc : Scalar E (.str dep.data.render) w) (hws : w ≠ .sentinel) (hsel : SelectorComment dep.selector c)
    (hlen : dep.selector ≠ none → ∀ dm, Within (EndsAt n (item (yamlText w) w [])) comps ds dm → ListLength E comps dm (n + 1))
    (he : Within (EndsAt n (item (yamlText w) w c)) comps ds ds') :
    r.addDependency E M dep mode selMode = (.ok true, edited r (Doc.root ds')) := by
  have hold : r.containsValue (absPath comps) = .ok true := by
    obtain ⟨pos, _, _, _, h1, _⟩ := within_exact he r.root (by rw [t2]; rfl)
    rw [contains_locate r comps hsp.components hsp.ne_nil, h1]; rfl
  have hpatch : ∀ dm, Within (EndsAt n (item (yamlText w) w [])) comps ds dm →
      r.patch E (mkPatch §"add" (absPath (comps ++ [§"-"])) [(§"value", .str dep.data.render)]) = (.ok true, edited r (Doc.root dm)) := by
    intro dm hd
    exact (item_exact r t2 hsp.ne_nil hsp.not_number hsp.components).1 _ w
      (isPatch_mk _ _ _ (Or.inl rfl) (by simp [absPath]) (by simp)) (by simp [field, mkPatch, lookupD]) hsc
      (within_mono hd fun _ _ h => h.2)
  cases hds : dep.selector with
  | none =>
    rw [hds] at hsel
    obtain rfl : c = [] := hsel
    rw [C37_append E M r dep mode selMode comps i hsp hi hp hds items hold hcur hx hn]
    exact hpatch _ he
  | some sel =>
    rw [hds] at hsel
    obtain ⟨body, hb1, hb2, hb3⟩ := hsel
    obtain ⟨dm, w1, w2, _⟩ := within_two (S := EndsAt n (item (yamlText w) w []))
      (T := EntryRecommented (natStr n) (§"- " ++ yamlText w) [] c) he (by
        rintro cs cs' ⟨hcount, rfl⟩
        refine ⟨_, ⟨hcount, rfl⟩, cs, _, _, [], rfl, rfl, ?_, .item _ _ ?_, rfl⟩
        · simp only [Names, isDigitS_natStr, if_true, natOfStr_natStr, hcount, and_true]
          exact ⟨_, _, _, rfl⟩
        · exact hws) hsp.ne_nil hsp.not_number
    obtain ⟨vs, hvs, hl⟩ := hlen (by rw [hds]; simp) dm w1 (edited r (Doc.root dm)) rfl
    have hsplit : ∃ before last, vs = before ++ [last] ∧ before.length = n := by
      have hne : vs ≠ [] := by rintro rfl; simp at hl
      refine ⟨vs.dropLast, vs.getLast hne, (List.dropLast_concat_getLast hne).symm, by simp [hl]⟩
    obtain ⟨before, last, rfl, hbl⟩ := hsplit
    refine C37_append_selector E M r (edited r (Doc.root dm)) _ dep mode selMode sel hds comps i hsp hi hp items hold hcur hx hn (hpatch dm w1)
      before last hvs ?_
    rw [hb1, hbl]
    exact entry_selector r hsp.components hsp.not_number hb2 hb3 w2

/-- C102: a dependency for a package that the section does not have yet becomes one new line at the end of the section, with its selector
behind it. -/
theorem C102_append_partial (E : Env) (M : Str → Option Str) (vars : List (Str × PyVal)) (ds ds' : List Doc) (r : Recipe) (dep : Dep)
    (mode : DepMode) (selMode : SelMode) (comps : List Str) (i : Str) (n : Nat) (w : PyVal) (c : Str) (items : List PyVal)
    (hv : Writable E vars) (h : Document E ds) (hr : Recipe.ofString E (recipeText vars ds) = .ok r) (hs : r.schema = .v1 → vars = [])
    (hsp : SectionPath comps) (hi : isDigitS i = true) (hp : dep.path = absPath (comps ++ [i]))
    (hcur : r.getValue E (absPath comps) (some (.list [])) true = .ok (.list items)) (hx : mode ≠ .exactPosition)
    (hn : mode = .useBoth ∨ textItems items ∧ ∀ x ∈ items, ¬ named M dep.data.name x)
    (hsc : Scalar E (.str dep.data.render) w) (hws : w ≠ .sentinel) (hsel : SelectorComment dep.selector c)
    (hlen : dep.selector ≠ none → ∀ dm, Within (EndsAt n (item (yamlText w) w [])) comps ds dm → ListLength E comps dm (n + 1))
    (he : Within (EndsAt n (item (yamlText w) w c)) comps ds ds') (ho : OkL E ds') :
    ∃ r', r.addDependency E M dep mode selMode = (.ok true, r') ∧
      LinesSaved vars ds' (LineChange.added (withComment (§"- " ++ yamlText w) c)).Holds r r' ∧
      (Document E ds' → SameFormat ds ds' → ReadBackSel E r') := by
  obtain ⟨_, t2, _⟩ := C31_text_is_kept_partial E vars ds r hv h hr hs
  have hadd := entryAdd_file (vars := vars) (within_insert (b := withComment (§"- " ++ yamlText w) c) he (by
    rintro cs cs' ⟨_, rfl⟩ level
    exact ⟨linesL level cs, ind level, [], by simp, by rw [linesL_append, linesL_single, item_lines], ind_space level⟩)
    hsp.ne_nil hsp.not_number)
  refine ⟨edited r (Doc.root ds'), depAppend_tree E M ds ds' r dep mode selMode comps i n w c items t2 hsp hi hp hcur hx hn hsc hws hsel hlen he, exact_saved hv h hr hs ho hadd⟩

theorem isPatch_rm {path : Str} (hne : path ≠ []) : IsPatch (mkPatch §"remove" path) §"remove" path := by
  refine ⟨(schemaValid_iff _).1 ?_, rfl, rfl⟩
  cases path with
  | nil => exact absurd rfl hne
  | cons c cs => simp [schemaValid, mkPatch, lookupD, patchOps]

theorem itemLine_file {n : Nat} {old vt c : Str} {w : PyVal} {comps : List Str} {vars : List (Str × PyVal)} {ds ds' : List Doc}
    (he : Within (ItemLine n old [item vt w c]) comps ds ds') :
    OneLineDiffers old (withComment (§"- " ++ vt) c) (fileTextLines vars ds) (fileTextLines vars ds') := by
  refine keyLine_file (within_keyLine he ?_)
  rintro cs cs' ⟨pre, vt', v', c', post, rfl, rfl, _, _, rfl⟩
  exact ⟨pre, item vt' v' c', item vt w c, post, rfl, by simp, rfl, rfl, fun level =>
    ⟨[], ind level, [], by rw [item_lines]; rfl, by rw [item_lines]; rfl, fun _ => ⟨[], by simp⟩⟩⟩

theorem itemLine_two {n : Nat} {old c : Str} {w : PyVal} {comps : List Str} {ds ds' : List Doc} (hws : w ≠ .sentinel)
    (he : Within (ItemLine n old [item (yamlText w) w c]) comps ds ds') (hne : comps ≠ []) (hk : endsInNumber comps = false) :
    ∃ dm, Within (ItemBecomes n [item (yamlText w) w []]) comps ds dm ∧
      Within (EntryRecommented (natStr n) (§"- " ++ yamlText w) [] c) comps dm ds' := by
  obtain ⟨dm, w1, w2, _⟩ := within_two (S := ItemBecomes n [item (yamlText w) w []])
    (T := EntryRecommented (natStr n) (§"- " ++ yamlText w) [] c) he (by
      rintro cs cs' ⟨pre, vt, v, c0, post, rfl, rfl, h1, h2, _⟩
      refine ⟨_, ⟨pre, vt, v, c0, post, rfl, rfl, h1, h2⟩, pre, item (yamlText w) w [], item (yamlText w) w c, post, by simp, by simp, ?_, .item _ _ hws, rfl⟩
      simp only [Names, isDigitS_natStr, if_true, natOfStr_natStr, h2, and_true]
      exact ⟨_, _, _, rfl⟩) hne hk
  exact ⟨dm, w1, w2⟩

theorem itemLine_three {n : Nat} {old c1 c : Str} {w : PyVal} {comps : List Str} {ds ds' : List Doc} (hws : w ≠ .sentinel)
    (he : Within (ItemLine n old [item (yamlText w) w c]) comps ds ds') (hne : comps ≠ []) (hk : endsInNumber comps = false) :
    ∃ dm dn, Within (ItemBecomes n [item (yamlText w) w []]) comps ds dm ∧
      Within (EntryRecommented (natStr n) (§"- " ++ yamlText w) [] c1) comps dm dn ∧
      Within (EntryRecommented (natStr n) (§"- " ++ yamlText w) c1 c) comps dn ds' := by
  obtain ⟨dn, w1, w2, _⟩ := within_two (S := ItemLine n old [item (yamlText w) w c1])
    (T := EntryRecommented (natStr n) (§"- " ++ yamlText w) c1 c) he (by
      rintro cs cs' ⟨pre, vt, v, c0, post, rfl, rfl, h1, h2, h3⟩
      refine ⟨_, ⟨pre, vt, v, c0, post, rfl, rfl, h1, h2, h3⟩, pre, item (yamlText w) w c1, item (yamlText w) w c, post, by simp, by simp, ?_, .item _ _ hws, rfl⟩
      simp only [Names, isDigitS_natStr, if_true, natOfStr_natStr, h2, and_true]
      exact ⟨_, _, _, rfl⟩) hne hk
  obtain ⟨dm, w3, w4⟩ := itemLine_two hws w1 hne hk
  exact ⟨dm, dn, w3, w4, w2⟩

theorem selectorComment_some {sel : Option SelectorParser} {body : Str} (h : SelectorComment sel (§"# [" ++ body ++ §"]")) :
    ∃ s, sel = some s ∧ s.render = §"[" ++ body ++ §"]" ∧ '\n' ∉ body := by
  cases sel with
  | none => exact absurd h (by simp [SelectorComment])
  | some s =>
    obtain ⟨b, h1, h2, h3⟩ := h
    have : body = b := by simpa using h3
    subst this
    exact ⟨s, rfl, h1, h2⟩

theorem within_contains {R : List Doc → List Doc → Prop} {comps : List Str} {ds ds' : List Doc} {r : Recipe} (t2 : r.root = Doc.root ds)
    (hsp : SectionPath comps) (he : Within R comps ds ds') : r.containsValue (absPath comps) = .ok true := by
  obtain ⟨pos, _, _, _, h1, _⟩ := within_exact he r.root (by rw [t2]; rfl)
  rw [contains_locate r comps hsp.components hsp.ne_nil, h1]; rfl

theorem replace_step {E : Env} {r : Recipe} {ds dm : List Doc} {comps : List Str} {n : Nat} {t : Str} {w : PyVal} (t2 : r.root = Doc.root ds)
    (hsp : SectionPath comps) (hsc : Scalar E (.str t) w) (hd : Within (ItemBecomes n [item (yamlText w) w []]) comps ds dm) :
    r.patch E (mkPatch §"replace" (absPath (comps ++ [natStr n])) [(§"value", .str t)]) = (.ok true, edited r (Doc.root dm)) := by
  refine (item_exact r t2 hsp.ne_nil hsp.not_number hsp.components).2.1 (natStr n) _ w (isDigitS_natStr n)
    (isPatch_mk _ _ _ (Or.inr rfl) (by simp [absPath]) (by simp)) (by simp [field, mkPatch, lookupD]) hsc ?_
  rw [natOfStr_natStr]
  exact hd

theorem depReplace_tree (E : Env) (M : Str → Option Str) (ds ds' : List Doc) (r : Recipe) (dep : Dep)
    (comps : List Str) (i old : Str) (w x : PyVal) (c : Str) (before after : List PyVal)
    (t2 : r.root = Doc.root ds)
    (hsp : SectionPath comps) (hi : isDigitS i = true) (hp : dep.path = absPath (comps ++ [i]))
    (hcur : r.getValue E (absPath comps) (some (.list [])) true = .ok (.list (before ++ x :: after))) (ht : textItems before)
    (hn : ∀ y ∈ before, ¬ named M dep.data.name y) (hx : named M dep.data.name x)
    (hsc : Scalar E (.str dep.data.render) w) (hws : w ≠ .sentinel) (hsel : SelectorComment dep.selector c)
    (he : Within (ItemLine before.length old [item (yamlText w) w c]) comps ds ds') :
    r.addDependency E M dep .replace .replace = (.ok true, edited r (Doc.root ds')) := by
  have hold := within_contains t2 hsp he
  cases hds : dep.selector with
  | none =>
    rw [hds] at hsel
    obtain rfl : c = [] := hsel
    rw [C37_replace E M r dep .replace comps i hsp hi hp hds before x after hold hcur ht hn hx (Or.inl rfl)]
    refine replace_step t2 hsp hsc (within_mono he ?_)
    rintro cs cs' ⟨pre, vt, v, c0, post, h1, h2, h3, h4, _⟩
    exact ⟨pre, vt, v, c0, post, h1, h2, h3, h4⟩
  | some sel =>
    rw [hds] at hsel
    obtain ⟨body, hb1, hb2, hb3⟩ := hsel
    obtain ⟨dm, w1, w2⟩ := itemLine_two hws he hsp.ne_nil hsp.not_number
    refine C37_replace_selector E M r (edited r (Doc.root dm)) _ dep sel hds comps i hsp hi hp before x after hold hcur ht hn hx
      (replace_step t2 hsp hsc w1) ?_
    rw [hb1]
    exact entry_selector r hsp.components hsp.not_number hb2 hb3 w2

/-- C102: a dependency for a package that the section has changes the line of the first entry for it: the new text, and the selector of
the dependency instead of what stood behind the old one. -/
theorem C102_replace_partial (E : Env) (M : Str → Option Str) (vars : List (Str × PyVal)) (ds ds' : List Doc) (r : Recipe) (dep : Dep)
    (comps : List Str) (i old : Str) (w x : PyVal) (c : Str) (before after : List PyVal)
    (hv : Writable E vars) (h : Document E ds) (hr : Recipe.ofString E (recipeText vars ds) = .ok r) (hs : r.schema = .v1 → vars = [])
    (hsp : SectionPath comps) (hi : isDigitS i = true) (hp : dep.path = absPath (comps ++ [i]))
    (hcur : r.getValue E (absPath comps) (some (.list [])) true = .ok (.list (before ++ x :: after))) (ht : textItems before)
    (hn : ∀ y ∈ before, ¬ named M dep.data.name y) (hx : named M dep.data.name x)
    (hsc : Scalar E (.str dep.data.render) w) (hws : w ≠ .sentinel) (hsel : SelectorComment dep.selector c)
    (he : Within (ItemLine before.length old [item (yamlText w) w c]) comps ds ds') (ho : OkL E ds') :
    ∃ r', r.addDependency E M dep .replace .replace = (.ok true, r') ∧
      LinesSaved vars ds' (OneLineDiffers old (withComment (§"- " ++ yamlText w) c)) r r' ∧
      (Document E ds' → SameFormat ds ds' → ReadBackSel E r') := by
  obtain ⟨_, t2, _⟩ := C31_text_is_kept_partial E vars ds r hv h hr hs
  refine ⟨edited r (Doc.root ds'), depReplace_tree E M ds ds' r dep comps i old w x c before after t2 hsp hi hp hcur ht hn hx hsc hws hsel he, exact_saved hv h hr hs ho (itemLine_file he)⟩

theorem depReplaceKeeps_tree (E : Env) (M : Str → Option Str) (ds ds' : List Doc) (r : Recipe)
    (dep : Dep) (selMode : SelMode) (comps : List Str) (i old : Str) (w x : PyVal) (body : Str) (before after : List PyVal)
    (t2 : r.root = Doc.root ds)
    (hsp : SectionPath comps) (hi : isDigitS i = true) (hp : dep.path = absPath (comps ++ [i]))
    (hcur : r.getValue E (absPath comps) (some (.list [])) true = .ok (.list (before ++ x :: after))) (ht : textItems before)
    (hn : ∀ y ∈ before, ¬ named M dep.data.name y) (hx : named M dep.data.name x)
    (hsc : Scalar E (.str dep.data.render) w) (hws : w ≠ .sentinel) (hm : selMode ≠ .replace) (hsel : dep.selector = none)
    (hb : '\n' ∉ body) (hkeep : r.getSelectorAtPath (absPath (comps ++ [natStr before.length])) = .ok (§"[" ++ body ++ §"]"))
    (he : Within (ItemLine before.length old [item (yamlText w) w (§"# [" ++ body ++ §"]")]) comps ds ds') :
    r.addDependency E M dep .replace selMode = (.ok true, edited r (Doc.root ds')) := by
  have hold := within_contains t2 hsp he
  obtain ⟨dm, w1, w2⟩ := itemLine_two hws he hsp.ne_nil hsp.not_number
  exact C37_selector_preserved E M r (edited r (Doc.root dm)) _ dep selMode hm hsel comps i hsp hi hp before x after hold hcur ht hn hx
    (§"[" ++ body ++ §"]") hkeep (replace_step t2 hsp hsc w1) (entry_selector r hsp.components hsp.not_number hb rfl w2)

/-- C102: in the AND and OR selector modes the selector of the old line stays behind the new text (other text there is lost). -/
theorem C102_replace_keeps_selector_partial (E : Env) (M : Str → Option Str) (vars : List (Str × PyVal)) (ds ds' : List Doc) (r : Recipe)
    (dep : Dep) (selMode : SelMode) (comps : List Str) (i old : Str) (w x : PyVal) (body : Str) (before after : List PyVal)
    (hv : Writable E vars) (h : Document E ds) (hr : Recipe.ofString E (recipeText vars ds) = .ok r) (hs : r.schema = .v1 → vars = [])
    (hsp : SectionPath comps) (hi : isDigitS i = true) (hp : dep.path = absPath (comps ++ [i]))
    (hcur : r.getValue E (absPath comps) (some (.list [])) true = .ok (.list (before ++ x :: after))) (ht : textItems before)
    (hn : ∀ y ∈ before, ¬ named M dep.data.name y) (hx : named M dep.data.name x)
    (hsc : Scalar E (.str dep.data.render) w) (hws : w ≠ .sentinel) (hm : selMode ≠ .replace) (hsel : dep.selector = none)
    (hb : '\n' ∉ body) (hkeep : r.getSelectorAtPath (absPath (comps ++ [natStr before.length])) = .ok (§"[" ++ body ++ §"]"))
    (he : Within (ItemLine before.length old [item (yamlText w) w (§"# [" ++ body ++ §"]")]) comps ds ds') (ho : OkL E ds') :
    ∃ r', r.addDependency E M dep .replace selMode = (.ok true, r') ∧
      LinesSaved vars ds' (OneLineDiffers old (withComment (§"- " ++ yamlText w) (§"# [" ++ body ++ §"]"))) r r' ∧
      (Document E ds' → SameFormat ds ds' → ReadBackSel E r') := by
  obtain ⟨_, t2, _⟩ := C31_text_is_kept_partial E vars ds r hv h hr hs
  refine ⟨edited r (Doc.root ds'), depReplaceKeeps_tree E M ds ds' r dep selMode comps i old w x body before after t2 hsp hi hp hcur ht hn hx hsc hws hm hsel hb hkeep he, exact_saved hv h hr hs ho (itemLine_file he)⟩

theorem depExact_tree (E : Env) (M : Str → Option Str) (ds ds' : List Doc) (r : Recipe) (dep : Dep)
    (selMode : SelMode) (comps : List Str) (n : Nat) (old : Str) (w : PyVal) (c : Str) (items : List PyVal)
    (t2 : r.root = Doc.root ds)
    (hsp : SectionPath comps) (hp : dep.path = absPath (comps ++ [natStr n]))
    (hcur : r.getValue E (absPath comps) (some (.list [])) true = .ok (.list items)) (hsc : Scalar E (.str dep.data.render) w)
    (hws : w ≠ .sentinel) (hsel : SelectorComment dep.selector c)
    (hkeep : selMode = .replace ∨ r.getSelectorAtPath dep.path = .error .keyError)
    (he : Within (ItemLine n old [item (yamlText w) w c]) comps ds ds') :
    r.addDependency E M dep .exactPosition selMode = (.ok true, edited r (Doc.root ds')) := by
  have hold := within_contains t2 hsp he
  cases hds : dep.selector with
  | none =>
    rw [hds] at hsel
    obtain rfl : c = [] := hsel
    rw [C37_exact E M r dep selMode comps (natStr n) hsp (isDigitS_natStr n) hp hds items hold hcur hkeep, hp]
    refine replace_step t2 hsp hsc (within_mono he ?_)
    rintro cs cs' ⟨pre, vt, v, c0, post, h1, h2, h3, h4, _⟩
    exact ⟨pre, vt, v, c0, post, h1, h2, h3, h4⟩
  | some sel =>
    rw [hds] at hsel
    obtain ⟨body, hb1, hb2, hb3⟩ := hsel
    obtain ⟨dm, w1, w2⟩ := itemLine_two hws he hsp.ne_nil hsp.not_number
    refine C37_exact_selector E M r (edited r (Doc.root dm)) _ dep selMode sel hds comps n hsp hp items hold hcur hkeep
      (by rw [hp]; exact replace_step t2 hsp hsc w1) ?_
    rw [hb1, hp]
    exact entry_selector r hsp.components hsp.not_number hb2 hb3 w2

/-- C102: `EXACT_POSITION` changes the line at the path of the dependency: the new text and its selector, if no selector is to be
kept there. -/
theorem C102_exact_partial (E : Env) (M : Str → Option Str) (vars : List (Str × PyVal)) (ds ds' : List Doc) (r : Recipe) (dep : Dep)
    (selMode : SelMode) (comps : List Str) (n : Nat) (old : Str) (w : PyVal) (c : Str) (items : List PyVal)
    (hv : Writable E vars) (h : Document E ds) (hr : Recipe.ofString E (recipeText vars ds) = .ok r) (hs : r.schema = .v1 → vars = [])
    (hsp : SectionPath comps) (hp : dep.path = absPath (comps ++ [natStr n]))
    (hcur : r.getValue E (absPath comps) (some (.list [])) true = .ok (.list items)) (hsc : Scalar E (.str dep.data.render) w)
    (hws : w ≠ .sentinel) (hsel : SelectorComment dep.selector c)
    (hkeep : selMode = .replace ∨ r.getSelectorAtPath dep.path = .error .keyError)
    (he : Within (ItemLine n old [item (yamlText w) w c]) comps ds ds') (ho : OkL E ds') :
    ∃ r', r.addDependency E M dep .exactPosition selMode = (.ok true, r') ∧
      LinesSaved vars ds' (OneLineDiffers old (withComment (§"- " ++ yamlText w) c)) r r' ∧
      (Document E ds' → SameFormat ds ds' → ReadBackSel E r') := by
  obtain ⟨_, t2, _⟩ := C31_text_is_kept_partial E vars ds r hv h hr hs
  refine ⟨edited r (Doc.root ds'), depExact_tree E M ds ds' r dep selMode comps n old w c items t2 hsp hp hcur hsc hws hsel hkeep he, exact_saved hv h hr hs ho (itemLine_file he)⟩

theorem depReplaceJoins_tree (E : Env) (M : Str → Option Str) (ds ds' : List Doc) (r : Recipe)
    (dep : Dep) (selMode : SelMode) (comps : List Str) (i line : Str) (w x : PyVal) (old body : Str) (before after : List PyVal)
    (t2 : r.root = Doc.root ds)
    (hsp : SectionPath comps) (hi : isDigitS i = true) (hp : dep.path = absPath (comps ++ [i]))
    (hcur : r.getValue E (absPath comps) (some (.list [])) true = .ok (.list (before ++ x :: after))) (ht : textItems before)
    (hn : ∀ y ∈ before, ¬ named M dep.data.name y) (hx : named M dep.data.name x)
    (hsc : Scalar E (.str dep.data.render) w) (hws : w ≠ .sentinel) (hm : selMode ≠ .replace)
    (hsel : SelectorComment dep.selector (§"# [" ++ body ++ §"]")) (hb : '\n' ∉ old)
    (hkeep : r.getSelectorAtPath (absPath (comps ++ [natStr before.length])) = .ok (§"[" ++ old ++ §"]"))
    (he : Within (ItemLine before.length line [item (yamlText w) w (joinedComment selMode old body)]) comps ds ds') :
    r.addDependency E M dep .replace selMode = (.ok true, edited r (Doc.root ds')) := by
  have hold := within_contains t2 hsp he
  obtain ⟨dm, dn, w1, w2, w3⟩ := itemLine_three (c1 := §"# [" ++ old ++ §"]") hws he hsp.ne_nil hsp.not_number
  obtain ⟨sel, hds, hr1, hb2⟩ := selectorComment_some hsel
  refine C37_selector_joined E M r (edited r (Doc.root dm)) (edited r (Doc.root dn)) _ dep selMode hm sel hds comps i hsp hi hp
    before x after hold hcur ht hn hx (§"[" ++ old ++ §"]") hkeep (replace_step t2 hsp hsc w1)
    (entry_selector r hsp.components hsp.not_number hb rfl w2) ?_
  rw [hr1]
  exact entry_written r hsp.components hsp.not_number hb2 (entry_joined hm hb) w3

/-- C102: in the AND and OR selector modes a dependency with a selector changes the line of the first entry for its package: the new
text, and behind it the old selector joined to the new one. -/
theorem C102_replace_joins_selector_partial (E : Env) (M : Str → Option Str) (vars : List (Str × PyVal)) (ds ds' : List Doc) (r : Recipe)
    (dep : Dep) (selMode : SelMode) (comps : List Str) (i line : Str) (w x : PyVal) (old body : Str) (before after : List PyVal)
    (hv : Writable E vars) (h : Document E ds) (hr : Recipe.ofString E (recipeText vars ds) = .ok r) (hs : r.schema = .v1 → vars = [])
    (hsp : SectionPath comps) (hi : isDigitS i = true) (hp : dep.path = absPath (comps ++ [i]))
    (hcur : r.getValue E (absPath comps) (some (.list [])) true = .ok (.list (before ++ x :: after))) (ht : textItems before)
    (hn : ∀ y ∈ before, ¬ named M dep.data.name y) (hx : named M dep.data.name x)
    (hsc : Scalar E (.str dep.data.render) w) (hws : w ≠ .sentinel) (hm : selMode ≠ .replace)
    (hsel : SelectorComment dep.selector (§"# [" ++ body ++ §"]")) (hb : '\n' ∉ old)
    (hkeep : r.getSelectorAtPath (absPath (comps ++ [natStr before.length])) = .ok (§"[" ++ old ++ §"]"))
    (he : Within (ItemLine before.length line [item (yamlText w) w (joinedComment selMode old body)]) comps ds ds') (ho : OkL E ds') :
    ∃ r', r.addDependency E M dep .replace selMode = (.ok true, r') ∧
      LinesSaved vars ds' (OneLineDiffers line (withComment (§"- " ++ yamlText w) (joinedComment selMode old body))) r r' ∧
      (Document E ds' → SameFormat ds ds' → ReadBackSel E r') := by
  obtain ⟨_, t2, _⟩ := C31_text_is_kept_partial E vars ds r hv h hr hs
  refine ⟨edited r (Doc.root ds'), depReplaceJoins_tree E M ds ds' r dep selMode comps i line w x old body before after t2 hsp hi hp hcur ht hn hx hsc hws hm hsel hb hkeep he, exact_saved hv h hr hs ho (itemLine_file he)⟩

theorem depExactJoins_tree (E : Env) (M : Str → Option Str) (ds ds' : List Doc) (r : Recipe)
    (dep : Dep) (selMode : SelMode) (comps : List Str) (n : Nat) (line : Str) (w : PyVal) (old body : Str) (items : List PyVal)
    (t2 : r.root = Doc.root ds)
    (hsp : SectionPath comps) (hp : dep.path = absPath (comps ++ [natStr n]))
    (hcur : r.getValue E (absPath comps) (some (.list [])) true = .ok (.list items))
    (hsc : Scalar E (.str dep.data.render) w) (hws : w ≠ .sentinel) (hm : selMode ≠ .replace)
    (hsel : SelectorComment dep.selector (§"# [" ++ body ++ §"]")) (hb : '\n' ∉ old)
    (hkeep : r.getSelectorAtPath (absPath (comps ++ [natStr n])) = .ok (§"[" ++ old ++ §"]"))
    (he : Within (ItemLine n line [item (yamlText w) w (joinedComment selMode old body)]) comps ds ds') :
    r.addDependency E M dep .exactPosition selMode = (.ok true, edited r (Doc.root ds')) := by
  have hold := within_contains t2 hsp he
  obtain ⟨dm, dn, w1, w2, w3⟩ := itemLine_three (c1 := §"# [" ++ old ++ §"]") hws he hsp.ne_nil hsp.not_number
  obtain ⟨sel, hds, hr1, hb2⟩ := selectorComment_some hsel
  refine C37_exact_joined E M r (edited r (Doc.root dm)) (edited r (Doc.root dn)) _ dep selMode hm comps n hsp hp
    items hold hcur (§"[" ++ old ++ §"]") (by rw [hp]; exact hkeep) (by rw [hp]; exact replace_step t2 hsp hsc w1)
    (by rw [hp]; exact entry_selector r hsp.components hsp.not_number hb rfl w2) ?_
  rw [hds]
  show Recipe.addSelector _ _ _ _ = _
  rw [hr1, hp]
  exact entry_written r hsp.components hsp.not_number hb2 (entry_joined hm hb) w3

/-- C102: the same at the path of the dependency, for `EXACT_POSITION`. -/
theorem C102_exact_joins_selector_partial (E : Env) (M : Str → Option Str) (vars : List (Str × PyVal)) (ds ds' : List Doc) (r : Recipe)
    (dep : Dep) (selMode : SelMode) (comps : List Str) (n : Nat) (line : Str) (w : PyVal) (old body : Str) (items : List PyVal)
    (hv : Writable E vars) (h : Document E ds) (hr : Recipe.ofString E (recipeText vars ds) = .ok r) (hs : r.schema = .v1 → vars = [])
    (hsp : SectionPath comps) (hp : dep.path = absPath (comps ++ [natStr n]))
    (hcur : r.getValue E (absPath comps) (some (.list [])) true = .ok (.list items))
    (hsc : Scalar E (.str dep.data.render) w) (hws : w ≠ .sentinel) (hm : selMode ≠ .replace)
    (hsel : SelectorComment dep.selector (§"# [" ++ body ++ §"]")) (hb : '\n' ∉ old)
    (hkeep : r.getSelectorAtPath (absPath (comps ++ [natStr n])) = .ok (§"[" ++ old ++ §"]"))
    (he : Within (ItemLine n line [item (yamlText w) w (joinedComment selMode old body)]) comps ds ds') (ho : OkL E ds') :
    ∃ r', r.addDependency E M dep .exactPosition selMode = (.ok true, r') ∧
      LinesSaved vars ds' (OneLineDiffers line (withComment (§"- " ++ yamlText w) (joinedComment selMode old body))) r r' ∧
      (Document E ds' → SameFormat ds ds' → ReadBackSel E r') := by
  obtain ⟨_, t2, _⟩ := C31_text_is_kept_partial E vars ds r hv h hr hs
  refine ⟨edited r (Doc.root ds'), depExactJoins_tree E M ds ds' r dep selMode comps n line w old body items t2 hsp hp hcur hsc hws hm hsel hb hkeep he, exact_saved hv h hr hs ho (itemLine_file he)⟩

theorem depExactKeeps_tree (E : Env) (M : Str → Option Str) (ds ds' : List Doc) (r : Recipe)
    (dep : Dep) (selMode : SelMode) (comps : List Str) (n : Nat) (line : Str) (w : PyVal) (old : Str) (items : List PyVal)
    (t2 : r.root = Doc.root ds)
    (hsp : SectionPath comps) (hp : dep.path = absPath (comps ++ [natStr n]))
    (hcur : r.getValue E (absPath comps) (some (.list [])) true = .ok (.list items))
    (hsc : Scalar E (.str dep.data.render) w) (hws : w ≠ .sentinel) (hm : selMode ≠ .replace)
    (hsel : dep.selector = none) (hb : '\n' ∉ old)
    (hkeep : r.getSelectorAtPath (absPath (comps ++ [natStr n])) = .ok (§"[" ++ old ++ §"]"))
    (he : Within (ItemLine n line [item (yamlText w) w (§"# [" ++ old ++ §"]")]) comps ds ds') :
    r.addDependency E M dep .exactPosition selMode = (.ok true, edited r (Doc.root ds')) := by
  have hold := within_contains t2 hsp he
  obtain ⟨dm, w1, w2⟩ := itemLine_two hws he hsp.ne_nil hsp.not_number
  refine C37_exact_joined E M r (edited r (Doc.root dm)) (edited r (Doc.root ds')) _ dep selMode hm comps n hsp hp
    items hold hcur (§"[" ++ old ++ §"]") (by rw [hp]; exact hkeep) (by rw [hp]; exact replace_step t2 hsp hsc w1)
    (by rw [hp]; exact entry_selector r hsp.components hsp.not_number hb rfl w2) ?_
  rw [hsel]

/-- C102: `EXACT_POSITION` in the AND and OR modes, for a dependency without selector: that of the old line stays. -/
theorem C102_exact_keeps_selector_partial (E : Env) (M : Str → Option Str) (vars : List (Str × PyVal)) (ds ds' : List Doc) (r : Recipe)
    (dep : Dep) (selMode : SelMode) (comps : List Str) (n : Nat) (line : Str) (w : PyVal) (old : Str) (items : List PyVal)
    (hv : Writable E vars) (h : Document E ds) (hr : Recipe.ofString E (recipeText vars ds) = .ok r) (hs : r.schema = .v1 → vars = [])
    (hsp : SectionPath comps) (hp : dep.path = absPath (comps ++ [natStr n]))
    (hcur : r.getValue E (absPath comps) (some (.list [])) true = .ok (.list items))
    (hsc : Scalar E (.str dep.data.render) w) (hws : w ≠ .sentinel) (hm : selMode ≠ .replace)
    (hsel : dep.selector = none) (hb : '\n' ∉ old)
    (hkeep : r.getSelectorAtPath (absPath (comps ++ [natStr n])) = .ok (§"[" ++ old ++ §"]"))
    (he : Within (ItemLine n line [item (yamlText w) w (§"# [" ++ old ++ §"]")]) comps ds ds') (ho : OkL E ds') :
    ∃ r', r.addDependency E M dep .exactPosition selMode = (.ok true, r') ∧
      LinesSaved vars ds' (OneLineDiffers line (withComment (§"- " ++ yamlText w) (§"# [" ++ old ++ §"]"))) r r' ∧
      (Document E ds' → SameFormat ds ds' → ReadBackSel E r') := by
  obtain ⟨_, t2, _⟩ := C31_text_is_kept_partial E vars ds r hv h hr hs
  refine ⟨edited r (Doc.root ds'), depExactKeeps_tree E M ds ds' r dep selMode comps n line w old items t2 hsp hp hcur hsc hws hm hsel hb hkeep he, exact_saved hv h hr hs ho (itemLine_file he)⟩

theorem depRemove_tree (E : Env) (ds ds' : List Doc) (r : Recipe) (dep : Dep)
    (comps : List Str) (n : Nat) (old : Str)
    (t2 : r.root = Doc.root ds)
    (hsp : SectionPath comps) (hp : dep.path = absPath (comps ++ [natStr n]))
    (he : Within (ItemLine n old []) comps ds ds') :
    r.removeDependency E dep = (.ok true, edited r (Doc.root ds')) := by
  rw [C37_remove, hp]
  refine (item_exact r t2 hsp.ne_nil hsp.not_number hsp.components).2.2 (natStr n) (isDigitS_natStr n)
    (isPatch_rm (by simp [absPath])) ?_
  rw [natOfStr_natStr]
  refine within_mono he ?_
  rintro cs cs' ⟨pre, vt, v, c0, post, h1, h2, h3, h4, _⟩
  exact ⟨pre, vt, v, c0, post, h1, h2, h3, h4⟩

/-- C102: `remove_dependency` takes the line at the path of the dependency out of the file. -/
theorem C102_remove_partial (E : Env) (vars : List (Str × PyVal)) (ds ds' : List Doc) (r : Recipe) (dep : Dep)
    (comps : List Str) (n : Nat) (old : Str)
    (hv : Writable E vars) (h : Document E ds) (hr : Recipe.ofString E (recipeText vars ds) = .ok r) (hs : r.schema = .v1 → vars = [])
    (hsp : SectionPath comps) (hp : dep.path = absPath (comps ++ [natStr n]))
    (he : Within (ItemLine n old []) comps ds ds') (ho : OkL E ds') :
    ∃ r', r.removeDependency E dep = (.ok true, r') ∧ LinesSaved vars ds' (LineGone old) r r' ∧
      (Document E ds' → SameFormat ds ds' → ReadBackSel E r') := by
  obtain ⟨_, t2, _⟩ := C31_text_is_kept_partial E vars ds r hv h hr hs
  have hgone := entryAdd_file (vars := vars) (within_insert (b := old) (within_flip he) (by
    rintro cs cs' ⟨pre, vt, v, c0, post, rfl, rfl, _, _, rfl⟩ level
    refine ⟨linesL level pre, ind level, linesL level post, by simp [linesL_append], ?_, ind_space level⟩
    rw [linesL_mid, item_lines]; simp) hsp.ne_nil hsp.not_number)
  refine ⟨edited r (Doc.root ds'), depRemove_tree E ds ds' r dep comps n old t2 hsp hp he, exact_saved (P := LineGone old) hv h hr hs ho hgone⟩

theorem sectionPath_parts {init : List Str} {s : Str} (hsp : SectionPath (init ++ [s])) :
    init ≠ [] ∧ endsInNumber init = false ∧ s ≠ §"-" := by
  obtain ⟨s', h1, _, h | ⟨o, _, h⟩⟩ := hsp
  · obtain ⟨rfl, rfl⟩ : init = [§"requirements"] ∧ s = s' := by
      simpa using List.append_inj' (s₁ := init) (s₂ := [§"requirements"]) (t₁ := [s]) (t₂ := [s']) h rfl
    exact ⟨by simp, by decide, by rintro rfl; revert h1; decide⟩
  · obtain ⟨rfl, rfl⟩ : init = [§"outputs", o, §"requirements"] ∧ s = s' := by
      simpa using List.append_inj' (s₁ := init) (s₂ := [§"outputs", o, §"requirements"]) (t₁ := [s]) (t₂ := [s']) h rfl
    exact ⟨by simp, (by decide : endsInNumber [§"requirements"] = false), by rintro rfl; revert h1; decide⟩

theorem depSection_tree (E : Env) (M : Str → Option Str) (ds ds' : List Doc) (r : Recipe) (dep : Dep)
    (mode : DepMode) (selMode : SelMode) (init : List Str) (s i : Str) (w : PyVal)
    (t2 : r.root = Doc.root ds)
    (hsp : SectionPath (init ++ [s])) (hi : isDigitS i = true) (hp : dep.path = absPath (init ++ [s] ++ [i]))
    (hsel : dep.selector = none) (hx : mode ≠ .exactPosition)
    (hnew : Collection E (.dict [(s, .list [.str dep.data.render])]) [block s [] [item (yamlText w) w []]])
    (he : Within (EndsFresh s (block s [] [item (yamlText w) w []])) init ds ds') :
    r.addDependency E M dep mode selMode = (.ok true, edited r (Doc.root ds')) := by
  have hdig : isDigitS s = false := by
    have := hsp.not_number
    simpa [endsInNumber] using this
  obtain ⟨hne, hnum, hdash⟩ := sectionPath_parts hsp
  have hpatch : r.patch E (mkPatch §"add" (absPath (init ++ [s])) [(§"value", .list [.str dep.data.render])]) =
      (.ok true, edited r (Doc.root ds')) := by
    refine cleanEdit_patch (.addKey init s _ _ hsp.components hdig hdash (isPatch_mk _ _ _ (Or.inl rfl) (by simp [absPath]) (by simp))
      (by simp [field, mkPatch, lookupD]) hnew (within_nonempty he hne) (within_mono he fun _ _ h => ⟨h, fun hn => ?_⟩)) r t2
    rw [hnum] at hn
    cases hn
  obtain ⟨pos, m, cs, cs', l1, l2, l3, l4, _⟩ := within_exact he r.root (by rw [t2]; rfl)
  have hloc : locate r.root (init ++ [s]) = none := by
    have hnone : childIdx m s = none := by
      simp only [childIdx, hdig, Bool.false_eq_true, if_false]
      rw [List.findIdx?_eq_none_iff, l3]
      intro n hn
      simpa using showsL_fresh (shows_nodes cs) l4.1 n hn
    rw [locate_concat, l1, Option.bind_some, l2, Option.bind_some, hnone]
    rfl
  rw [C37_new_section_partial E M r dep mode selMode (init ++ [s]) i hsp hi hp hsel hx
    (by rw [contains_locate r _ hsp.components hsp.ne_nil, hloc]; rfl)
    (by rw [List.dropLast_concat, contains_locate r _ (fun c hc => hsp.components c (by simp [hc])) hne, l1]; rfl)]
  exact hpatch

/-- C102: a dependency for a section that is not there becomes a section with one line, at the end of `requirements`. -/
theorem C102_new_section_partial (E : Env) (M : Str → Option Str) (vars : List (Str × PyVal)) (ds ds' : List Doc) (r : Recipe) (dep : Dep)
    (mode : DepMode) (selMode : SelMode) (init : List Str) (s i : Str) (w : PyVal)
    (hv : Writable E vars) (h : Document E ds) (hr : Recipe.ofString E (recipeText vars ds) = .ok r) (hs : r.schema = .v1 → vars = [])
    (hsp : SectionPath (init ++ [s])) (hi : isDigitS i = true) (hp : dep.path = absPath (init ++ [s] ++ [i]))
    (hsel : dep.selector = none) (hx : mode ≠ .exactPosition)
    (hnew : Collection E (.dict [(s, .list [.str dep.data.render])]) [block s [] [item (yamlText w) w []]])
    (he : Within (EndsFresh s (block s [] [item (yamlText w) w []])) init ds ds') (ho : OkL E ds') :
    ∃ r', r.addDependency E M dep mode selMode = (.ok true, r') ∧
      LinesSaved vars ds' (BlockDiffers [] [block s [] [item (yamlText w) w []]]) r r' ∧
      (Document E ds' → SameFormat ds ds' → ReadBackSel E r') := by
  obtain ⟨_, t2, _⟩ := C31_text_is_kept_partial E vars ds r hv h hr hs
  obtain ⟨hne, hnum, _⟩ := sectionPath_parts hsp
  have hlines := entrySwap_file vars (within_entrySwap (inner := false) (within_ends he (by simp) fun _ => hnum) hne
    (by rw [hnum]; simp))
  refine ⟨edited r (Doc.root ds'), depSection_tree E M ds ds' r dep mode selMode init s i w t2 hsp hi hp hsel hx hnew he, exact_saved hv h hr hs ho hlines⟩

/-! ## A file that meets the hypotheses -/

namespace DocDepsExample

def file (run : List Doc) : List Doc :=
  [ block §"package" [] [scalar §"name" §"p" (.str §"p") []],
    block §"requirements" [] [block §"host" [] [item §"h" (.str §"h") []], block §"run" [] run] ]

def a : Doc := item §"a >1" (.str §"a >1") §"# [osx] why"
def b : Doc := item §"b" (.str §"b") []

def vars0 : List (Str × PyVal) := []

def opened (ds : List Doc) : Recipe :=
  match Recipe.ofString Toy.env (recipeText vars0 ds) with
  | .ok o => o
  | .error _ => ⟨[], {}, .v0, [], [], false⟩

theorem document : Document Toy.env (file [a, comment §"# c", b]) := documentB_sound (by decide +kernel)
theorem writable : Writable Toy.env vars0 :=
  ⟨by decide +kernel, by decide +kernel, by decide +kernel, by decide +kernel, by decide +kernel⟩
theorem fresh (run : List Doc) : Fresh §"schema_version" (file run) := by simp [Fresh, file, node]

theorem at_run {R : List Doc → List Doc → Prop} {cs cs' : List Doc} (h : R cs cs') (h1 : cs ≠ []) (h2 : cs' ≠ []) :
    Within R [§"requirements", §"run"] (file cs) (file cs') := by
  have e : ∀ cs, cs ≠ [] → file cs = [block §"package" [] [scalar §"name" §"p" (.str §"p") []]] ++
      sec §"requirements" [] ([block §"host" [] [item §"h" (.str §"h") []]] ++ sec §"run" [] cs :: []) :: [] := by
    intro cs hcs; simp [file, sec, hcs]
  rw [e cs h1, e cs' h2]
  exact .key (by decide) (by simp [Fresh, node]) (.key (by decide) (by simp [Fresh, node]) (.here h))

theorem section_run : SectionPath [§"requirements", §"run"] := ⟨§"run", by decide, by decide, Or.inl rfl⟩

/-- The text of a dependency is read back as that text. -/
theorem scalar_text (t : Str) (h : t ∈ [§"c 3", §"a >2"]) : Scalar Toy.env (.str t) (.str t) := by
  simp only [List.mem_cons, List.not_mem_nil, or_false] at h
  rcases h with rfl | rfl <;>
  exact ⟨rfl, by rintro s ⟨⟩; decide, ⟨by decide +kernel, by decide +kernel, by decide +kernel, by decide +kernel, by decide +kernel,
    by decide +kernel, by decide +kernel⟩, rfl, by decide⟩

/-- `c 3` with the selector `[win]` is put at the end. -/
def newDep : Dep := exDep §"/requirements/run/0" §"c 3" (some (SelectorParser.mk' §"[win]" false))

example : SelectorComment newDep.selector §"# [win]" := ⟨§"win", by decide +kernel, by decide, rfl⟩
example : (opened (file [a, comment §"# c", b])).getValue Toy.env §"/requirements/run" (some (.list [])) true =
    .ok (.list [.str §"a >1", .str §"b"]) := by decide +kernel
example : textItems [.str §"a >1", .str §"b"] := by intro x hx; simp only [List.mem_cons, List.not_mem_nil, or_false] at hx; rcases hx with rfl | rfl <;> exact Or.inr ⟨_, rfl⟩
example : ¬ named exMatch §"c" (.str §"a >1") ∧ ¬ named exMatch §"c" (.str §"b") := by
  constructor <;> (rintro ⟨t, ht, _, h⟩; injection ht with ht; subst ht; revert h; decide)
example : Within (EndsAt 2 (item §"c 3" (.str §"c 3") §"# [win]")) [§"requirements", §"run"] (file [a, comment §"# c", b])
    (file [a, comment §"# c", b, item §"c 3" (.str §"c 3") §"# [win]"]) := at_run ⟨by decide +kernel, rfl⟩ (by simp) (by simp)
example : ∀ dm, Within (EndsAt 2 (item §"c 3" (.str §"c 3") [])) [§"requirements", §"run"] (file [a, comment §"# c", b]) dm →
    ListLength Toy.env [§"requirements", §"run"] dm 3 := by
  intro dm h
  have := within_functional h (at_run (cs' := [a, comment §"# c", b, item §"c 3" (.str §"c 3") []]) ⟨by decide +kernel, rfl⟩ (by simp) (by simp))
    (by rintro cs x y ⟨_, rfl⟩ ⟨_, rfl⟩; rfl)
  subst this
  intro r hr
  refine ⟨[.str §"a >1", .str §"b", .str §"c 3"], ?_, rfl⟩
  unfold Recipe.getValue
  rw [hr, if_neg (by decide)]
  decide +kernel

/-- `a >2` replaces `a >1`. -/
example : named exMatch §"a" (.str §"a >1") := ⟨§"a >1", rfl, by decide, by decide⟩
example : Within (ItemLine 0 §"- a >1  # [osx] why" [item §"a >2" (.str §"a >2") []]) [§"requirements", §"run"]
    (file [a, comment §"# c", b]) (file [item §"a >2" (.str §"a >2") [], comment §"# c", b]) :=
  at_run ⟨[], _, _, _, _, rfl, rfl, by decide, by decide, by decide +kernel⟩ (by simp) (by simp)
example : (opened (file [a, comment §"# c", b])).getSelectorAtPath §"/requirements/run/0" = .ok §"[osx]" := by decide +kernel

/-- `a >2` with the selector `[win]` replaces `a >1`, and the selector of the line stays. -/
def joinDep : Dep := exDep §"/requirements/run/0" §"a >2" (some (SelectorParser.mk' §"[win]" false))

example : SelectorComment joinDep.selector §"# [win]" := ⟨§"win", by decide +kernel, by decide, rfl⟩
example : joinedComment .and §"osx" §"win" = §"# [osx and win]" ∧ joinedComment .or §"osx" §"win" = §"# [osx or win]" := by decide
example : Within (ItemLine 0 §"- a >1  # [osx] why" [item §"a >2" (.str §"a >2") §"# [osx or win]"]) [§"requirements", §"run"]
    (file [a, comment §"# c", b]) (file [item §"a >2" (.str §"a >2") §"# [osx or win]", comment §"# c", b]) :=
  at_run ⟨[], _, _, _, _, rfl, rfl, by decide, by decide, by decide +kernel⟩ (by simp) (by simp)
example : Document Toy.env (file [item §"a >2" (.str §"a >2") §"# [osx or win]", comment §"# c", b]) := documentB_sound (by decide +kernel)

/-- A `build` section with `c 3`. -/
example : SectionPath ([§"requirements"] ++ [§"build"]) := ⟨§"build", by decide, by decide, Or.inl rfl⟩
example : Collection Toy.env (.dict [(§"build", .list [.str §"c 3"])]) [block §"build" [] [item §"c 3" (.str §"c 3") []]] :=
  ⟨Or.inr ⟨_, rfl⟩, okLB_sound _ _ (by decide +kernel), by simp, by decide, by decide +kernel, by simp [Fresh, node]⟩
example : Within (EndsFresh §"build" (block §"build" [] [item §"c 3" (.str §"c 3") []])) [§"requirements"] (file [b])
    ((file [b]).take 1 ++ [block §"requirements" [] [block §"host" [] [item §"h" (.str §"h") []], block §"run" [] [b],
      block §"build" [] [item §"c 3" (.str §"c 3") []]]]) :=
  .key (pre := (file [b]).take 1) (post := []) (c := [])
    (cs := [block §"host" [] [item §"h" (.str §"h") []], block §"run" [] [b]])
    (cs' := [block §"host" [] [item §"h" (.str §"h") []], block §"run" [] [b], block §"build" [] [item §"c 3" (.str §"c 3") []]])
    (by decide) (by simp [Fresh, file, node]) (.here ⟨by simp [Fresh, node], rfl⟩)

/-- `b` goes. -/
example : Within (ItemLine 1 §"- b" []) [§"requirements", §"run"] (file [a, comment §"# c", b]) (file [a, comment §"# c"]) :=
  at_run ⟨[a, comment §"# c"], _, _, _, [], rfl, rfl, by decide, by decide +kernel, by decide +kernel⟩ (by simp) (by simp)
example : Document Toy.env (file [a, comment §"# c"]) := documentB_sound (by decide +kernel)

end DocDepsExample

/-! ## Where the full statement fails -/

/-- The text behind an entry is lost when the entry is replaced, also in the modes that keep its selector. -/
theorem C102_comment_lost_violation :
    let r := Toy.recipe "requirements:\n  run:\n    - a >1  # [osx] why\n    - b\n"
    ((r.addDependency Toy.env exMatch (exDep §"/requirements/run/0" §"a >2")).2.render =
      §"requirements:\n  run:\n    - a >2\n    - b\n") ∧
    ((r.addDependency Toy.env exMatch (exDep §"/requirements/run/0" §"a >2") .replace .and).2.render =
      §"requirements:\n  run:\n    - a >2  # [osx]\n    - b\n") :=
  ⟨by decide +kernel, by decide +kernel⟩

end Crm
