import Verif.Spec.Session
import Verif.Lemmas.Transfer
import Verif.Props.DocDeps
import Verif.Props.PlainValue

/-! # A session of edits and the file that is saved (C103) -/

namespace Crm
open Spec Doc

theorem varSet_insert {k : Str} {v : PyVal} {vars vars' : List (Str × PyVal)} (h : VarSet k v vars vars') : insertD k v vars = vars' := by
  have key : ∀ (pre rest : List (Str × PyVal)), (∀ e ∈ pre, e.1 ≠ k) → insertD k v (pre ++ rest) = pre ++ insertD k v rest := by
    intro pre rest hp
    induction pre with
    | nil => rfl
    | cons e pre ih =>
      obtain ⟨l, w⟩ := e
      have : l ≠ k := hp (l, w) (by simp)
      simp only [List.cons_append, insertD, this, if_false]
      rw [ih fun e he => hp e (by simp [he])]
  cases h with
  | change pre old post hp => rw [key pre _ hp]; simp [insertD]
  | new _ hp =>
    have := key vars [] hp
    simpa [insertD] using this

theorem varGone_erase {k : Str} {vars vars' : List (Str × PyVal)} (h : VarGone k vars vars') :
    (if (lookupD k vars).isNone then vars else eraseD k vars) = vars' := by
  have key : ∀ (pre rest : List (Str × PyVal)), (∀ e ∈ pre, e.1 ≠ k) →
      lookupD k (pre ++ rest) = lookupD k rest ∧ eraseD k (pre ++ rest) = pre ++ eraseD k rest := by
    intro pre rest hp
    induction pre with
    | nil => exact ⟨rfl, rfl⟩
    | cons e pre ih =>
      obtain ⟨l, w⟩ := e
      have : l ≠ k := hp (l, w) (by simp)
      obtain ⟨i1, i2⟩ := ih fun e he => hp e (by simp [he])
      simp only [List.cons_append, lookupD, eraseD, this, if_false, i1, i2, and_self]
  cases h with
  | gone pre old post hp =>
    obtain ⟨k1, k2⟩ := key pre ((k, old) :: post) hp
    rw [k1, k2]
    simp [lookupD, eraseD]
  | absent _ hp =>
    obtain ⟨k1, _⟩ := key vars [] hp
    rw [List.append_nil] at k1
    rw [k1]
    simp [lookupD]

/-- The recipe holds what the file holds. -/
structure Holds (r₀ : Recipe) (vars : List (Str × PyVal)) (ds : List Doc) (r : Recipe) : Prop where
  root : r.root = Doc.root ds
  schema : r.schema = r₀.schema
  old : r.schema = .v0 → r.vars = vars
  new : r.schema = .v1 → r.vars = r₀.vars
  index : indexAgrees r

theorem depEdit_tree {E : Env} {v : Schema} {M : Str → Option Str} {vars : List (Str × PyVal)} {dep : Dep} {mode : DepMode} {selMode : SelMode}
    {ds ds' : List Doc} (h : DepEdit E v M vars dep mode selMode ds ds') (r : Recipe) (t2 : r.root = Doc.root ds)
    (hc : r.schema = v) (hv : v = .v0 → r.vars = vars) :
    (r.addDependency E M dep mode selMode).2 = edited r (Doc.root ds') ∨ ds' = ds ∧ (r.addDependency E M dep mode selMode).2 = r := by
  cases h with
  | append _ _ comps i n w c items h1 h2 h3 h4 h5 h6 h7 h8 h9 h10 h11 =>
    exact Or.inl (by rw [depAppend_tree E M ds ds' r dep mode selMode comps i n w c items t2 h1 h2 h3 (h4 r t2 hc hv) h5 h6 h7 h8 h9 h10 h11])
  | replace comps i old w x c before after h1 h2 h3 h4 h5 h6 h7 h8 h9 h10 h11 =>
    exact Or.inl (by rw [depReplace_tree E M ds ds' r dep comps i old w x c before after t2 h1 h2 h3 (h4 r t2 hc hv) h5 h6 h7 h8 h9 h10 h11])
  | replaceKeeps _ comps i old w x body before after h1 h2 h3 h4 h5 h6 h7 h8 h9 h10 h11 h12 h13 h14 =>
    exact Or.inl (by rw [depReplaceKeeps_tree E M ds ds' r dep selMode comps i old w x body before after t2 h1 h2 h3 (h4 r t2 hc hv)
      h5 h6 h7 h8 h9 h10 h11 h12 (h13 r t2) h14])
  | replaceJoins _ comps i line w x old body before after h1 h2 h3 h4 h5 h6 h7 h8 h9 h10 h11 h12 h13 h14 =>
    exact Or.inl (by rw [depReplaceJoins_tree E M ds ds' r dep selMode comps i line w x old body before after t2 h1 h2 h3 (h4 r t2 hc hv)
      h5 h6 h7 h8 h9 h10 h11 h12 (h13 r t2) h14])
  | exact _ comps n old w c items h1 h2 h3 h4 h5 h6 h7 h8 =>
    exact Or.inl (by rw [depExact_tree E M ds ds' r dep selMode comps n old w c items t2 h1 h2 (h3 r t2 hc hv) h4 h5 h6
      (h7.imp id fun h => h r t2) h8])
  | exactKeeps _ comps n line w old items h1 h2 h3 h4 h5 h6 h7 h8 h9 h10 =>
    exact Or.inl (by rw [depExactKeeps_tree E M ds ds' r dep selMode comps n line w old items t2 h1 h2 (h3 r t2 hc hv) h4 h5 h6 h7 h8
      (by rw [← h2]; exact h9 r t2) h10])
  | exactJoins _ comps n line w old body items h1 h2 h3 h4 h5 h6 h7 h8 h9 h10 =>
    exact Or.inl (by rw [depExactJoins_tree E M ds ds' r dep selMode comps n line w old body items t2 h1 h2 (h3 r t2 hc hv) h4 h5 h6 h7 h8
      (by rw [← h2]; exact h9 r t2) h10])
  | newSection _ _ init s i w h1 h2 h3 h4 h5 h6 h7 =>
    exact Or.inl (by rw [depSection_tree E M ds ds' r dep mode selMode init s i w t2 h1 h2 h3 h4 h5 h6 h7])
  | ignore _ comps i items h1 h2 h3 h4 h5 h6 h7 =>
    obtain ⟨_, h7⟩ := h7
    exact Or.inr ⟨rfl, by rw [C37_ignore E M r dep selMode comps i h1 h2 h3 items (within_contains t2 h1 h7) (h4 r t2 hc hv) h5 h6]⟩

theorem test_keeps (E : Env) (r : Recipe) (p : PyVal) (h : field p §"op" = some (.str §"test")) : (r.patch E p).2 = r := by
  by_cases hr : RfcPatch p
  · obtain ⟨s, hs, hpath⟩ := hr.path
    obtain ⟨v, hv⟩ := Option.isSome_iff_exists.1 (hr.value §"test" (by simp) h)
    exact (C07_test E r p s v ⟨hr, h, hpath⟩ hv).1
  · rw [C15_no_effect E r p hr]

theorem cleanEdits_all {E : Env} {d : List (Str × PyVal)} {r₀ : Recipe} {vars : List (Str × PyVal)} : ∀ (paths : List Str) {ds ds' : List Doc},
    CleanEdits E (paths.map fun path => .dict (insertD §"path" (.str path) d)) ds ds' → ∀ r, Holds r₀ vars ds r →
      ∃ r', PatchedAll E d paths r r' ∧ Holds r₀ vars ds' r' := by
  intro paths
  induction paths with
  | nil => intro ds ds' h r hr; cases h; exact ⟨r, .nil r, hr⟩
  | cons path rest ih =>
    intro ds ds' h r hr
    cases h with
    | cons h1 h2 =>
      rename_i dm
      obtain ⟨a1, a2, a3, a4, _⟩ := hr
      obtain ⟨r', b1, b2⟩ := ih h2 (edited r (Doc.root dm)) ⟨rfl, a2, a3, a4, rfl⟩
      exact ⟨r', .cons _ _ _ _ _ (cleanEdit_patch h1 r a1) b1, b2⟩

theorem holds_step {E : Env} {c : Call} {vars vars' : List (Str × PyVal)} {ds ds' : List Doc} {r₀ r : Recipe}
    (h : FileStep E r₀.schema c vars ds vars' ds') (hr : Holds r₀ vars ds r) (hv : r₀.schema = .v1 → changesVariables c = false)
    : Holds r₀ vars' ds' (perform E r c) ∧ (changesVariables c = false → vars' = vars) := by
  have hr0 := hr
  obtain ⟨a1, a2, a3, a4, a5⟩ := hr
  have fin : ∀ r', r'.root = Doc.root ds' → r'.schema = r.schema → r'.vars = r.vars → indexAgrees r' → Holds r₀ vars ds' r' :=
    fun r' b1 b2 b3 b4 => ⟨b1, by rw [b2, a2], by rw [b2, b3]; exact a3, by rw [b2, b3]; exact a4, b4⟩
  cases h with
  | patch p he =>
    have := cleanEdit_patch he r a1
    simp only [perform, this]
    exact ⟨fin _ rfl rfl rfl rfl, by simp⟩
  | transfer p he =>
    simp only [perform, transfer_patch he r a1]
    exact ⟨fin _ rfl rfl rfl rfl, by simp⟩
  | refused p hm hn =>
    simp only [perform, C08_rejected_unchanged_partial E r p hm (hn r a1)]
    exact ⟨hr0, by simp⟩
  | test p ht =>
    simp only [perform, test_keeps E r p ht]
    exact ⟨hr0, by simp⟩
  | searchAndPatch re p ic paths hf he =>
    obtain ⟨r', b1, b2⟩ := cleanEdits_all paths he r hr0
    rw [← hf r a1, ← C18_true_iff_partial] at b1
    simp only [perform, b1]
    exact ⟨b2, by simp⟩
  | addDependency M dep mode selMode he =>
    simp only [perform]
    rcases depEdit_tree he r a1 a2 fun h => a3 (a2.trans h) with h | ⟨rfl, h⟩
    · rw [h]; exact ⟨fin _ rfl rfl rfl rfl, by simp⟩
    · rw [h]; exact ⟨hr0, by simp⟩
  | removeDependency dep comps n old h1 h2 h3 =>
    simp only [perform, depRemove_tree E ds ds' r dep comps n old a1 h1 h2 h3]
    exact ⟨fin _ rfl rfl rfl rfl, by simp⟩
  | setVariable k v hset =>
    refine ⟨⟨a1, a2, ?_, ?_, a5⟩, by simp [changesVariables]⟩
    · intro hs
      show insertD k v r.vars = vars'
      rw [a3 hs, varSet_insert hset]
    · intro hs
      have := hv (by rw [← a2]; exact hs)
      cases this
  | delVariable k hg =>
    have hroot : (r.delVariable k).root = r.root ∧ (r.delVariable k).schema = r.schema ∧ indexAgrees (r.delVariable k) := by
      unfold Recipe.delVariable
      split
      · exact ⟨rfl, rfl, a5⟩
      · exact ⟨rfl, rfl, a5⟩
    obtain ⟨b1, b2, b3⟩ := hroot
    refine ⟨⟨b1.trans a1, b2.trans a2, ?_, ?_, b3⟩, by simp [changesVariables]⟩
    · intro hs
      have := varGone_erase hg
      rw [← a3 (b2 ▸ hs)] at this
      rw [← this]
      show (r.delVariable k).vars = _
      unfold Recipe.delVariable
      split <;> rfl
    · intro hs
      have := hv (by rw [← a2, ← b2]; exact hs)
      cases this
  | addSelector path base c c' body mode hb hw he =>
    obtain ⟨st, pos, g1, g2, g3⟩ := addSelector_tree a1 hb hw (inside_edit he)
    simp only [perform, g3]
    exact ⟨fin _ (edit_exact a1 he g1 g2) rfl rfl rfl, by simp⟩
  | removeSelector path base c c' body hb hw he =>
    obtain ⟨st, pos, g1, g2, g3⟩ := removeSelector_tree a1 hb hw (inside_edit he)
    simp only [perform, g3]
    exact ⟨fin _ (edit_exact a1 he g1 g2) rfl rfl rfl, by simp⟩
  | addComment path base c c' text hn h1 h2 h3 h4 hw he =>
    obtain ⟨st, pos, g1, g2, g3⟩ := addComment_tree a1 hn h1 h2 h3 h4 hw (inside_edit he)
    have ha := addComment_agrees r path text a5 h1 h2 h3 fun n hn' => by
      obtain ⟨l1, l2⟩ := edit_line a1 (inside_edit he) n hn'
      exact ⟨by rw [l1]; exact hn, l2⟩
    rw [g3] at ha
    simp only [perform, g3]
    exact ⟨fin _ (edit_exact a1 he g1 g2) rfl rfl ha, by simp⟩

theorem holds_session {E : Env} {calls : List Call} {vars vars' : List (Str × PyVal)} {ds ds' : List Doc} {r₀ : Recipe}
    (h : FileSession E r₀.schema calls vars ds vars' ds') : ∀ {r : Recipe}, Holds r₀ vars ds r →
      (r₀.schema = .v1 → ∀ c ∈ calls, changesVariables c = false) →
      Holds r₀ vars' ds' (performAll E r calls) ∧ (r₀.schema = .v1 → vars' = vars) := by
  induction h with
  | nil => intro r hr _; exact ⟨hr, fun _ => rfl⟩
  | @cons c cs vars ds vars1 ds1 vars2 ds2 h1 h2 ih =>
    intro r hr hv
    obtain ⟨b1, b2⟩ := holds_step h1 hr fun hs => hv hs c (by simp)
    obtain ⟨d1, d2⟩ := ih b1 fun hs c hc => hv hs c (by simp [hc])
    exact ⟨d1, fun hs => by rw [d2 hs, b2 (hv hs c (by simp))]⟩

/-- Opening a file of the same format with other variables. -/
theorem open_session {E : Env} {vars vars' : List (Str × PyVal)} {ds ds' : List Doc} {r : Recipe} (hv : Writable E vars)
    (hv' : Writable E vars') (h : Document E ds) (h' : Document E ds') (hr : Recipe.ofString E (recipeText vars ds) = .ok r)
    (hf : SameFormat ds ds') (hs : r.schema = .v1 → vars = vars') :
    ∃ r', Recipe.ofString E (recipeText vars' ds') = .ok r' ∧ r'.root = Doc.root ds' ∧ r'.schema = r.schema ∧
      (r.schema = .v0 → r'.vars = vars') ∧ (r.schema = .v1 → r'.vars = r.vars) ∧ r'.selTbl = rebuildSelectors r'.root := by
  obtain ⟨_, r1, b1, b2, b3, b4, _, b5⟩ := open_same hv h h' hr hf
  cases hc : r.schema with
  | v1 =>
    obtain rfl := hs hc
    exact ⟨r1, b1, b2, by rw [b4, hc], (by simp), fun _ => b3, b5⟩
  | v0 =>
    obtain ⟨q1, q2⟩ := C31_recipe_text_is_read E vars' ds' hv' h'
    obtain ⟨root, sv, e1, e2, _, e3, e4, _, _, _, _⟩ := ofString_parts b1
    have : root = Doc.root ds' := by rw [← e3, b2]
    subst this
    have hsv : schemaOf sv = .v0 := by rw [← e4, b4, hc]
    unfold Recipe.ofString
    simp only [q1, q2, bind, Except.bind, e2, hsv]
    exact ⟨_, rfl, rfl, rfl, fun _ => rfl, by simp, rfl⟩

/-- C103: after any session of patches, variable, selector and comment edits on an opened file, what is saved is the text of the
edited file, and opening that text gives a recipe that answers everything as the recipe in memory does. -/
theorem C103_session_is_saved_partial (E : Env) (vars vars' : List (Str × PyVal)) (ds ds' : List Doc) (r : Recipe) (calls : List Call)
    (hv : Writable E vars) (h : Document E ds) (hr : Recipe.ofString E (recipeText vars ds) = .ok r)
    (hs : r.schema = .v1 → vars = [] ∧ ∀ c ∈ calls, changesVariables c = false)
    (he : FileSession E r.schema calls vars ds vars' ds') (ho : OkL E ds') :
    (performAll E r calls).render = recipeText vars' ds' ∧
      (Writable E vars' → Document E ds' → SameFormat ds ds' → ReadBackSel E (performAll E r calls)) := by
  obtain ⟨t1, t2, t3⟩ := C31_text_is_kept_partial E vars ds r hv h hr fun hc => (hs hc).1
  obtain ⟨⟨a1, a2, a3, a4, a5⟩, b2⟩ := holds_session (r₀ := r) he (r := r) ⟨t2, rfl, t3, fun _ => rfl, C19_initially E _ r hr⟩
    fun hc => (hs hc).2
  have htext : (performAll E r calls).render = recipeText vars' ds' := by
    rw [shows_render a1 (shows_nodes ds') ho]
    cases hc : (performAll E r calls).schema with
    | v0 => rw [if_pos rfl, a3 hc]
    | v1 =>
      rw [a2] at hc
      rw [if_neg (by decide), b2 hc, (hs hc).1]
  refine ⟨htext, ?_⟩
  intro hv' h' hf
  obtain ⟨r2, c1, c2, c3, c4, c5, c6⟩ := open_session hv hv' h h' hr hf fun hc => (b2 hc).symm
  have q1 : (performAll E r calls).root = r2.root := by rw [a1, c2]
  have q2 : (performAll E r calls).vars = r2.vars := by
    cases hc : r.schema with
    | v0 => rw [c4 hc, a3 (a2.trans hc)]
    | v1 => rw [c5 hc, a4 (a2.trans hc)]
  have q3 : (performAll E r calls).schema = r2.schema := by rw [a2, c3]
  exact ⟨r2, by rw [htext]; exact c1, same_answers q1 q2 q3 E, same_render q1 q2 q3, agrees_selectors a5 (by rw [c6, q1])⟩

/-- A section of plain texts reads as these texts, whatever the variables are. -/
theorem sectionReads_plain {E : Env} {v : Schema} {vars : List (Str × PyVal)} {comps : List Str} {ds : List Doc} {items : List PyVal}
    (hc : ∀ c ∈ comps, Component c) (hne : comps ≠ []) (hb : NoBlockText (Doc.root ds) comps)
    (h : ∀ r : Recipe, r.root = Doc.root ds → r.getValue E (absPath comps) (some (.list [])) false = .ok (.list items))
    (hs : Settled E E.recLimit (.list items)) : SectionReads E v vars comps ds items :=
  fun r hr _ _ => C73_plain_values_are_kept E r comps hc hne (by rw [hr]; exact hb) _ _ (h r hr) hs

/-! ## A session that meets the hypotheses -/

namespace SessionExample
open DocCommentExample

def vars0 : List (Str × PyVal) := [(§"name", .str §"foo"), (§"n", .int 1)]
def vars1 : List (Str × PyVal) := [(§"name", .str §"foo"), (§"n", .int 2)]

/-- The file of C101 with another version. -/
def file2 (name patch : Str) : List Doc :=
  [ block §"package" [] [scalar §"name" §"foo" (.str §"foo") name, scalar §"version" §"2" (.int 2) []],
    comment §"# where",
    block §"source" [] [
      elem (scalar §"url" §"a.tgz" (.str §"a.tgz") §"# [unix]") [
        block §"patches" [] [item §"p1" (.str §"p1") patch, comment §"# last", item §"2" (.int 2) []]]] ]

def calls : List Call :=
  [ .addSelector §"/package/name" §"[win]" .and,
    .addComment §"/source/0/patches/0" §" first ",
    .patch (mkPatch §"replace" §"/package/version" [(§"value", .int 2)]),
    .setVariable §"n" (.int 2) ]

theorem session {v : Schema} : FileSession Toy.env v calls vars0 (file [] §"# [osx] why") vars1 (file2 §"# [win]" §"# [osx] first") :=
  .cons (.addSelector §"/package/name" §"name: foo" [] §"# [win]" §"win" .and (by decide) .fresh (atName _ _ _))
    (.cons (.addComment §"/source/0/patches/0" §"- p1" §"# [osx] why" §"# [osx] first" §" first " (by decide) (by decide) (by decide)
        (by decide) (by decide) (.behind _ §"[osx]" (by decide) (by decide)) (atPatch _ _ _))
      (.cons (.patch _ (.setKey §"replace" [§"package"] §"version" (.int 2) (.int 2) (by decide) (by decide) (Or.inl rfl)
          (DocEditExample.isPatch (by decide)) rfl DocEditExample.scalar_int
          (.key (pre := []) (c := []) (post := (file §"# [win]" §"# [osx] first").drop 1)
            (cs := [scalar §"name" §"foo" (.str §"foo") §"# [win]", scalar §"version" §"1.2" (.flt §"1.2") []])
            (cs' := [scalar §"name" §"foo" (.str §"foo") §"# [win]", scalar §"version" §"2" (.int 2) []])
            (by decide) (by simp [Fresh])
            (.here ⟨⟨[scalar §"name" §"foo" (.str §"foo") §"# [win]"], _, [], rfl, rfl, rfl, rfl, by simp [Fresh, node]⟩,
              fun h => absurd h (by decide)⟩))))
        (.cons (.setVariable §"n" (.int 2) (.change [(§"name", .str §"foo")] (.int 1) [] (by decide))) .nil)))

theorem writable : Writable Toy.env vars0 ∧ Writable Toy.env vars1 :=
  ⟨⟨by decide +kernel, by decide +kernel, by decide +kernel, by decide +kernel, by decide +kernel⟩,
    ⟨by decide +kernel, by decide +kernel, by decide +kernel, by decide +kernel, by decide +kernel⟩⟩

theorem document2 : Document Toy.env (file2 §"# [win]" §"# [osx] first") := documentB_sound (by decide +kernel)

example (r : Recipe) (hr : Recipe.ofString Toy.env (recipeText vars0 (file [] §"# [osx] why")) = .ok r) (hs : r.schema = .v0) :
    (performAll Toy.env r calls).render = recipeText vars1 (file2 §"# [win]" §"# [osx] first") ∧
      ReadBackSel Toy.env (performAll Toy.env r calls) := by
  obtain ⟨h1, h2⟩ := C103_session_is_saved_partial Toy.env vars0 vars1 _ _ r calls writable.1 (document _ _ (by simp)) hr
    (by rw [hs]; decide) session document2.1
  exact ⟨h1, h2 writable.2 document2 (same_fresh (fresh _ _) (by simp [Fresh, file2, node]))⟩

/-! Dependencies in a session. -/

open DocDepsExample in
theorem reads_run {v : Schema} : SectionReads Toy.env v [] [§"requirements", §"run"] (DocDepsExample.file [a, comment §"# c", b])
    [.str §"a >1", .str §"b"] := by
  have hl : 0 < Toy.env.recLimit - 1 := by decide
  obtain ⟨n, hn⟩ : ∃ n, Toy.env.recLimit = n + 1 + 1 := ⟨Toy.env.recLimit - 2, by omega⟩
  refine sectionReads_plain (by decide) (by decide) ?_ ?_ ?_
  · have : (match lookup (Doc.root (DocDepsExample.file [a, comment §"# c", b])) [§"requirements", §"run"] with
        | none => true | some n => n.children.all (·.multiline = .no)) = true := by decide +kernel
    intro n hn c hc
    rw [hn] at this
    exact of_decide_eq_true (List.all_eq_true.1 this c hc)
  · intro r hr
    unfold Recipe.getValue
    rw [hr, if_neg (by decide)]
    decide +kernel
  · rw [hn]
    refine .list fun v hv => ?_
    simp only [List.mem_cons, List.not_mem_nil, or_false] at hv
    rcases hv with rfl | rfl
    · exact .text (by decide) ⟨by decide, by decide, by decide⟩ (by decide +kernel)
    · exact .text (by decide) ⟨by decide, by decide, by decide⟩ (by decide +kernel)

/-- `c 3  # [win]` is added, a test fails, a removal is refused, `b` is removed. -/
def depCalls : List Call :=
  [ .addDependency exMatch DocDepsExample.newDep .replace .replace,
    .patch (mkPatch §"test" §"/package/name" [(§"value", .str §"q")]),
    .patch (mkPatch §"remove" §"/zz"),
    .removeDependency (exDep §"/requirements/run/1" §"b") ]

open DocDepsExample in
theorem depSession {v : Schema} : FileSession Toy.env v depCalls [] (DocDepsExample.file [a, comment §"# c", b]) []
    (DocDepsExample.file [a, comment §"# c", item §"c 3" (.str §"c 3") §"# [win]"]) := by
  refine .cons (ds1 := DocDepsExample.file [a, comment §"# c", b, item §"c 3" (.str §"c 3") §"# [win]"])
    (.addDependency exMatch newDep .replace .replace (.append _ _ [§"requirements", §"run"] §"0" 2 (.str §"c 3") §"# [win]" _ section_run
      (by decide) rfl reads_run (by decide) (Or.inr ⟨?_, ?_⟩) (scalar_text §"c 3" (by simp)) (by simp) ⟨§"win", by decide +kernel, by decide, rfl⟩ ?_
      (at_run ⟨by decide +kernel, rfl⟩ (by simp) (by simp)))) (.cons (.test _ rfl) (.cons (.refused _ (by decide) ?_)
      (.cons (.removeDependency _ [§"requirements", §"run"] 1 §"- b" section_run (by decide)
        (at_run ⟨[a, comment §"# c"], _, _, _, [item §"c 3" (.str §"c 3") §"# [win]"], rfl, rfl, by decide, by decide +kernel,
          by decide +kernel⟩ (by simp) (by simp))) .nil)))
  · intro x hx
    simp only [List.mem_cons, List.not_mem_nil, or_false] at hx
    rcases hx with rfl | rfl <;> exact Or.inr ⟨_, rfl⟩
  · intro x hx
    simp only [List.mem_cons, List.not_mem_nil, or_false] at hx
    rcases hx with rfl | rfl <;> (rintro ⟨t, ht, _, h⟩; injection ht with ht; subst ht; revert h; decide)
  · intro _ dm h
    have := within_functional h (at_run (cs' := [a, comment §"# c", b, item §"c 3" (.str §"c 3") []]) ⟨by decide +kernel, rfl⟩ (by simp) (by simp))
      (by rintro cs x y ⟨_, rfl⟩ ⟨_, rfl⟩; rfl)
    subst this
    intro r hr
    refine ⟨[.str §"a >1", .str §"b", .str §"c 3"], ?_, rfl⟩
    unfold Recipe.getValue
    rw [hr, if_neg (by decide)]
    decide +kernel
  · intro r hr
    have hop : (callPatchOp Toy.env r.root §"remove" §"/zz" [(§"op", .str §"remove"), (§"path", .str §"/zz")]).1 = .ok false := by
      rw [hr]
      decide +kernel
    have hr' : (r.patch Toy.env (mkPatch §"remove" §"/zz")).1
        = (callPatchOp Toy.env r.root §"remove" §"/zz" [(§"op", .str §"remove"), (§"path", .str §"/zz")]).1 := by
      unfold Recipe.patch
      rw [if_neg (by decide +kernel)]
      show (if _ then _ else _ : Outcome Bool).1 = _
      rw [if_neg (by decide +kernel)]
      show (match (callPatchOp Toy.env r.root §"remove" §"/zz" [(§"op", .str §"remove"), (§"path", .str §"/zz")]).1 with
        | .ok true => _ | res => _ : Outcome Bool).1 = _
      rw [hop]
    rw [hr', hop]
    decide

theorem no_vars : Writable Toy.env [] := ⟨by decide, by decide, by decide, by decide, by decide⟩

open DocDepsExample in
example (r : Recipe) (hr : Recipe.ofString Toy.env (recipeText [] (DocDepsExample.file [a, comment §"# c", b])) = .ok r) :
    (performAll Toy.env r depCalls).render
      = recipeText [] (DocDepsExample.file [a, comment §"# c", item §"c 3" (.str §"c 3") §"# [win]"]) ∧
    ReadBackSel Toy.env (performAll Toy.env r depCalls) := by
  have hd := documentB_sound (E := Toy.env) (ds := DocDepsExample.file [a, comment §"# c", item §"c 3" (.str §"c 3") §"# [win]"])
    (by decide +kernel)
  obtain ⟨h1, h2⟩ := C103_session_is_saved_partial Toy.env [] [] _ _ r depCalls no_vars
    (documentB_sound (by decide +kernel)) hr (fun _ => ⟨rfl, by decide⟩) depSession hd.1
  exact ⟨h1, h2 no_vars hd (same_fresh (DocDepsExample.fresh _) (DocDepsExample.fresh _))⟩

/-! The histories of C16 and C19 may contain such calls too. -/

/-- A recipe with two dependencies. -/
def depHistory : Recipe := Toy.recipe "requirements:
  run:
    - a
    - b  # [osx]
"

example : (performAll Toy.env depHistory depCalls).modified = true ∧ (performAll Toy.env depHistory depCalls).listSelectors = [§"[win]"] ∧
    (performAll Toy.env depHistory depCalls).render = §"requirements:
  run:
    - a
    - c 3  # [win]
" := ⟨by decide +kernel, by decide +kernel, by decide +kernel⟩
example : (performAll Toy.env depHistory [.removeDependency (exDep §"/requirements/run/7" §"b")]).modified = false := by decide +kernel

end SessionExample

/-! ## Where the full statement fails -/

/-- A comment behind a value that is replaced is gone from the file, but the recipe in memory still has its selector. -/
theorem C103_replaced_line_violation :
    let r := Toy.recipe "package:\n  name: p\n  version: 1.2  # [win]\n"
    let r' := (r.patch Toy.env (mkPatch §"replace" §"/package/version" [(§"value", .int 2)])).2
    r'.render = §"package:\n  name: p\n  version: 2\n" ∧ r'.listSelectors = [§"[win]"] ∧
      (match Recipe.ofString Toy.env r'.render with | .ok r'' => r''.listSelectors | .error _ => [§"?"]) = [] :=
  ⟨by decide +kernel, by decide +kernel, by decide +kernel⟩

end Crm
