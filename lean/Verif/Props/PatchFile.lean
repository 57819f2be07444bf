import Verif.Spec.PatchFile
import Verif.Props.Layout
import Verif.Props.ConvLayout
import Verif.Props.FileValue
import Verif.Props.Commands

/-!
# C113: `crm patch` from file to file
-/

namespace Crm
open Spec Spec.Doc

theorem absent_lookup {path : List Str} {ds : List Doc} {r : Recipe} (hr : r.root = Doc.root ds) (hne : path ≠ [])
    (hm : ∀ d, ¬ LeadsTo path ds d) (ht : ∀ x ∈ path, x ∉ valueTextsL ds) : lookup r.root path = none := by
  cases hl : lookup r.root path with
  | none => rfl
  | some x =>
    obtain ⟨d, h1, _⟩ := lookup_leads path ds r.root x hne (by rw [hr]; rfl) ht hl
    exact absurd h1 (hm d)

theorem absent_locate {path : List Str} {n : Node} (h : lookup n path = none) : locate n path = none := by
  cases hl : locate n path with
  | none => rfl
  | some pos =>
    rw [← locate_lookup, hl, Option.bind_some] at h
    rw [← traverse_locate, traverse_root] at hl
    obtain ⟨m, hm⟩ := traverseRec_valid hl
    rw [hm] at h
    cases h

theorem noEntry_refused {E : Env} {p : PyVal} {path : List Str} {ds : List Doc} {r : Recipe} (hr : r.root = Doc.root ds)
    (h : NoEntry p path ds) : r.patch E p = (.ok false, r) := by
  have hl := absent_lookup hr h.below h.missing h.noText
  rcases h.isPatch with hp | hp | ⟨hp, hn⟩
  · refine C07_missing E r p _ hp ?_
    rw [C04_contains_iff_lookup r path h.comps h.below, hl]
    rfl
  · rcases List.eq_nil_or_concat path with e | ⟨init, last, e⟩
    · exact absurd e h.below
    · rw [List.concat_eq_append] at e
      rw [e] at hp hl
      exact (C09_remove E r p init last (e ▸ h.comps) hp).1 (absent_locate hl)
  · obtain ⟨v, hv⟩ := Option.isSome_iff_exists.1 (hp.value §"replace" (by simp) hp.isOp)
    rcases C12_missing E r p v path h.below h.comps hp hv (absent_locate hl) with h | ⟨_, init, last, _, _, e, hd, _⟩
    · exact h
    · rw [e] at hn
      simp [endsInNumber, hd] at hn

theorem asks_answer {E : Env} {p v w : PyVal} {path : List Str} {ds : List Doc} {r : Recipe} (hr : r.root = Doc.root ds)
    (h : Asks E p path ds v w) : r.patch E p = (.ok (pyEq w v), r) := by
  obtain ⟨d, hd, hw⟩ := h.entry
  obtain ⟨h1, h2⟩ := C07_test E r p _ v h.isTest h.value
  rw [value_in_tree false none hr h.wellFormed h.comps hd hw] at h2
  exact Prod.ext h2 h1

theorem patchRun_loop {E : Env} {ps : List PyVal} {ds ds' : List Doc} {code : Nat} (h : PatchRun E ps ds ds' code) :
    ∀ r : Recipe, r.root = Doc.root ds → ∃ r', patchLoop E ps r = (.exit code, r') ∧ r'.root = Doc.root ds' ∧ r'.vars = r.vars ∧
      r'.schema = r.schema := by
  induction h with
  | done => intro r hr; exact ⟨r, rfl, hr, rfl, rfl⟩
  | made hc _ ih =>
    intro r hr
    obtain ⟨r', h1, h2, h3, h4⟩ := ih (edited r _) rfl
    exact ⟨r', by simp only [patchLoop, cleanEdit_patch hc r hr]; exact h1, h2, h3, h4⟩
  | transferred ht _ ih =>
    intro r hr
    obtain ⟨r', h1, h2, h3, h4⟩ := ih (edited r _) rfl
    exact ⟨r', by simp only [patchLoop, transfer_patch ht r hr]; exact h1, h2, h3, h4⟩
  | holds path v w ha he _ ih =>
    intro r hr
    obtain ⟨r', h1, h2, h3, h4⟩ := ih r hr
    exact ⟨r', by simp only [patchLoop, asks_answer hr ha, he]; exact h1, h2, h3, h4⟩
  | fails path v w ha he => intro r hr; exact ⟨r, by simp only [patchLoop, asks_answer hr ha, he], hr, rfl, rfl⟩
  | missing path hn => intro r hr; exact ⟨r, by simp only [patchLoop, noEntry_refused hr hn], hr, rfl, rfl⟩
  | noPatch hn => intro r hr; exact ⟨r, by simp only [patchLoop, C15_no_effect E r _ hn], hr, rfl, rfl⟩

theorem pastEnd_raises {E : Env} {p : PyVal} {init : List Str} {i : Str} {ds : List Doc} {r : Recipe} (hr : r.root = Doc.root ds)
    (h : PastEnd p init i ds) : r.patch E p = (.error .indexError, r) := by
  obtain ⟨ds', hw⟩ := h.short
  obtain ⟨pos, m, cs, _, h1, h2, h3, h4, _⟩ := within_exact hw r.root (by rw [hr]; rfl)
  have hcount : m.children.countP real ≤ natOfStr i := by rw [h3, showsL_count (shows_nodes cs)]; exact h4
  rcases h.isPatch with hp | hp
  · obtain ⟨v, hv⟩ := Option.isSome_iff_exists.1 (hp.value §"add" (by simp) hp.isOp)
    exact C11_out_of_range E r p v init i pos m h.comps hp hv h.number h1 h2 hcount
  · obtain ⟨v, hv⟩ := Option.isSome_iff_exists.1 (hp.value §"replace" (by simp) hp.isOp)
    exact C12_out_of_range E r p v init i pos m h.comps hp hv h.number h1 h2 hcount

theorem patchCrash_loop {E : Env} {ps : List PyVal} {ds : List Doc} (h : PatchCrash E ps ds) :
    ∀ r : Recipe, r.root = Doc.root ds → ∃ r', patchLoop E ps r = (.raised .indexError, r') := by
  induction h with
  | now init i hp => intro r hr; exact ⟨r, by simp only [patchLoop, pastEnd_raises hr hp]⟩
  | made hc _ ih =>
    intro r hr
    obtain ⟨r', h1⟩ := ih (edited r _) rfl
    exact ⟨r', by simp only [patchLoop, cleanEdit_patch hc r hr]; exact h1⟩
  | transferred ht _ ih =>
    intro r hr
    obtain ⟨r', h1⟩ := ih (edited r _) rfl
    exact ⟨r', by simp only [patchLoop, transfer_patch ht r hr]; exact h1⟩
  | holds path v w ha he _ ih =>
    intro r hr
    obtain ⟨r', h1⟩ := ih r hr
    exact ⟨r', by simp only [patchLoop, asks_answer hr ha, he]; exact h1⟩

/-- C113: a patch that puts something behind the end of a list is not refused with an exit code: `IndexError` escapes, and the file is
left as it is, without the patches in front of it. -/
theorem C113_past_the_end_violation (E : Env) (vars : List (Str × PyVal)) (ds : List Doc) (fs : List Str) (r : Recipe) (blob : PyVal)
    (ps : List PyVal) (ho : OkL E ds) (hf : FreeFile E vars ds fs) (hr : Recipe.ofString E (fileText fs) = .ok r)
    (hps : patchesIn blob ps) (hrun : PatchCrash E ps ds) :
    patchCommand E (.ok blob) (some (fileText fs)) = (.raised .indexError, some (fileText fs)) := by
  obtain ⟨r', h1⟩ := patchCrash_loop hrun r (free_file_opened ho hf hr).1
  simp only [patchCommand, hr, patchBlobs_eq hps, h1]

/-- C113: `crm patch` on a recipe file in any layout: the exit code, and the text of the file afterwards. -/
theorem C113_patch_file_partial (E : Env) (vars : List (Str × PyVal)) (ds ds' : List Doc) (fs : List Str) (r : Recipe) (blob : PyVal)
    (ps : List PyVal) (code : Nat) (ho : OkL E ds) (hf : FreeFile E vars ds fs) (hr : Recipe.ofString E (fileText fs) = .ok r)
    (hs : r.schema = .v1 → vars = []) (hps : patchesIn blob ps) (hrun : PatchRun E ps ds ds' code) (ho' : OkL E ds') :
    patchCommand E (.ok blob) (some (fileText fs)) = (.exit code, some (recipeText vars ds')) := by
  obtain ⟨t1, t2⟩ := free_file_opened ho hf hr
  obtain ⟨r', h1, h2, h3, h4⟩ := patchRun_loop hrun r t1
  simp only [patchCommand, hr, patchBlobs_eq hps, h1]
  rw [C31_render E r' ds' h2 ho', h3, h4]
  cases hc : r.schema with
  | v0 => rw [if_pos rfl, t2 hc]
  | v1 => rw [if_neg (by decide), hs hc]

theorem applyAll_applies {E : Env} : ∀ {ps : List PyVal} {r r' : Recipe}, applyAll E ps r = some r' → AppliesAll E r ps r'
  | [], r, r', h => by simp only [applyAll, Option.some.injEq] at h; rw [h]; exact .nil _
  | p :: ps, r, r', h => by
    simp only [applyAll] at h
    split at h
    · rename_i r₁ hp; exact .cons hp (applyAll_applies h)
    · cases h

/-- C113: patches that all describe edits of the file, among them those that take a comment away: the exit code is 0, and the file holds
the edited entries. -/
theorem C113_edits_partial (E : Env) (vars : List (Str × PyVal)) (ds ds' : List Doc) (fs : List Str) (r : Recipe) (blob : PyVal)
    (ps : List PyVal) (ho : OkL E ds) (hf : FreeFile E vars ds fs) (hr : Recipe.ofString E (fileText fs) = .ok r)
    (hs : r.schema = .v1 → vars = []) (hps : patchesIn blob ps) (he : DocEdits E ps ds ds') (ho' : OkL E ds') :
    patchCommand E (.ok blob) (some (fileText fs)) = (.exit 0, some (recipeText vars ds')) := by
  obtain ⟨t1, t2⟩ := free_file_opened ho hf hr
  obtain ⟨r', ns', g1, g2, g3, g4, g5, _⟩ := docEdits_apply he r (nodes ds) t1 (shows_nodes ds)
  refine (C49_success E _ _ _).2 ⟨blob, _, ps, r, r', rfl, rfl, hps, hr, applyAll_applies g1, ?_⟩
  rw [shows_render g2 g3 ho', g4, g5]
  cases hc : r.schema with
  | v0 => rw [if_pos rfl, t2 hc]
  | v1 => rw [if_neg (by decide), hs hc]

theorem patch_init (E : Env) (r : Recipe) (s : Str) (p : PyVal) :
    ({ r with init := s } : Recipe).patch E p = ((r.patch E p).1, { (r.patch E p).2 with init := s }) := by
  unfold Recipe.patch
  split
  · rfl
  split
  · simp only
    split
    · rfl
    · split
      · split <;> rfl
      · rfl
  · rfl

theorem patchLoop_init (E : Env) (s : Str) : ∀ (ps : List PyVal) (r : Recipe),
    patchLoop E ps { r with init := s } = ((patchLoop E ps r).1, { (patchLoop E ps r).2 with init := s })
  | [], r => rfl
  | p :: ps, r => by
    simp only [patchLoop, patch_init]
    rcases hp : r.patch E p with ⟨res, r₁⟩
    simp only
    split
    all_goals rename_i h; first | (injection h with h1 h2; subst h1 h2; simp only) | skip
    all_goals first | rfl | exact patchLoop_init E s ps r₁

/-- C113: the layout of the file has no influence, whatever the patch file is: of two files that show the same entries the command makes
the same text and ends with the same code, or it ends in the same way and leaves both as they are. -/
theorem C113_layout_does_not_matter_partial (E : Env) (vars : List (Str × PyVal)) (ds : List Doc) (fs gs : List Str)
    (json : Except PyErr PyVal) (ho : OkL E ds) (hf : FreeFile E vars ds fs) (hg : FreeFile E vars ds gs) :
    ∃ stop, (∃ text, patchCommand E json (some (fileText fs)) = (stop, some text) ∧
        patchCommand E json (some (fileText gs)) = (stop, some text)) ∨
      (patchCommand E json (some (fileText fs)) = (stop, some (fileText fs)) ∧
        patchCommand E json (some (fileText gs)) = (stop, some (fileText gs))) := by
  have h := layouts_opened E ho hf hg
  unfold patchCommand
  cases json with
  | error e => cases e <;> exact ⟨_, Or.inr ⟨rfl, rfl⟩⟩
  | ok blob =>
    simp only [h]
    cases hr : Recipe.ofString E (fileText fs) with
    | error e => exact ⟨_, Or.inr ⟨rfl, rfl⟩⟩
    | ok r =>
      simp only [Except.map, patchLoop_init]
      rcases patchLoop E (patchBlobs blob) r with ⟨stop, r1⟩
      cases stop with
      | exit c => exact ⟨_, Or.inl ⟨r1.render, rfl, rfl⟩⟩
      | raised e => exact ⟨_, Or.inr ⟨rfl, rfl⟩⟩

/-! ## A file and patches that meet the hypotheses -/

namespace PatchFileExample
open LayoutExample

def patched : List Doc :=
  [ comment §"# A recipe",
    block §"package" [] [scalar §"name" §"foo" (.str §"foo") §"# [win]", scalar §"version" §"1.2" (.flt §"1.2") []],
    block §"build" [] [multi §"script" .pipe [] [§"make", §"make install", []], scalar §"number" §"2" (.int 2) []] ]

def patches : List PyVal :=
  [ mkPatch §"test" §"/package/version" [(§"value", .flt §"1.2")],
    mkPatch §"replace" §"/build/number" [(§"value", .int 2)],
    mkPatch §"remove" §"/about/home" [],
    mkPatch §"remove" §"/package" [] ]

theorem asks : Asks Toy.env (mkPatch §"test" §"/package/version" [(§"value", .flt §"1.2")]) [§"package", §"version"] doc (.flt §"1.2") (.flt §"1.2") where
  isTest := ⟨(schemaValid_iff _).1 (by decide), rfl, rfl⟩
  comps := by decide
  value := rfl
  entry := ⟨scalar §"version" §"1.2" (.flt §"1.2") [],
    .key (pre := [_]) ⟨rfl, by intro x hx; simp only [List.mem_singleton] at hx; subst hx; decide⟩
      (.here (pre := [_]) ⟨rfl, by intro x hx; simp only [List.mem_singleton] at hx; subst hx; decide⟩), .scalar (by simp)⟩
  wellFormed := document.1

theorem edit : CleanEdit Toy.env (mkPatch §"replace" §"/build/number" [(§"value", .int 2)]) doc patched := by
  refine .setKey §"replace" [§"build"] §"number" (.int 2) (.int 2) (by decide) (by decide) (Or.inl rfl)
    ⟨(schemaValid_iff _).1 (by decide), rfl, rfl⟩ rfl DocEditExample.scalar_int ?_
  refine Within.key (k := §"build") (c := []) (pre := [_, _]) (post := []) (cs := [_, _]) (cs' := [_, _]) (by decide) ?_ (.here ⟨?_, by decide⟩)
  · intro x hx
    rcases List.mem_cons.1 hx with rfl | hx
    · decide
    · simp only [List.mem_singleton] at hx; subst hx; decide
  · exact ⟨[_], _, [], rfl, rfl, rfl, rfl, by intro x hx; simp only [List.mem_singleton] at hx; subst hx; decide⟩

theorem noEntry : NoEntry (mkPatch §"remove" §"/about/home" []) [§"about", §"home"] patched where
  isPatch := Or.inr (Or.inl ⟨(schemaValid_iff _).1 (by decide), rfl, rfl⟩)
  comps := by decide
  below := by simp
  missing := by
    intro d h
    have := (leadsTo_lookup (E := Toy.env) h (Doc.root patched) rfl fun x hx =>
      Or.inl ((okL_iff patched).1 (documentB_sound (by decide +kernel) : Document Toy.env patched).1 x hx)).1
    have hn : lookup (Doc.root patched) [§"about", §"home"] = none := by decide
    rw [hn] at this
    cases this
  noText := by decide

theorem run : PatchRun Toy.env patches doc patched 106 :=
  .holds _ _ _ asks (by decide +kernel) (.made edit (.missing _ noEntry))

/-- The third patch is about an entry that is not there; the fourth is not made. -/
example : patchCommand Toy.env (.ok (.list patches)) (some (fileText lines)) = (.exit 106, some (recipeText vars patched)) :=
  C113_patch_file_partial Toy.env vars doc patched lines LayoutExample.opened _ patches 106 document.1 free_file opened_eq
    (fun h => by rw [opened_schema] at h; cases h) (Or.inl rfl) run (documentB_sound (by decide +kernel) : Document Toy.env patched).1

example : recipeText vars patched = §"{% set name = \"foo\" %}
{% set n = 3 %}

# A recipe
package:
  name: foo  # [win]
  version: 1.2

build:
  script: |
    make
    make install

  number: 2
" := by decide +kernel

/-- `/build` has two entries and no third. -/
theorem pastEnd : PastEnd (mkPatch §"add" §"/build/2" [(§"value", .int 2)]) [§"build"] §"2" patched where
  isPatch := Or.inl ⟨(schemaValid_iff _).1 (by decide), rfl, rfl⟩
  comps := by decide
  number := by decide
  short := by
    refine ⟨_, Within.key (k := §"build") (c := []) (pre := [_, _]) (post := []) (cs := [_, _]) (cs' := []) (by decide) ?_ (.here (by decide))⟩
    intro x hx
    rcases List.mem_cons.1 hx with rfl | hx
    · decide
    · simp only [List.mem_singleton] at hx; subst hx; decide

/-- The first patch is made in memory only. -/
example : patchCommand Toy.env (.ok (.list [mkPatch §"replace" §"/build/number" [(§"value", .int 2)],
    mkPatch §"add" §"/build/2" [(§"value", .int 2)]])) (some (fileText lines)) = (.raised .indexError, some (fileText lines)) :=
  C113_past_the_end_violation Toy.env vars doc lines LayoutExample.opened _ _ document.1 free_file opened_eq (Or.inl rfl)
    (.made edit (.now _ _ pastEnd))

/-- A patch that takes the selector of the line away. -/
example : patchCommand Toy.env (.ok (mkPatch §"replace" §"/package/name" [(§"value", .int 2)])) (some (fileText lines)) =
    (.exit 0, some (recipeText vars
      [ comment §"# A recipe",
        block §"package" [] [scalar §"name" §"2" (.int 2) [], scalar §"version" §"1.2" (.flt §"1.2") []],
        block §"build" [] [multi §"script" .pipe [] [§"make", §"make install", []], scalar §"number" §"0" (.int 0) []] ])) := by
  refine C113_edits_partial Toy.env vars doc _ lines LayoutExample.opened _ [_] document.1 free_file opened_eq
    (fun h => by rw [opened_schema] at h; cases h) (Or.inr ⟨by simp [mkPatch], rfl⟩) (.cons ?_ .nil) (documentB_sound (by decide +kernel) : Document Toy.env _).1
  refine .replaceKey [§"package"] §"name" (.int 2) (.int 2) (by decide) (by decide) ⟨(schemaValid_iff _).1 (by decide), rfl, rfl⟩ rfl
    DocEditExample.scalar_int ?_
  refine Within.key (k := §"package") (c := []) (pre := [_]) (post := [_]) (cs := [_, _]) (cs' := [_, _]) (by decide) ?_ (.here ?_)
  · intro x hx; simp only [List.mem_singleton] at hx; subst hx; decide
  · exact ⟨[], _, [_], rfl, rfl, rfl, by intro x hx; cases hx⟩

/-- The same file in another layout is made the same, whatever the patch file holds. -/
example (json : Except PyErr PyVal) : ∃ stop,
    (∃ text, patchCommand Toy.env json (some (fileText lines)) = (stop, some text) ∧
      patchCommand Toy.env json (some (fileText ConvLayoutExample.tidy)) = (stop, some text)) ∨
    (patchCommand Toy.env json (some (fileText lines)) = (stop, some (fileText lines)) ∧
      patchCommand Toy.env json (some (fileText ConvLayoutExample.tidy)) = (stop, some (fileText ConvLayoutExample.tidy))) :=
  C113_layout_does_not_matter_partial Toy.env vars doc lines ConvLayoutExample.tidy json document.1 free_file ConvLayoutExample.tidy_file

/-! Lists and mappings in the place of values: a key keeps its comment. -/

def shapes : List Doc :=
  [ block §"about" [] [scalar §"tags" §"t" (.str §"t") §"# note"],
    block §"source" [] [elem (scalar §"url" §"a" (.str §"a") []) [scalar §"n" §"1" (.int 1) §"# gone"], item §"b" (.str §"b") []] ]
def shapes1 : List Doc :=
  [ block §"about" [] [block §"tags" §"# note" [item §"x" (.str §"x") [], item §"y" (.str §"y") []]],
    block §"source" [] [elem (scalar §"url" §"a" (.str §"a") []) [scalar §"n" §"1" (.int 1) §"# gone"], item §"b" (.str §"b") []] ]
def shapes2 : List Doc :=
  [ block §"about" [] [block §"tags" §"# note" [item §"x" (.str §"x") [], item §"y" (.str §"y") []]],
    block §"source" [] [elem (scalar §"git" §"g" (.str §"g") []) [], item §"b" (.str §"b") []] ]
def shapes3 : List Doc :=
  [ block §"about" [] [block §"tags" §"# note" [item §"x" (.str §"x") [], item §"y" (.str §"y") []]],
    block §"source" [] [elem (scalar §"git" §"g" (.str §"g") []) [], elem (scalar §"git" §"g" (.str §"g") []) [], item §"b" (.str §"b") []] ]
def shapes4 : List Doc :=
  [ block §"about" [] [block §"tags" §"# note" [item §"x" (.str §"x") [], item §"y" (.str §"y") []]],
    block §"source" [] [elem (scalar §"git" §"g" (.str §"g") []) [], elem (scalar §"git" §"g" (.str §"g") []) [],
      elem (scalar §"git" §"g" (.str §"g") []) []] ]

theorem xy : Collection Toy.env (.list [.str §"x", .str §"y"]) [item §"x" (.str §"x") [], item §"y" (.str §"y") []] :=
  ⟨Or.inl ⟨_, rfl⟩, okLB_sound _ _ (by decide +kernel), by simp, by decide, by decide +kernel, by simp [Fresh, node]⟩
theorem git : Collection Toy.env (.dict [(§"git", .str §"g")]) [scalar §"git" §"g" (.str §"g") []] :=
  ⟨Or.inr ⟨_, rfl⟩, okLB_sound _ _ (by decide +kernel), by simp, by decide, by decide +kernel, by simp [Fresh, node]⟩

theorem shape1 : CleanEdit Toy.env (mkPatch §"add" §"/about/tags" [(§"value", .list [.str §"x", .str §"y"])]) shapes shapes1 :=
  .replaceSection §"add" [§"about"] §"tags" _ _ (by decide) (by decide) (Or.inr ⟨rfl, by decide⟩) ⟨(schemaValid_iff _).1 (by decide), rfl, rfl⟩ rfl xy
    (.key (pre := []) (c := []) (cs := [scalar §"tags" §"t" (.str §"t") §"# note"])
      (cs' := [block §"tags" §"# note" [item §"x" (.str §"x") [], item §"y" (.str §"y") []]]) (by decide) (by simp [Fresh])
      (.here ⟨⟨[], _, [], rfl, rfl, rfl, by simp [Fresh]⟩, by decide⟩))
theorem shape2 : CleanEdit Toy.env (mkPatch §"replace" §"/source/0" [(§"value", .dict [(§"git", .str §"g")])]) shapes1 shapes2 :=
  .replaceElem §"replace" [§"source"] §"0" _ _ _ (by decide) (by decide) (Or.inl rfl) ⟨(schemaValid_iff _).1 (by decide), rfl, rfl⟩ rfl git
    (.key (pre := shapes1.take 1) (post := []) (c := [])
      (cs := [elem (scalar §"url" §"a" (.str §"a") []) [scalar §"n" §"1" (.int 1) §"# gone"], item §"b" (.str §"b") []])
      (cs' := [elem (scalar §"git" §"g" (.str §"g") []) [], item §"b" (.str §"b") []]) (by decide) (by simp [Fresh, shapes1, node])
      (.here ⟨⟨[], _, _, [item §"b" (.str §"b") []], rfl, rfl, by decide, rfl⟩, by decide⟩))
theorem shape3 : CleanEdit Toy.env (mkPatch §"add" §"/source/1" [(§"value", .dict [(§"git", .str §"g")])]) shapes2 shapes3 :=
  .addElem [§"source"] §"1" _ _ _ (by decide) (by decide) ⟨(schemaValid_iff _).1 (by decide), rfl, rfl⟩ rfl git rfl
    (.key (pre := shapes2.take 1) (post := []) (c := [])
      (cs := [elem (scalar §"git" §"g" (.str §"g") []) [], item §"b" (.str §"b") []])
      (cs' := [elem (scalar §"git" §"g" (.str §"g") []) [], elem (scalar §"git" §"g" (.str §"g") []) [], item §"b" (.str §"b") []])
      (by decide) (by simp [Fresh, shapes2, node])
      (.here ⟨⟨[elem (scalar §"git" §"g" (.str §"g") []) []], _, _, _, [], rfl, rfl, by simp, by decide⟩, by decide⟩))
theorem shape4 : CleanEdit Toy.env (mkPatch §"replace" §"/source/2" [(§"value", .dict [(§"git", .str §"g")])]) shapes3 shapes4 :=
  .itemToElem [§"source"] §"2" _ _ _ (by decide) (by decide) ⟨(schemaValid_iff _).1 (by decide), rfl, rfl⟩ rfl git rfl
    (.key (pre := shapes3.take 1) (post := []) (c := [])
      (cs := [elem (scalar §"git" §"g" (.str §"g") []) [], elem (scalar §"git" §"g" (.str §"g") []) [], item §"b" (.str §"b") []])
      (cs' := [elem (scalar §"git" §"g" (.str §"g") []) [], elem (scalar §"git" §"g" (.str §"g") []) [],
        elem (scalar §"git" §"g" (.str §"g") []) []])
      (by decide) (by simp [Fresh, shapes3, node])
      (.here ⟨⟨[elem (scalar §"git" §"g" (.str §"g") []) [], elem (scalar §"git" §"g" (.str §"g") []) []], _, _, _, [], rfl, rfl, by simp,
        by decide⟩, by decide⟩))

example : PatchRun Toy.env
    [ mkPatch §"add" §"/about/tags" [(§"value", .list [.str §"x", .str §"y"])],
      mkPatch §"replace" §"/source/0" [(§"value", .dict [(§"git", .str §"g")])],
      mkPatch §"add" §"/source/1" [(§"value", .dict [(§"git", .str §"g")])],
      mkPatch §"replace" §"/source/2" [(§"value", .dict [(§"git", .str §"g")])] ] shapes shapes4 0 :=
  .made shape1 (.made shape2 (.made shape3 (.made shape4 .done)))
example : Document Toy.env shapes ∧ Document Toy.env shapes4 := ⟨documentB_sound (by decide +kernel), documentB_sound (by decide +kernel)⟩

/-- What is no patch ends the command with another code. -/
example : PatchRun Toy.env [.int 3] doc doc 4 := .noPatch (fun h => absurd ((schemaValid_iff _).2 h) (by decide))

end PatchFileExample

end Crm
