import Verif.Lemmas.Transfer
import Verif.Props.DocLines
import Verif.Props.FileValue
import Verif.Props.SectionLines
import Verif.Spec.PatchFile

/-!
# C99: copies and moves

`Spec/Transfer.lean` says what a copy or a move does to the entries of a file.
-/

namespace Crm
open Spec Doc

/-- What an entry reads as, in terms of its lines. -/
theorem entryReads_line {E : Env} {path : List Str} {ds : List Doc} {d : Doc} {v : PyVal} (ho : OkL E ds) (hc : ∀ x ∈ path, Component x)
    (hd : LeadsTo path ds d) (hv : WrittenValue E none d v) : EntryReads E (absPath path) ds v := by
  intro r hr
  exact value_in_tree false none hr ho hc hd hv

/-- C99: a copy or a move is written as the edited document, which reads as the recipe in memory. -/
theorem C99_transfer_partial (E : Env) (vars : List (Str × PyVal)) (ds ds' : List Doc) (r : Recipe) (p : PyVal) (hv : Writable E vars)
    (h : Document E ds) (hr : Recipe.ofString E (recipeText vars ds) = .ok r) (hs : r.schema = .v1 → vars = []) (ht : Transfer E p ds ds')
    (ho : OkL E ds') :
    ∃ r', r.patch E p = (.ok true, r') ∧ r'.render = recipeText vars ds' ∧ (Document E ds' → SameFormat ds ds' → ReadBackSel E r') := by
  obtain ⟨_, t2, _⟩ := C31_text_is_kept_partial E vars ds r hv h hr hs
  obtain ⟨h1, h2⟩ := exact_saved (P := fun _ _ => True) hv h hr hs ho trivial
  exact ⟨_, transfer_patch ht r t2, h1.text, h2⟩

theorem within_entry {R : List Doc → List Doc → Prop} {path : List Str} {ds ds' : List Doc} {k : Str} {d : Doc} (h : Within R path ds ds')
    (hk : isDigitS k = false) (hd : d.keyOf = some k) (hR : ∀ cs cs', R cs cs' → ∃ pre post, cs = pre ++ d :: post ∧ Fresh k pre) :
    LeadsTo (path ++ [k]) ds d := by
  induction h with
  | here h =>
    obtain ⟨pre, post, rfl, hf⟩ := hR _ _ h
    exact .here (by unfold Picks; rw [if_neg (by rw [hk]; decide)]; exact ⟨hd, hf⟩)
  | key hk' hf _ ih => exact leadsTo_cons hk' hf (leadsTo_some ih) ih
  | element hi hc _ ih => exact .element (by unfold Picks; rw [if_pos hi]; exact ⟨rfl, hc⟩) ih

theorem leads_section {R : List Doc → List Doc → Prop} {path : List Str} {ds ds' : List Doc} (hn : endsInNumber path = false)
    (h : Within R path ds ds') : Within (Leads path R) path ds ds' :=
  within_mono h fun _ _ hR => ⟨hR, fun hc => by rw [hn] at hc; cases hc⟩

theorem within_some {R : List Doc → List Doc → Prop} {path : List Str} {ds ds' : List Doc} (h : Within R path ds ds') (hne : path ≠ []) :
    ds ≠ [] := by
  cases h with
  | here _ => exact absurd rfl hne
  | key _ _ _ => simp
  | element _ _ _ => simp

/-- The patch that adds a new key to a section. -/
theorem addition_key {E : Env} {init : List Str} {k : Str} {v : PyVal} {new : Doc} {ds ds' : List Doc} (hc : ∀ c ∈ init ++ [k], Component c)
    (hk : isDigitS k = false) (hk' : k ≠ §"-") (hvs : v ≠ .sentinel) (hcol : Collection E (.dict [(k, v)]) [new]) (hne : init ≠ [])
    (hn : endsInNumber init = false) (hw : Within (EndsFresh k new) init ds ds') : CleanEdit E (addition (absPath (init ++ [k])) v) ds ds' :=
  .addKey init k v new hc hk hk' (isPatch_mk _ _ _ (Or.inl rfl) (by simp [absPath]) hvs) (by simp [field, addition, lookupD]) hcol
    (within_some hw hne) (leads_section hn hw)

/-- C99: `copy` of a key (with everything below it) to a new key of a section adds the lines of its value at the end of that section, and
touches no other line. -/
theorem C99_copy_key_partial (E : Env) (vars : List (Str × PyVal)) (ds ds' : List Doc) (d new : Doc) (r : Recipe) (p v : PyVal)
    (src init : List Str) (k : Str) (hv : Writable E vars) (h : Document E ds) (hr : Recipe.ofString E (recipeText vars ds) = .ok r)
    (hs : r.schema = .v1 → vars = []) (hsrc : ∀ c ∈ src, Component c) (hc : ∀ c ∈ init ++ [k], Component c) (hk : isDigitS k = false)
    (hk' : k ≠ §"-") (hne : init ≠ []) (hn : endsInNumber init = false) (hp : IsPatch p §"copy" (absPath (init ++ [k])))
    (hf : field p §"from" = some (.str (absPath src))) (hd : LeadsTo src ds d) (hval : WrittenValue E none d v) (hvs : v ≠ .sentinel)
    (hcol : Collection E (.dict [(k, v)]) [new]) (hw : Within (EndsFresh k new) init ds ds') (ho : OkL E ds') :
    ∃ r' xs ys, r.patch E p = (.ok true, r') ∧ r.render = joinStr §"\n" xs ∧ r'.render = joinStr §"\n" ys ∧ BlockDiffers [] [new] xs ys ∧
      (Document E ds' → SameFormat ds ds' → ReadBackSel E r') := by
  obtain ⟨r', h1, h2, h3⟩ := C99_transfer_partial E vars ds ds' r p hv h hr hs
    (.copy _ _ v hp hf (entryReads_line h.1 hsrc hd hval) hvs (addition_key hc hk hk' hvs hcol hne hn hw)) ho
  exact ⟨r', _, _, h1, (C31_text_is_kept_partial E vars ds r hv h hr hs).1, h2,
    entrySwap_file vars (within_entrySwap (within_ends (inner := endsInNumber init) hw (fun h => absurd h hne) fun _ => rfl) hne id), h3⟩

/-- C99: `move` of a key of a section to a new key of a section (perhaps the same one) takes the lines of the key and of what is below it
out of the file, adds the lines of its value at the end of the other section, and touches no other line. -/
theorem C99_move_key_partial (E : Env) (vars : List (Str × PyVal)) (ds both rest ds' : List Doc) (d new : Doc) (r : Recipe) (p v : PyVal)
    (src : List Str) (j : Str) (init : List Str) (k : Str) (hv : Writable E vars) (h : Document E ds)
    (hr : Recipe.ofString E (recipeText vars ds) = .ok r) (hs : r.schema = .v1 → vars = []) (hsrc : ∀ c ∈ src ++ [j], Component c)
    (hj : isDigitS j = false) (hsne : src ≠ []) (hsn : endsInNumber src = false)
    (hc : ∀ c ∈ init ++ [k], Component c) (hk : isDigitS k = false) (hk' : k ≠ §"-") (hne : init ≠ []) (hn : endsInNumber init = false)
    (hp : IsPatch p §"move" (absPath (init ++ [k]))) (hf : field p §"from" = some (.str (absPath (src ++ [j]))))
    (hdiff : absPath (src ++ [j]) ≠ absPath (init ++ [k])) (hd : d.keyOf = some j) (hval : WrittenValue E none d v) (hvs : v ≠ .sentinel)
    (hcol : Collection E (.dict [(k, v)]) [new]) (hboth : Within (EndsFresh k new) init ds both)
    (hgone : Within (fun cs cs' => ∃ pre post, cs = pre ++ d :: post ∧ cs' = pre ++ post ∧ Fresh j pre) src ds rest)
    (hw : Within (EndsFresh k new) init rest ds') (ho : OkL E ds') :
    ∃ r' xs ys zs, r.patch E p = (.ok true, r') ∧ r.render = joinStr §"\n" xs ∧ r'.render = joinStr §"\n" zs ∧
      BlockDiffers [d] [] xs ys ∧ BlockDiffers [] [new] ys zs ∧ (Document E ds' → SameFormat ds ds' → ReadBackSel E r') := by
  have hread := entryReads_line h.1 hsrc (within_entry hgone hj hd fun _ _ ⟨pre, post, e, _, hf⟩ => ⟨pre, post, e, hf⟩) hval
  have hrm : CleanEdit E (removal (absPath (src ++ [j]))) ds rest :=
    .removeKey src j hsrc hj (isPatch_rm (by simp [absPath])) (leads_section hsn (within_mono hgone (by
      rintro cs cs' ⟨pre, post, rfl, rfl, hfr⟩
      exact ⟨pre, d, post, rfl, by simp, hd, hfr⟩)))
  obtain ⟨r', h1, h2, h3⟩ := C99_transfer_partial E vars ds ds' r p hv h hr hs
    (.move _ _ v both rest hp hf hdiff hread hvs (addition_key hc hk hk' hvs hcol hne hn hboth) hrm
      (addition_key hc hk hk' hvs hcol hne hn hw)) ho
  refine ⟨r', _, _, _, h1, (C31_text_is_kept_partial E vars ds r hv h hr hs).1, h2,
    entrySwap_file vars (within_entrySwap (inner := endsInNumber src) (within_mono hgone ?_) hsne id),
    entrySwap_file vars (within_entrySwap (within_ends (inner := endsInNumber init) hw (fun h => absurd h hne) fun _ => rfl) hne id), h3⟩
  rintro cs cs' ⟨pre, post, rfl, rfl, _⟩
  exact ⟨pre, post, by simp, by simp, fun hc => by rw [hsn] at hc; cases hc⟩

/-! ## Concrete cases -/

namespace TransferExample
open DocEditExample (before)

def package (ds : List Doc) : Doc := block §"package" [] ds
def name : Doc := scalar §"name" §"foo" (.str §"foo") []
def version : Doc := scalar §"version" §"1.2" (.flt §"1.2") §"# [win]"
def release : Doc := scalar §"release" §"1.2" (.flt §"1.2") []
def title : Doc := scalar §"title" §"foo" (.str §"foo") []
/-- The file of the examples for edits, with these entries in `package` and in `about`. -/
def file (a b : List Doc) : List Doc := package a :: (before.drop 1).take 2 ++ [sec §"about" [] b]

example : file [name, version] [] = before := rfl

theorem collection : Collection Toy.env (.dict [(§"release", .flt §"1.2")]) [release] :=
  ⟨Or.inr ⟨_, rfl⟩, okLB_sound _ _ (by decide +kernel), by simp, by decide, by decide +kernel, by simp [Fresh, release, node]⟩
theorem collection_title : Collection Toy.env (.dict [(§"title", .str §"foo")]) [title] :=
  ⟨Or.inr ⟨_, rfl⟩, okLB_sound _ _ (by decide +kernel), by simp, by decide, by decide +kernel, by simp [Fresh, title, node]⟩

theorem at_about (a : List Doc) (k : Str) (new : Doc) : Within (EndsFresh k new) [§"about"] (file a []) (file a [new]) :=
  .key (pre := package a :: (before.drop 1).take 2) (post := []) (c := []) (cs := []) (cs' := [new]) (by decide)
    (by simp [Fresh, package, before, node]) (.here ⟨by simp [Fresh], rfl⟩)

theorem gone : Within (fun cs cs' => ∃ pre post, cs = pre ++ version :: post ∧ cs' = pre ++ post ∧ Fresh §"version" pre) [§"package"]
    (file [name, version] []) (file [name] []) :=
  .key (pre := []) (c := []) (cs := [name, version]) (cs' := [name]) (by decide) (by simp [Fresh])
    (.here ⟨[name], [], rfl, rfl, by simp [Fresh, name, node]⟩)

theorem writable : Writable Toy.env [] := ⟨by decide, by decide, by decide, by decide, by decide⟩
theorem document : Document Toy.env (file [name, version] []) := documentB_sound (by decide +kernel)
theorem moved : Document Toy.env (file [name] [release]) := documentB_sound (by decide +kernel)
theorem copied : Document Toy.env (file [name, version] [title]) := documentB_sound (by decide +kernel)
theorem fresh (a b : List Doc) : Fresh §"schema_version" (file a b) := by
  cases b <;> simp [Fresh, file, package, before, node, sec]

def move : PyVal := .dict [(§"op", .str §"move"), (§"from", .str §"/package/version"), (§"path", .str §"/about/release")]
def copy : PyVal := .dict [(§"op", .str §"copy"), (§"from", .str §"/package/name"), (§"path", .str §"/about/title")]

/-- The version goes to another section under another name; the selector behind it is gone. -/
example (r : Recipe) (hr : Recipe.ofString Toy.env (recipeText [] (file [name, version] [])) = .ok r) :
    ∃ r' xs ys zs, r.patch Toy.env move = (.ok true, r') ∧ r.render = joinStr §"\n" xs ∧ r'.render = joinStr §"\n" zs ∧
      BlockDiffers [version] [] xs ys ∧ BlockDiffers [] [release] ys zs ∧ ReadBackSel Toy.env r' := by
  obtain ⟨r', xs, ys, zs, h1, h2, h3, h4, h5, h6⟩ := C99_move_key_partial Toy.env [] (file [name, version] [])
    (file [name, version] [release]) (file [name] []) (file [name] [release]) version release r move (.flt §"1.2") [§"package"] §"version"
    [§"about"] §"release" writable document hr (fun _ => rfl) (by decide) (by decide) (by simp) (by decide) (by decide) (by decide) (by decide)
    (by simp) (by decide) (DocEditExample.isPatch (by decide)) rfl (by decide) rfl (.scalar (by simp)) (by simp) collection
    (at_about _ _ _) gone (at_about _ _ _) moved.1
  exact ⟨r', xs, ys, zs, h1, h2, h3, h4, h5, h6 moved (same_fresh (fresh _ _) (fresh _ _))⟩

example (r : Recipe) (hr : Recipe.ofString Toy.env (recipeText [] (file [name, version] [])) = .ok r) :
    ∃ r' xs ys, r.patch Toy.env copy = (.ok true, r') ∧ r.render = joinStr §"\n" xs ∧ r'.render = joinStr §"\n" ys ∧
      BlockDiffers [] [title] xs ys ∧ ReadBackSel Toy.env r' := by
  obtain ⟨r', xs, ys, h1, h2, h3, h4, h5⟩ := C99_copy_key_partial Toy.env [] (file [name, version] []) (file [name, version] [title]) name title
    r copy (.str §"foo") [§"package", §"name"] [§"about"] §"title" writable document hr (fun _ => rfl) (by decide) (by decide) (by decide)
    (by decide) (by simp) (by decide) (DocEditExample.isPatch (by decide)) rfl
    (.key (pre := []) ⟨rfl, by simp [Fresh]⟩ (.here (pre := []) ⟨rfl, by simp [Fresh]⟩)) (.scalarText (by decide +kernel)) (by simp) collection_title
    (at_about _ _ _) copied.1
  exact ⟨r', xs, ys, h1, h2, h3, h4, h5 copied (same_fresh (fresh _ _) (fresh _ _))⟩

example : ∃ r, Recipe.ofString Toy.env (recipeText [] (file [name, version] [])) = .ok r := by
  have h : (Recipe.ofString Toy.env (recipeText [] (file [name, version] []))).toOption.isSome = true := by decide +kernel
  cases hr : Recipe.ofString Toy.env (recipeText [] (file [name, version] [])) with
  | error e => rw [hr] at h; cases h
  | ok r => exact ⟨r, rfl⟩

/-- The move as a step of `crm patch` and of a session of edits (C113, C103). -/
theorem transfer : Transfer Toy.env move (file [name, version] []) (file [name] [release]) :=
  .move §"/about/release" §"/package/version" (.flt §"1.2") (file [name, version] [release]) (file [name] [])
    (DocEditExample.isPatch (by decide)) rfl (by decide)
    (entryReads_line (path := [§"package", §"version"]) document.1 (by decide)
      (within_entry gone (by decide) rfl fun _ _ ⟨pre, post, e, _, hf⟩ => ⟨pre, post, e, hf⟩) (.scalar (by simp))) (by simp)
    (addition_key (init := [§"about"]) (by decide) (by decide) (by decide) (by simp) collection (by simp) (by decide) (at_about _ _ _))
    (.removeKey [§"package"] §"version" (by decide) (by decide) (DocEditExample.isPatch (by decide)) (leads_section (by decide)
      (within_mono gone fun _ _ ⟨pre, post, h1, h2, h3⟩ => ⟨pre, version, post, h1, by rw [h2]; simp, rfl, h3⟩)))
    (addition_key (init := [§"about"]) (by decide) (by decide) (by decide) (by simp) collection (by simp) (by decide) (at_about _ _ _))
example : PatchRun Toy.env [move] (file [name, version] []) (file [name] [release]) 0 := .transferred transfer .done
example (v : Schema) : FileSession Toy.env v [.patch move] [] (file [name, version] []) [] (file [name] [release]) :=
  .cons (.transfer _ transfer) .nil

/-- What the two make of the text. -/
example : recipeText [] (file [name, version] []) = §"package:
  name: foo
  version: 1.2  # [win]

# where
source:
  - url: a.tgz  # [unix]
    patches:
      - p1  # [osx]
      # last
      - 2

about:
" := by decide +kernel
example : recipeText [] (file [name] [release]) = §"package:
  name: foo

# where
source:
  - url: a.tgz  # [unix]
    patches:
      - p1  # [osx]
      # last
      - 2

about:
  release: 1.2
" := by decide +kernel

end TransferExample

end Crm
