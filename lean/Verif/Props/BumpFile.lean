import Verif.Lemmas.BumpFile
import Verif.Examples.DocCheck

/-!
# C100: what `bump-recipe` does to the file

The file is laid out as in `Spec/Document.lean`; `Spec/BumpFile.lean` says which keys and variables a run sets, and what becomes of
the lines.
-/

namespace Crm
open Spec Doc

/-- One line is added below the line of an entry. -/
def EntryAdd (b : Str) (ds ds' : List Doc) : Prop :=
  ∃ pre d d' post, ds = pre ++ d :: post ∧ ds' = pre ++ d' :: post ∧ d.isComment = false ∧ d'.isComment = false ∧
    ∀ level, ∃ before margin after, d.lines level = before ++ after ∧ d'.lines level = before ++ (margin ++ b) :: after ∧
      (∀ c ∈ margin, c = ' ') ∧ before ≠ []

/-- One line is added to the lines of a list of entries, not in front of the first. -/
def ListAdd (b : Str) (ds ds' : List Doc) : Prop :=
  ∀ level, ∃ before margin after, linesL level ds = before ++ after ∧ linesL level ds' = before ++ (margin ++ b) :: after ∧
    (∀ c ∈ margin, c = ' ') ∧ (ds ≠ [] → before ≠ [])

theorem entryAdd_list {b : Str} {ds ds' : List Doc} (h : EntryAdd b ds ds') : ListAdd b ds ds' := by
  obtain ⟨pre, d, d', post, rfl, rfl, _, _, hl⟩ := h
  intro level
  obtain ⟨before, margin, after, h1, h2, h3, h4⟩ := hl level
  refine ⟨linesL level pre ++ before, margin, after ++ linesL level post, ?_, ?_, h3, fun _ => by simp [h4]⟩
  · rw [linesL_mid, h1]; simp
  · rw [linesL_mid, h2]; simp

theorem ind_space (level : Nat) : ∀ c ∈ ind level, c = ' ' := fun _ h => List.eq_of_mem_replicate h

theorem within_added {k b : Str} {new : Doc} {path : List Str} {ds ds' : List Doc} (h : Within (EndsFresh k new) path ds ds')
    (hn : ∀ level, new.lines level = [ind level ++ b]) : ListAdd b ds ds' ∧ (path ≠ [] → EntryAdd b ds ds') := by
  induction h with
  | @here ds ds' h =>
    refine ⟨?_, fun h => absurd rfl h⟩
    obtain ⟨_, rfl⟩ := h
    intro level
    refine ⟨linesL level ds, ind level, [], by simp, ?_, ind_space level, ?_⟩
    · rw [linesL_append, linesL_single, hn]
    · intro hne
      cases ds with
      | nil => exact absurd rfl hne
      | cons d ds => simp [linesL]
  | @key k' c cs cs' pre post path _ _ _ ih =>
    have : EntryAdd b (pre ++ sec k' c cs :: post) (pre ++ sec k' c cs' :: post) := by
      refine ⟨pre, _, _, post, rfl, rfl, (sec_lines 0 k' c _).2, (sec_lines 0 k' c _).2, fun level => ?_⟩
      obtain ⟨before, margin, after, h1, h2, h3, _⟩ := ih.1 (level + 1)
      refine ⟨(ind level ++ withComment (k' ++ §":") c) :: before, margin, after, ?_, ?_, h3, by simp⟩
      · rw [(sec_lines level k' c _).1, h1]; simp
      · rw [(sec_lines level k' c _).1, h2]; simp
    exact ⟨entryAdd_list this, fun _ => this⟩
  | @element i first rest first' rest' pre post path _ _ _ ih =>
    have : EntryAdd b (pre ++ elem first rest :: post) (pre ++ elem first' rest' :: post) := by
      refine ⟨pre, _, _, post, rfl, rfl, rfl, rfl, fun level => ?_⟩
      obtain ⟨before, margin, after, h1, h2, h3, h4⟩ := ih.1 (level + 1)
      cases before with
      | nil => exact absurd rfl (h4 (by simp))
      | cons l before =>
        simp only [linesL, List.cons_append, List.cons.injEq] at h1 h2
        have hh : first.head = first'.head := List.append_cancel_left (h1.1.trans h2.1.symm)
        refine ⟨(ind level ++ (§"- " ++ first.head)) :: before, margin, after, ?_, ?_, h3, by simp⟩
        · rw [elem_line, h1.2]; simp
        · rw [elem_line, h2.2, hh]; simp
    exact ⟨entryAdd_list this, fun _ => this⟩

/-- The lines of a file. -/
def fileTextLines (vars : List (Str × PyVal)) (ds : List Doc) : List Str :=
  vars.map (fun kv => defLine kv.1 kv.2) ++ (if vars = [] then [] else [[]]) ++ documentLines ds

theorem keyLine_file {a b : Str} {vars : List (Str × PyVal)} {ds ds' : List Doc} (h : KeyLine a b ds ds') :
    OneLineDiffers a b (fileTextLines vars ds) (fileTextLines vars ds') := by
  obtain ⟨pre, d, d', post, rfl, rfl, hd, hd', hl⟩ := h
  obtain ⟨before, margin, after, h1, h2, _⟩ := hl 0
  refine ⟨vars.map (fun kv => defLine kv.1 kv.2) ++ (if vars = [] then [] else [[]]) ++ (documentLines pre ++ before), margin,
    after ++ ([[]] ++ documentLines post), ?_, ?_⟩
  · rw [fileTextLines, documentLines_join, documentLines, h1, hd]; simp
  · rw [fileTextLines, documentLines_join, documentLines, h2, hd']; simp

theorem replaced_file {k vt c : Str} {old w : PyVal} {path : List Str} {vars : List (Str × PyVal)} {ds ds' : List Doc}
    (h : Within (ScalarBecomes k vt old c w) path ds ds') :
    (LineChange.becomes (withComment (k ++ §": " ++ vt) c) (k ++ §": " ++ yamlText w)).Holds (fileTextLines vars ds) (fileTextLines vars ds') := by
  refine keyLine_file (within_keyLine h ?_)
  rintro cs cs' ⟨pre, post, rfl, rfl, _⟩
  refine ⟨pre, _, _, post, rfl, rfl, rfl, rfl, fun level => ⟨[], ind level, [], rfl, ?_, fun _ => ⟨[], by simp⟩⟩⟩
  simp [lines, under, head, base, trail, withComment]

theorem keySet_file {E : Env} {v : PyVal} {k : Str} {path : List Str} {ch : LineChange} {vars : List (Str × PyVal)} {ds ds' : List Doc}
    (h : KeySet E v k path ch ds ds') (hp : path ≠ []) : ch.Holds (fileTextLines vars ds) (fileTextLines vars ds') := by
  cases h with
  | replaced _ hw => exact replaced_file hw
  | @added w _ _ _ hw =>
    have hn : ∀ level, (scalar k (yamlText w) w []).lines level = [ind level ++ (k ++ §": " ++ yamlText w)] := by
      intro level; simp [lines, under, head, base, trail, withComment]
    obtain ⟨pre, d, d', post, rfl, rfl, hd, hd', hl⟩ := (within_added hw hn).2 hp
    obtain ⟨before, margin, after, h1, h2, h3, _⟩ := hl 0
    refine ⟨vars.map (fun kv => defLine kv.1 kv.2) ++ (if vars = [] then [] else [[]]) ++ (documentLines pre ++ before), margin,
      after ++ ([[]] ++ documentLines post), ?_, ?_, h3⟩
    · rw [fileTextLines, documentLines_join, documentLines, h1, hd]; simp
    · rw [fileTextLines, documentLines_join, documentLines, h2, hd']; simp

theorem variableSet_file {v : PyVal} {k : Str} {ch : LineChange} {vars vars' : List (Str × PyVal)} {ds : List Doc}
    (h : VariableSet v k ch vars vars') : ch.Holds (fileTextLines vars ds) (fileTextLines vars' ds) := by
  cases h with
  | @intro pre old post =>
    refine ⟨pre.map (fun kv => defLine kv.1 kv.2), [], post.map (fun kv => defLine kv.1 kv.2) ++ [[]] ++ documentLines ds, ?_, ?_⟩ <;>
      simp [fileTextLines]

theorem numberBumped_file {E : Env} {raise : Bool} {ch : LineChange} {vars : List (Str × PyVal)} {ds ds' : List Doc}
    (h : NumberBumped E raise ch ds ds') : ch.Holds (fileTextLines vars ds) (fileTextLines vars ds') := by
  cases h with
  | raised _ _ _ hw => exact replaced_file hw
  | reset _ hk => exact keySet_file hk (by simp)

theorem versionBumped_file {E : Env} {t : Str} {ch : LineChange} {vars vars' : List (Str × PyVal)} {ds ds' : List Doc}
    (h : VersionBumped E t ch vars ds vars' ds') : ch.Holds (fileTextLines vars ds) (fileTextLines vars' ds') := by
  cases h with
  | byVariable _ h => exact variableSet_file h
  | byKey _ hk => exact keySet_file hk (by simp)

theorem hashesSet_file {E : Env} {vars : List (Str × PyVal)} {hashes : List (List Str × Str)} {chs : List LineChange} {ds ds' : List Doc}
    (h : HashesSet E hashes chs ds ds') (hs : ∀ h ∈ hashes, h.1 ≠ []) : LinesDiffer chs (fileTextLines vars ds) (fileTextLines vars ds') := by
  induction h with
  | nil => exact .nil
  | @cons path s _ _ _ _ _ _ hk _ ih => exact .cons (keySet_file hk (hs (path, s) (by simp))) (ih fun h hh => hs h (by simp [hh]))

theorem hashesBumped_file {E : Env} {sha : Str → Str} {net : Network} {order : List Str → List Str} {o : Recipe} {chs : List LineChange}
    {vars vars' : List (Str × PyVal)} {ds ds' : List Doc} (hord : ∀ l, (order l).Perm l)
    (h : HashesBumped E sha net order o chs vars ds vars' ds') : LinesDiffer chs (fileTextLines vars ds) (fileTextLines vars' ds') := by
  cases h with
  | byVariable _ _ _ hset => exact .cons (variableSet_file hset) .nil
  | @byKeys tbl hashes _ _ _ _ ht _ hpaths _ _ _ hset =>
    refine hashesSet_file hset ?_
    intro h hh he
    have hm : absPath h.1 ∈ order (httpPaths tbl) := by rw [← hpaths]; exact List.mem_map_of_mem hh
    obtain ⟨comps, h1, h2⟩ := httpPaths_keys ht _ ((hord _).mem_iff.1 hm)
    rw [he] at h2
    rcases h1 with rfl | ⟨i, rfl⟩ <;> simp [absPath] at h2

theorem bumped_file {E : Env} {sha : Str → Str} {W : BumpWorld} {args : BumpArgs} {chs : List LineChange} {vars vars' : List (Str × PyVal)}
    {ds ds' : List Doc} (hord : ∀ l, (W.order l).Perm l) (h : Bumped E sha W args chs vars ds vars' ds') :
    LinesDiffer chs (fileTextLines vars ds) (fileTextLines vars' ds') := by
  cases h with
  | number _ _ _ hn => exact .cons (numberBumped_file hn) .nil
  | version _ _ _ hn _ _ hv _ hh => exact .cons (numberBumped_file hn) (.cons (versionBumped_file hv) (hashesBumped_file hord hh))

theorem bumped_opened {E : Env} {sha : Str → Str} {W : BumpWorld} {args : BumpArgs} {chs : List LineChange} {vars vars' : List (Str × PyVal)}
    {ds ds' : List Doc} (h : Bumped E sha W args chs vars ds vars' ds') : ∃ o, Opened E vars ds o := by
  cases h with
  | number _ ho => exact ⟨_, ho⟩
  | version _ ho => exact ⟨_, ho⟩

/-- C100: the run succeeds and the file (in a dry run, what is printed) is the old text with the build number, the version and the
hashes set: each changes or adds one line, and every other line is as it was. -/
theorem C100_bump_changes_only_these_lines_partial (E : Env) (sha : Str → Str) (W : BumpWorld) (args : BumpArgs) (chs : List LineChange)
    (vars vars' : List (Str × PyVal)) (ds ds' : List Doc) (hargs : goodArgs args) (hord : ∀ l, (W.order l).Perm l)
    (hvar : W.variants.Perm hashTypeLines) (hwrite : W.writeFails = none) (hfile : W.file = some (recipeText vars ds))
    (hhash : NoHashType (recipeText vars ds)) (h : Bumped E sha W args chs vars ds vars' ds') (hok : OkL E ds') :
    ∃ xs ys, recipeText vars ds = joinStr §"\n" xs ∧ recipeText vars' ds' = joinStr §"\n" ys ∧ LinesDiffer chs xs ys ∧
      bumpRecipe E sha W args =
        if args.dryRun then ⟨.exit 0, W.file, some (recipeText vars' ds')⟩ else ⟨.exit 0, some (recipeText vars' ds'), none⟩ := by
  refine ⟨fileTextLines vars ds, fileTextLines vars' ds', rfl, rfl, bumped_file hord h, ?_⟩
  obtain ⟨o, ho⟩ := bumped_opened h
  obtain ⟨r', h1, h2⟩ := bumped_step hord h ho.stored.stands
  obtain ⟨ns, h3, h4⟩ := h2.tree
  have hren : r'.render = recipeText vars' ds' := by rw [shows_render h3 h4 hok, h2.schema, h2.vars]; rfl
  obtain ⟨g1, g2, g3⟩ := hargs
  unfold bumpRecipe
  rw [if_neg (by rintro (h | h); exact g1 h; omega), if_neg (by
    unfold asksSomething at g3
    rcases g3 with g3 | g3
    · simp [g3]
    · cases ht : args.target <;> simp_all), hfile]
  simp only [noHashType_kept hvar hhash, ho.opened, h1, hren, hwrite]

/-! ## Failed downloads (C47) -/

theorem checkHashVar_none {sha : Str → Str} {net : Requests} {r : Recipe} {tbl : List (Str × Fetcher)}
    (h : ∀ v, ¬ hashFromVariable r tbl v) : checkHashVar sha net r tbl = .ok none := by
  have hfil : commonHashVars.filter (r.listVariables.contains ·) = hashVariables r := by
    unfold hashVariables commonHashVars
    exact List.filter_congr fun x _ => by simp
  unfold checkHashVar
  rw [hfil]
  split
  · rename_i v path name url hv
    rw [if_neg]
    rintro ⟨rfl, href⟩
    exact h v ⟨hv, ⟨name, url, rfl⟩, by simpa using href⟩
  · rfl

theorem collectShas_failed {sha : Str → Str} {net : Requests} : ∀ {ps : List Str} {acc : List (Str × Str)},
    (∃ p ∈ ps, (getSha256 sha (net p)).1 = .error .fetchError) →
    (∀ p ∈ ps, ∀ e, (getSha256 sha (net p)).1 = .error e → e = .fetchError) →
    collectShas sha net ps acc = .error (.exit ExitCode.httpError)
  | [], _, h, _ => by obtain ⟨_, h, _⟩ := h; cases h
  | p :: ps, acc, h, hall => by
    simp only [collectShas, bind, Except.bind]
    cases hp : (getSha256 sha (net p)).1 with
    | error e => rw [hall p (by simp) e hp]; rfl
    | ok s =>
      simp only [orHttpExit]
      refine collectShas_failed ?_ fun q hq => hall q (by simp [hq])
      obtain ⟨q, hq, he⟩ := h
      rcases List.mem_cons.1 hq with rfl | hq
      · rw [hp] at he; cases he
      · exact ⟨q, hq, he⟩

/-- C47: if downloads fail, and no other error occurs, then the update ends with the code for failed downloads, whatever the order in
which they complete. -/
theorem C47_failed_downloads (E : Env) (sha : Str → Str) (net : Network) (order : List Str → List Str) (r : Recipe)
    (tbl : List (Str × Fetcher)) (hord : ∀ l, (order l).Perm l) (ht : fetchersOf E r true = .ok tbl)
    (hno : ∀ v, ¬ hashFromVariable r tbl v) (hfail : ∃ p name url, (p, .http name url) ∈ tbl ∧ (getSha256 sha (net p url)).1 = .error .fetchError)
    (hall : ∀ p name url, (p, .http name url) ∈ tbl → ∀ e, (getSha256 sha (net p url)).1 = .error e → e = .fetchError) :
    updateSha256 E sha net order r = .error (.exit 108) := by
  unfold updateSha256
  have hem : tbl.isEmpty = false := by
    cases tbl with
    | nil => obtain ⟨_, _, _, h, _⟩ := hfail; cases h
    | cons => rfl
  simp only [ht, orRaise, bind, Except.bind, hem, checkHashVar_none hno, Bool.false_eq_true, if_false]
  rw [collectShas_failed]
  · obtain ⟨p, name, url, hp, h⟩ := hfail
    exact ⟨p, (hord _).mem_iff.2 (httpPaths_mem.2 ⟨name, url, hp⟩), by rw [requests_mem ht hp]; exact h⟩
  · intro p hp
    obtain ⟨name, url, hm⟩ := httpPaths_mem.1 ((hord _).mem_iff.1 hp)
    rw [requests_mem ht hm]
    exact hall p name url hm

def exTwoUrls : Str := §"source:\n  - url: http://a\n  - url: http://b\nbuild:\n  number: 5\n"

/-- Two sources: the first cannot be downloaded, the second is a zip file compressed in a way that Python does not support. -/
def exTwoFailures : Network := fun p _ _ =>
  if p = §"/source/0" then exCut else { exGood with isTar := false, isZip := true, unpacked := .error .notImplemented }

example : let r := Toy.recipe (String.ofList exTwoUrls)
    (fetchersOf Toy.env r true).toOption.map httpPaths = some [§"/source/0", §"/source/1"] ∧
    updateSha256 Toy.env id (fun _ _ _ => exCut) List.reverse r = .error (.exit 108) :=
  ⟨by decide +kernel, by decide +kernel⟩

/-- C47 is false for runs that fail in different ways: the code depends on which download completes first. -/
theorem C47_failure_violation : let r := Toy.recipe (String.ofList exTwoUrls)
    updateSha256 Toy.env id exTwoFailures id r = .error (.exit 108) ∧
    updateSha256 Toy.env id exTwoFailures List.reverse r = .error (.raised .notImplemented) :=
  ⟨by decide +kernel, by decide +kernel⟩

/-! ## A concrete run

A new version, given by a variable, and two sources, one of them without a hash; the second download completes first. -/

namespace BumpFileExample

def pkg : Doc := block §"package" [] [scalar §"name" §"p" (.str §"p") [], scalar §"version" §"{{ version }}" (.str §"{{ version }}") []]
def src1 (h : Str) : Doc :=
  elem (scalar §"url" §"http://x" (.str §"http://x") §"# [unix]") [comment §"# checked", scalar §"sha256" h (.str h) []]
def src2 (hs : List Doc) : Doc := elem (scalar §"url" §"http://y" (.str §"http://y") []) (scalar §"fn" §"y" (.str §"y") [] :: hs)
def noarch : Doc := scalar §"noarch" §"generic" (.str §"generic") §"# why"
def hash : Doc := scalar §"sha256" §"abc" (.str §"abc") []

def d0 : List Doc := [pkg, block §"source" [] [src1 §"ab", src2 []], block §"build" [] [scalar §"number" §"5" (.int 5) §"# [win]", noarch]]
def d1 : List Doc := [pkg, block §"source" [] [src1 §"ab", src2 []], block §"build" [] [scalar §"number" §"0" (.int 0) [], noarch]]
def d2 : List Doc := [pkg, block §"source" [] [src1 §"ab", src2 [hash]], block §"build" [] [scalar §"number" §"0" (.int 0) [], noarch]]
def d3 : List Doc := [pkg, block §"source" [] [src1 §"abc", src2 [hash]], block §"build" [] [scalar §"number" §"0" (.int 0) [], noarch]]
def vars0 : List (Str × PyVal) := [(§"version", .str §"1.0")]
def vars1 : List (Str × PyVal) := [(§"version", .str §"2.0")]

def world : BumpWorld := { file := some (recipeText vars0 d0), net := fun _ _ _ => exGood, order := List.reverse }
def args : BumpArgs := { target := some §"2.0" }

def recipe (vars : List (Str × PyVal)) (ds : List Doc) : Recipe :=
  match Recipe.ofString Toy.env (recipeText vars ds) with
  | .ok o => o
  | .error _ => ⟨[], {}, .v0, [], [], false⟩

theorem opened {vars : List (Str × PyVal)} {ds : List Doc} (h1 : Writable Toy.env vars) (h2 : documentB Toy.env ds = true)
    (h3 : Fresh §"schema_version" ds) : Opened Toy.env vars ds (recipe vars ds) := by
  refine ⟨h1, documentB_sound h2, h3, ?_⟩
  obtain ⟨r, hr, _⟩ := open_v0 h1 (documentB_sound h2) h3
  unfold recipe
  rw [hr]

theorem writable0 : Writable Toy.env vars0 :=
  ⟨by decide +kernel, by decide +kernel, by decide +kernel, by decide +kernel, by decide +kernel⟩
theorem writable1 : Writable Toy.env vars1 :=
  ⟨by decide +kernel, by decide +kernel, by decide +kernel, by decide +kernel, by decide +kernel⟩

theorem scalar_zero : Scalar Toy.env (.int 0) (.int 0) :=
  ⟨rfl, by simp, ⟨by decide +kernel, by decide +kernel, by decide +kernel, by decide +kernel, by decide +kernel, by decide +kernel,
    by decide +kernel⟩, rfl, by simp⟩

theorem scalar_hash : Scalar Toy.env (.str §"abc") (.str §"abc") :=
  ⟨rfl, by rintro s ⟨⟩; decide, ⟨by decide +kernel, by decide +kernel, by decide +kernel, by decide +kernel, by decide +kernel,
    by decide +kernel, by decide +kernel⟩, rfl, by decide⟩

theorem new_hash : Collection Toy.env (.dict [(§"sha256", .str §"abc")]) [scalar §"sha256" (yamlText (.str §"abc")) (.str §"abc") []] :=
  ⟨Or.inr ⟨_, rfl⟩, okLB_sound _ _ (by decide +kernel), by simp, by decide, by decide +kernel, by simp [Fresh, node]⟩

theorem number : NumberBumped Toy.env false (.becomes §"number: 5  # [win]" §"number: 0") d0 d1 :=
  .reset (Or.inl rfl) (.replaced (vt := §"5") (old := .int 5) (c := §"# [win]") (w := .int 0) scalar_zero
    (.key (pre := d0.take 2) (post := []) (c := []) (cs := [scalar §"number" §"5" (.int 5) §"# [win]", noarch])
      (cs' := [scalar §"number" §"0" (.int 0) [], noarch]) (by decide) (by simp [Fresh, d0, pkg, node])
      (.here ⟨[], [noarch], rfl, rfl, by simp [Fresh]⟩)))

theorem version : VersionBumped Toy.env §"2.0" (.becomes §"{% set version = \"1.0\" %}" §"{% set version = \"2.0\" %}") vars0 d1 vars1 d1 :=
  .byVariable (by simp [vars0]) (.intro (pre := []) (old := .str §"1.0") (post := []))

theorem second : KeySet Toy.env (.str §"abc") §"sha256" [§"source", §"1"] (.added §"sha256: abc") d1 d2 :=
  .added (w := .str §"abc") new_hash
    (.key (pre := [pkg]) (post := d1.drop 2) (c := []) (cs := [src1 §"ab", src2 []]) (cs' := [src1 §"ab", src2 [hash]]) (by decide)
      (by simp [Fresh, pkg, node])
      (.element (pre := [src1 §"ab"]) (post := []) (by decide) (by decide)
        (.here ⟨by simp [Fresh, node], rfl⟩)))

theorem first : KeySet Toy.env (.str §"abc") §"sha256" [§"source", §"0"] (.becomes §"sha256: ab" §"sha256: abc") d2 d3 :=
  .replaced (vt := §"ab") (old := .str §"ab") (c := []) (w := .str §"abc") scalar_hash
    (.key (pre := [pkg]) (post := d1.drop 2) (c := []) (cs := [src1 §"ab", src2 [hash]]) (cs' := [src1 §"abc", src2 [hash]]) (by decide)
      (by simp [Fresh, pkg, node])
      (.element (pre := []) (post := [src2 [hash]]) (by decide) (by decide)
        (.here ⟨[scalar §"url" §"http://x" (.str §"http://x") §"# [unix]", comment §"# checked"], [], rfl, rfl,
          by simp [Fresh, node]⟩)))

def table : List (Str × Fetcher) := [(§"/source/0", .http §"p_0" §"http://x"), (§"/source/1", .http §"p_1" §"http://y")]

theorem hashes : HashesBumped Toy.env id world.net world.order (recipe vars1 d1) [.added §"sha256: abc", .becomes §"sha256: ab" §"sha256: abc"]
    vars1 d1 vars1 d3 :=
  .byKeys (tbl := table) (hashes := [([§"source", §"1"], §"abc"), ([§"source", §"0"], §"abc")]) (by decide +kernel)
    (by rintro v ⟨_, ⟨_, _, h⟩, _⟩; simp [table] at h) (by decide) (by decide) (by decide)
    (by
      intro h hh
      rcases List.mem_cons.1 hh with rfl | hh
      · exact ⟨§"p_1", §"http://y", by decide, by decide⟩
      · rcases List.mem_cons.1 hh with rfl | hh
        · exact ⟨§"p_0", §"http://x", by decide, by decide⟩
        · cases hh)
    (.cons second (.cons first .nil))

theorem bumped : Bumped Toy.env id world args [.becomes §"number: 5  # [win]" §"number: 0",
    .becomes §"{% set version = \"1.0\" %}" §"{% set version = \"2.0\" %}",
    .added §"sha256: abc", .becomes §"sha256: ab" §"sha256: abc"] vars0 d0 vars1 d3 :=
  .version (t := §"2.0") (o := recipe vars0 d0) (o1 := recipe vars0 d1) (o2 := recipe vars1 d1)
    (v := .dict [(§"number", .int 5), (§"noarch", .str §"generic")]) (v1 := .flt §"1.0") rfl
    (opened writable0 (by decide +kernel) (by simp [Fresh, d0, pkg, node])) (by decide +kernel) number
    (opened writable0 (by decide +kernel) (by simp [Fresh, d1, pkg, node])) (by decide +kernel) version
    (opened writable1 (by decide +kernel) (by simp [Fresh, d1, pkg, node])) hashes

theorem noHashType : NoHashType (recipeText vars0 d0) := by
  unfold NoHashType
  decide +kernel

example : goodArgs args ∧ world.variants.Perm hashTypeLines ∧ OkL Toy.env d3 :=
  ⟨⟨by decide, by decide, Or.inr rfl⟩, .refl _, okLB_sound _ _ (by decide +kernel)⟩

/-- What the theorem gives for this run. -/
example : bumpRecipe Toy.env id world args = ⟨.exit 0, some §"{% set version = \"2.0\" %}

package:
  name: p
  version: {{ version }}

source:
  - url: http://x  # [unix]
    # checked
    sha256: abc
  - url: http://y
    fn: y
    sha256: abc

build:
  number: 0
  noarch: generic  # why
", none⟩ := by
  obtain ⟨_, _, _, _, _, h⟩ := C100_bump_changes_only_these_lines_partial Toy.env id world args _ vars0 vars1 d0 d3
    ⟨by decide, by decide, Or.inr rfl⟩ (fun l => List.reverse_perm l) (.refl _) rfl rfl noHashType bumped (okLB_sound _ _ (by decide +kernel))
  rw [h]
  decide +kernel

end BumpFileExample

/-! ## Where the full statement fails -/

/-- A run takes the selector behind the number out of the file: the number is now given on all platforms. -/
theorem C100_selector_lost_violation :
    bumpRecipe Toy.env id (exBumpFile §"build:\n  number: 5  # [win]\n  skip: true\n") { buildNum := true } =
    ⟨.exit 0, some §"build:\n  number: 6\n  skip: true\n", none⟩ := by decide +kernel

/-- A run lays the whole file out anew: lines that have nothing to do with the number change. -/
theorem C100_layout_violation :
    bumpRecipe Toy.env id (exBumpFile §"about:\n  tags:\n    - x # y\n    - 'z'\n\n\nbuild:\n  number: 5\n") { buildNum := true } =
    ⟨.exit 0, some §"about:\n  tags:\n    - x  # y\n    - z\n\nbuild:\n  number: 6\n", none⟩ := by decide +kernel

end Crm
