import Verif.Spec.BumpSource
import Verif.Props.BumpArchive
import Verif.Props.TemplateSection
import Verif.Props.BumpFile

/-! # The hashes of a file's sources after a bump (C110) -/

namespace Crm
open Spec Spec.Doc

theorem leadsTo_valueTexts {path : List Str} {ds : List Doc} {d : Doc} (h : LeadsTo path ds d) : ∀ s ∈ d.valueTexts, s ∈ valueTextsL ds := by
  induction h with
  | here _ => exact valueTextsL_mem (by simp)
  | key _ _ ih => exact fun s hs => valueTextsL_mem (List.mem_append_right _ (List.mem_cons_self ..)) s (ih s hs)
  | element _ _ ih => exact fun s hs => valueTextsL_mem (List.mem_append_right _ (List.mem_cons_self ..)) s (ih s hs)

theorem keyOf_key {d : Doc} {k : Str} (h : d.keyOf = some k) : d.node.key = true := by
  cases d <;> first | (simp [Doc.keyOf] at h; done) | simp [node]

/-- What a name finds below an entry is a key, unless the name is also a value. -/
theorem named_key {x m : Node} {ds : List Doc} {k : Str} (hd : isDigitS k = false) (hn : x.children = nodes ds) (hv : k ∉ valueTextsL ds)
    (h : lookup x [k] = some m) : m.key = true := by
  rw [lookup] at h
  cases hc : child x k with
  | none => rw [hc] at h; cases h
  | some y =>
    rw [hc] at h
    have : y = m := by simpa [lookup] using h
    subst this
    obtain ⟨pre, d, post, _, rfl, hp⟩ := child_picks hn hv hc
    unfold Picks at hp
    rw [if_neg (by simp [hd])] at hp
    exact keyOf_key hp.1

theorem lookupD_values {k : Str} {v : PyVal} (g : Str × PyVal → PyVal) : ∀ {d : List (Str × PyVal)}, lookupD k d = some v →
    lookupD k (d.map fun kv => (kv.1, g kv)) = some (g (k, v)) ∧ (k, v) ∈ d
  | [], h => by cases h
  | (l, w) :: d, h => by
    simp only [lookupD, List.map_cons] at h ⊢
    split at h
    · rename_i hl
      subst hl
      injection h with h
      subst h
      simp
    · rename_i hl
      rw [if_neg hl]
      have := lookupD_values g h
      exact ⟨this.1, by simp [this.2]⟩

theorem url_filled {E : Env} {schema : Schema} {vars : List (Str × PyVal)} {n : Nat} {raw w : PyVal} {p s url : Str}
    (h : UrlText raw p s) (hf : Filled E schema vars n raw w) (hu : Fills E schema vars s (.str url)) : SourceUrl w p url := by
  have hd : ∀ {d w n}, lookupD §"url" d = some (.str s) → Filled E schema vars n (.dict d) w →
      ∃ d', w = .dict d' ∧ lookupD §"url" d' = some (.str url) := by
    intro d w n hl hf
    obtain ⟨g, m, rfl, hg⟩ := filled_dict hf
    obtain ⟨h1, h2⟩ := lookupD_values g hl
    refine ⟨_, rfl, ?_⟩
    rw [h1, filled_str (hg _ h2) hu]
  cases h with
  | one hl =>
    obtain ⟨d', rfl, h2⟩ := hd hl hf
    exact .one (u := .str url) h2 (by simp)
  | @element l i d _ hi hl =>
    obtain ⟨g, m, rfl, hg⟩ := filled_list hf
    obtain ⟨d', h1, h2⟩ := hd hl (hg _ (List.mem_of_getElem? hi))
    refine .element (u := .str url) (d := d') ?_ h2 (by simp)
    rw [List.getElem?_map, hi, Option.map_some, h1]

theorem newVersion_at {t : Str} {vars vars' : List (Str × PyVal)} {r : Recipe} (h : NewVersion t vars vars') (hr : r.vars = vars) :
    (vars' = vars ∧ atVersion t r = r) ∨ (atVersion t r = r.setVariable §"version" (.str t) ∧
      ∃ pre old post, vars = pre ++ (§"version", old) :: post ∧ vars' = pre ++ (§"version", .str t) :: post ∧ ∀ e ∈ pre, e.1 ≠ §"version") := by
  cases h with
  | @byVariable pre old post h1 h2 =>
    refine Or.inr ⟨?_, pre, old, post, rfl, rfl, h1⟩
    unfold atVersion
    rw [if_neg]
    unfold Recipe.getVariable
    rw [hr, lookupD_mid §"version" old post pre (by
      intro hm
      obtain ⟨e, he, hk⟩ := List.mem_map.1 hm
      exact h1 e he hk)]
    intro h
    injection h with h
    exact h2 h
  | noVariable h1 =>
    refine Or.inl ⟨rfl, ?_⟩
    unfold atVersion
    rw [if_pos]
    unfold Recipe.getVariable
    rw [hr, (lookupD_none _ _).2 (by
      intro hm
      obtain ⟨e, he, hk⟩ := List.mem_map.1 hm
      exact h1 e he hk)]

/-- C110 for a file: when `bump-recipe` succeeds with a target version on a file of the old format, then every source whose `url` is a
text gets the hash of what was downloaded from the URL that this text says under the definitions of the file with the new version. -/
theorem C110_file_partial (E : Env) (sha : Str → Str) (W : BumpWorld) (args : BumpArgs) (vars vars' : List (Str × PyVal))
    (ds : List Doc) (r : Recipe) (t c p s url : Str) (cs : List Doc) (raw w : PyVal) (hord : ∀ l, (W.order l).Perm l)
    (hvar : W.variants.Perm hashTypeLines) (hfile : W.file = some (recipeText vars ds)) (hhash : NoHashType (recipeText vars ds))
    (ht : args.target = some t) (ho : Opened E vars ds r) (hnew : NewVersion t vars vars')
    (hsrc : SourceSection E ds c cs raw) (hf : Filled E .v0 vars' E.recLimit raw w) (hu : UrlText raw p s)
    (hurl : Fills E .v0 vars' s (.str url)) (hok : (bumpRecipe E sha W args).stop = .exit 0) :
    ∃ (r' : Recipe) (hash : Str), shown args (bumpRecipe E sha W args) = some r'.render ∧
      (getSha256 sha (W.net p url)).1 = .ok hash ∧
      (PlainHash E hash → r'.getValue E (p ++ §"/sha256") = .ok (.str hash) ∨
        ∃ x ∈ [§"sha256", §"hash", §"hash_val", §"hash_value"], x ∈ vars.map (·.1) ∧ r'.getVariable x = .ok (.str hash) ∧
          p = §"/source" ∧ §"/source/sha256" ∈ r'.getVariableReferences x) := by
  have hs := ho.stored
  have hsch : r.schema = .v0 := hs.schema
  have hval : (atVersion t r).getValue E §"/source" none true = .ok w := by
    rcases newVersion_at hnew hs.vars with ⟨rfl, he⟩ | ⟨he, pre, old, post, rfl, rfl, h1⟩
    · rw [he]
      exact (C111_section_partial E vars' vars' ds ds r [] [§"source"] _ c cs raw w none ho.definitions ho.document ho.opened hsch .nil
        hs.fine (by decide) hsrc.place hsrc.noText hsrc.oneElement hsrc.read hf).2
    · rw [he]
      exact (C111_section_partial E _ _ ds ds r [.setVariable §"version" (.str t)] [§"source"] _ c cs raw w none ho.definitions
        ho.document ho.opened hsch (.cons (.setVariable §"version" (.str t) (.change pre old post h1)) .nil)
        hs.fine (by decide) hsrc.place hsrc.noText hsrc.oneElement hsrc.read hf).2
  have hroot : r.root.children = nodes ds := by rw [hs.root]; rfl
  have hfine : ∀ x ∈ ds, Fine E x := fun x hx => Or.inl ((okL_iff ds).1 hs.fine x hx)
  have hreads : readsRecipe E W r := ⟨_, hfile, by rw [noHashType_kept hvar hhash]; exact ho.opened⟩
  have := C110_hash_of_the_new_archive_partial E sha W args r t p url w hord hreads ht hval (url_filled hu hf hurl) ?_ ?_ hok
  · obtain ⟨r', hash, h1, h2, h3⟩ := this
    refine ⟨r', hash, h1, h2, fun hp => (h3 hp).imp_right ?_⟩
    rintro ⟨x, hx, hl, h⟩
    refine ⟨x, hx, ?_, h⟩
    unfold Recipe.listVariables at hl
    rwa [hs.vars] at hl
  · intro l i hl hi
    subst hl
    have hlen : ∃ l0, raw = .list l0 ∧ l0.length = l.length := by
      cases hu with
      | one _ => obtain ⟨g, m, hw, _⟩ := filled_dict hf; cases hw
      | @element l0 _ _ _ _ _ =>
        obtain ⟨g, m, hw, _⟩ := filled_list hf
        injection hw with hw
        exact ⟨l0, rfl, by rw [hw]; simp⟩
    obtain ⟨l0, h1, h2⟩ := hlen
    obtain ⟨first, rest, h3⟩ := hsrc.elements l0 i h1 (by omega)
    exact ⟨_, (leadsTo_lookup h3 r.root hroot hfine).1, by simp [node, Node.isCollectionElement, Node.isSentinel]⟩
  · intro comps m hcomp he hm
    cases hu with
    | one _ =>
      have : comps = [§"source", §"sha256"] := absPath_inj hcomp (by decide) (by rw [← he]; rfl)
      subst this
      rw [show [§"source", §"sha256"] = [§"source"] ++ [§"sha256"] from rfl, lookup_append,
        (leadsTo_lookup hsrc.place r.root hroot hfine).1] at hm
      refine named_key (x := (block §"source" c cs).node) (ds := cs) rfl rfl ?_ hm
      exact fun hc => hsrc.names (leadsTo_valueTexts hsrc.place _ hc)
    | @element l i d _ hi _ =>
      have : comps = [§"source", natStr i, §"sha256"] := absPath_inj hcomp (elem_comps i) (by rw [← he]; simp [absPath])
      subst this
      obtain ⟨first, rest, h3⟩ := hsrc.elements l i rfl (by
        have := List.getElem?_eq_some_iff.1 hi
        exact this.1)
      rw [show [§"source", natStr i, §"sha256"] = [§"source", natStr i] ++ [§"sha256"] from rfl, lookup_append,
        (leadsTo_lookup h3 r.root hroot hfine).1] at hm
      refine named_key (x := (elem first rest).node) (ds := first :: rest) rfl rfl ?_ hm
      exact fun hc => hsrc.names (leadsTo_valueTexts h3 _ hc)

/-! ## Files that meet the hypotheses -/

namespace BumpSourceExample

def vars : List (Str × PyVal) := [(§"version", .str §"1.0.1")]
def vars' : List (Str × PyVal) := [(§"version", .str §"2.0.1")]

def urlLine : Doc := scalar §"url" §"http://x/p-{{ version }}.tgz" (.str §"http://x/p-{{ version }}.tgz") []
def hashLine : Doc := scalar §"sha256" §"aa" (.str §"aa") []
def otherLine : Doc := scalar §"url" §"http://x/q" (.str §"http://x/q") []

def file (source : List Doc) : List Doc :=
  [ block §"package" [] [scalar §"name" §"p" (.str §"p") []], block §"source" [] source, block §"build" [] [scalar §"number" §"5" (.int 5) []] ]

/-- One source, and a list of two. -/
def one : List Doc := [urlLine, hashLine]
def two : List Doc := [elem urlLine [hashLine], elem otherLine []]

def recipe (ds : List Doc) : Recipe :=
  match Recipe.ofString Toy.env (recipeText vars ds) with
  | .ok o => o
  | .error _ => ⟨[], {}, .v0, [], [], false⟩

theorem opened {ds : List Doc} (h1 : documentB Toy.env ds = true) (h2 : (Recipe.ofString Toy.env (recipeText vars ds)).toOption.isSome = true)
    (h3 : Fresh §"schema_version" ds) : Opened Toy.env vars ds (recipe ds) := by
  refine ⟨⟨by decide +kernel, by decide +kernel, by decide +kernel, by decide +kernel, by decide +kernel⟩, documentB_sound h1, h3, ?_⟩
  unfold recipe
  cases h : Recipe.ofString Toy.env (recipeText vars ds) with
  | error e => rw [h] at h2; cases h2
  | ok o => rfl

theorem opened_one : Opened Toy.env vars (file one) (recipe (file one)) :=
  opened (by decide +kernel) (by decide +kernel) (by simp [Fresh, file, node])
theorem opened_two : Opened Toy.env vars (file two) (recipe (file two)) :=
  opened (by decide +kernel) (by decide +kernel) (by simp [Fresh, file, node])

theorem new : NewVersion §"2.0.1" vars vars' := .byVariable (pre := []) (by simp) (by simp)

theorem place (src : List Doc) : LeadsTo [§"source"] (file src) (block §"source" [] src) :=
  .here (pre := [block §"package" [] [scalar §"name" §"p" (.str §"p") []]]) (post := [block §"build" [] [scalar §"number" §"5" (.int 5) []]])
    (by unfold Picks; rw [if_neg (by decide)]; exact ⟨rfl, by simp [Fresh, node]⟩)

def rawOne : List (Str × PyVal) := [(§"url", .str §"http://x/p-{{ version }}.tgz"), (§"sha256", .str §"aa")]
def rawTwo : List PyVal := [.dict rawOne, .dict [(§"url", .str §"http://x/q")]]

theorem section_one : SourceSection Toy.env (file one) [] one (.dict rawOne) :=
  ⟨place one, .itself (by decide +kernel), fun _ _ _ h => (by cases h), fun _ _ h => (by cases h), fun _ _ h => (by cases h),
    by decide +kernel⟩

theorem section_two : SourceSection Toy.env (file two) [] two (.list rawTwo) := by
  refine ⟨place two, .itself (by decide +kernel), fun _ _ _ h => (by cases h), fun _ _ h => (by cases h), ?_, by decide +kernel⟩
  intro l j hl hj
  injection hl with hl
  subst hl
  have : j = 0 ∨ j = 1 := by simp only [rawTwo, List.length_cons, List.length_nil] at hj; omega
  rcases this with rfl | rfl
  · exact ⟨urlLine, [hashLine], .key (k := §"source") (pre := [block §"package" [] [scalar §"name" §"p" (.str §"p") []]])
      (by unfold Picks; rw [if_neg (by decide)]; exact ⟨rfl, by simp [Fresh, node]⟩)
      (.here (pre := []) (post := [elem otherLine []]) (by unfold Picks; rw [if_pos (by decide)]; exact ⟨rfl, by decide⟩))⟩
  · exact ⟨otherLine, [], .key (k := §"source") (pre := [block §"package" [] [scalar §"name" §"p" (.str §"p") []]])
      (by unfold Picks; rw [if_neg (by decide)]; exact ⟨rfl, by simp [Fresh, node]⟩)
      (.here (pre := [elem urlLine [hashLine]]) (post := []) (by unfold Picks; rw [if_pos (by decide)]; exact ⟨rfl, by decide⟩))⟩

def segs : List Seg := [.text §"http://x/p-", .hole §" " (.access §"version" none .none [] []) §" ", .text §".tgz"]

theorem url_one : Fills Toy.env .v0 vars' §"http://x/p-{{ version }}.tgz" (.str §"http://x/p-2.0.1.tgz") :=
  ⟨segs, rfl, segB_sound (by decide +kernel), .inl ⟨_, _, _, .tail _ (.head _)⟩, by decide +kernel⟩
theorem url_two : Fills Toy.env .v0 vars' §"http://x/q" (.str §"http://x/q") :=
  fills_plain (by decide) ⟨by decide, by decide, by rintro c ⟨⟩; decide⟩ (by decide +kernel)
theorem hash_one : Fills Toy.env .v0 vars' §"aa" (.str §"aa") :=
  fills_plain (by decide) ⟨by decide, by decide, by rintro c ⟨⟩; decide⟩ (by decide +kernel)

def after : PyVal → PyVal
  | .str t => if t = §"http://x/p-{{ version }}.tgz" then .str §"http://x/p-2.0.1.tgz" else .str t
  | v => v

theorem filled_one (n : Nat) : Filled Toy.env .v0 vars' (n + 2) (.dict rawOne) (.dict (rawOne.map fun kv => (kv.1, after kv.2))) := by
  refine .dict (n := n + 1) (fun kv => after kv.2) ?_
  intro kv hkv
  simp only [rawOne, List.mem_cons, List.not_mem_nil, or_false] at hkv
  rcases hkv with rfl | rfl
  · exact .text url_one trivial
  · exact .text hash_one trivial

theorem filled_other (n : Nat) : Filled Toy.env .v0 vars' (n + 2) (.dict [(§"url", .str §"http://x/q")]) (.dict [(§"url", .str §"http://x/q")]) := by
  refine .dict (n := n + 1) (kvs := [(§"url", .str §"http://x/q")]) (fun kv => kv.2) ?_
  intro kv hkv
  rw [List.mem_singleton.1 hkv]
  exact .text url_two trivial

theorem filled_two : Filled Toy.env .v0 vars' Toy.env.recLimit (.list rawTwo)
    (.list (rawTwo.map fun v => match v with | .dict d => .dict (d.map fun kv => (kv.1, after kv.2)) | v => v)) := by
  refine .list (n := 49) _ ?_
  intro x hx
  simp only [rawTwo, List.mem_cons, List.not_mem_nil, or_false] at hx
  rcases hx with rfl | rfl
  · exact filled_one 47
  · exact filled_other 47

def args : BumpArgs := { target := some §"2.0.1" }
def world (src : List Doc) : BumpWorld := BumpArchiveExample.world (recipeText vars (file src))

theorem run_one : (bumpRecipe Toy.env BumpArchiveExample.hash (world one) args).stop = .exit 0 := by decide +kernel
theorem run_two : (bumpRecipe Toy.env BumpArchiveExample.hash (world two) args).stop = .exit 0 := by decide +kernel

theorem noHashType_one : NoHashType (recipeText vars (file one)) := by
  unfold NoHashType
  decide +kernel
theorem noHashType_two : NoHashType (recipeText vars (file two)) := by
  unfold NoHashType
  decide +kernel

/-- The first source of the list, and the only source of the other file. -/
example : ∃ (r' : Recipe) (hash : Str), shown args (bumpRecipe Toy.env BumpArchiveExample.hash (world two) args) = some r'.render ∧
    (getSha256 BumpArchiveExample.hash ((world two).net §"/source/0" §"http://x/p-2.0.1.tgz")).1 = .ok hash := by
  obtain ⟨r', hash, h1, h2, _⟩ := C110_file_partial Toy.env BumpArchiveExample.hash (world two) args vars vars' (file two)
    (recipe (file two)) §"2.0.1" [] (§"/source/" ++ natStr 0) _ §"http://x/p-2.0.1.tgz" two (.list rawTwo) _ (fun _ => .refl _) (.refl _) rfl
    noHashType_two rfl opened_two new section_two filled_two (.element (i := 0) (d := rawOne) rfl rfl) url_one run_two
  exact ⟨r', hash, h1, h2⟩
example : ∃ (r' : Recipe) (hash : Str), shown args (bumpRecipe Toy.env BumpArchiveExample.hash (world one) args) = some r'.render ∧
    (getSha256 BumpArchiveExample.hash ((world one).net §"/source" §"http://x/p-2.0.1.tgz")).1 = .ok hash := by
  obtain ⟨r', hash, h1, h2, _⟩ := C110_file_partial Toy.env BumpArchiveExample.hash (world one) args vars vars' (file one)
    (recipe (file one)) §"2.0.1" [] §"/source" _ §"http://x/p-2.0.1.tgz" one (.dict rawOne) _ (fun _ => .refl _) (.refl _) rfl
    noHashType_one rfl opened_one new section_one (filled_one 48) (.one rfl) url_one run_one
  exact ⟨r', hash, h1, h2⟩

end BumpSourceExample

end Crm
