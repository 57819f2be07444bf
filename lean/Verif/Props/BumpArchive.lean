import Verif.Spec.BumpArchive
import Verif.Props.BumpOrder

/-!
# `bump-recipe` hashes the archive of the new version (C110)
-/

namespace Crm
open Spec

theorem insertD_keeps_mem {k p : Str} {f g : Fetcher} {acc : List (Str × Fetcher)} (h : (p, g) ∈ acc) (hne : p ≠ k) :
    (p, g) ∈ insertD k f acc := by
  induction acc with
  | nil => cases h
  | cons x acc ih =>
    obtain ⟨a, b⟩ := x
    rw [insertD]
    split
    · rename_i he
      rcases List.mem_cons.1 h with h | h
      · injection h with h1 h2; subst h1; exact absurd he hne
      · exact List.mem_cons_of_mem _ h
    · rcases List.mem_cons.1 h with h | h
      · rw [h]; exact List.mem_cons_self
      · exact List.mem_cons_of_mem _ (ih h)

theorem insertD_self_mem (k : Str) (f : Fetcher) (acc : List (Str × Fetcher)) : (k, f) ∈ insertD k f acc := by
  induction acc with
  | nil => simp [insertD]
  | cons x acc ih =>
    obtain ⟨a, b⟩ := x
    rw [insertD]
    split
    · rename_i he; subst he; exact List.mem_cons_self
    · exact List.mem_cons_of_mem _ ih

theorem lookupD_found {k : Str} {w : PyVal} {l : List (Str × PyVal)} (h : lookupD k l = some w) : (k, w) ∈ l := by
  induction l with
  | nil => cases h
  | cons x l ih =>
    obtain ⟨a, b⟩ := x
    rw [lookupD] at h
    split at h
    · rename_i he; subst he; injection h with h; subst h; exact List.mem_cons_self
    · exact List.mem_cons_of_mem _ (ih h)

theorem sourceFetcher_url {schema : Schema} {name : Str} {d : List (Str × PyVal)} {u : PyVal} {o : Option Fetcher}
    (hu : lookupD §"url" d = some u) (hn : u ≠ .none) (h : sourceFetcher schema name (.dict d) = .ok o) :
    o = some (.http name (pyStr u)) := by
  unfold sourceFetcher sourceGet at h
  simp only [hu, bind, Except.bind, Option.getD_some] at h
  cases schema <;> simp [renderGitKey, optionalStr, hn] at h <;> exact h.symm

theorem fetchersGo_earlier {schema : Schema} {name : Str} {count : Nat} {ignore : Bool} {i j : Nat} {l : List PyVal}
    {acc tbl : List (Str × Fetcher)} {f : Fetcher} (h : fetchersGo schema name count true ignore i l acc = .ok tbl)
    (hj : j < i) (hm : (§"/source/" ++ natStr j, f) ∈ acc) : (§"/source/" ++ natStr j, f) ∈ tbl := by
  induction l generalizing i acc with
  | nil => simp only [fetchersGo] at h; injection h with h; subst h; exact hm
  | cons s l ih =>
    simp only [fetchersGo, bind, Except.bind, if_true] at h
    split at h
    · cases h
    · split at h
      · refine ih h (by omega) (insertD_keeps_mem hm ?_)
        intro he
        have := natStr_injective (List.append_cancel_left he)
        omega
      · split at h
        · exact ih h (by omega) hm
        · cases h

theorem fetchersGo_element {schema : Schema} {name : Str} {count : Nat} {ignore : Bool} {i k : Nat} {l : List PyVal}
    {acc tbl : List (Str × Fetcher)} {d : List (Str × PyVal)} {u : PyVal}
    (h : fetchersGo schema name count true ignore i l acc = .ok tbl) (hk : l[k]? = some (.dict d))
    (hu : lookupD §"url" d = some u) (hn : u ≠ .none) :
    ∃ nm, (§"/source/" ++ natStr (i + k), Fetcher.http nm (pyStr u)) ∈ tbl := by
  induction l generalizing i acc k with
  | nil => simp at hk
  | cons s l ih =>
    simp only [fetchersGo, bind, Except.bind, if_true] at h
    split at h
    · cases h
    · rename_i o ho
      cases k with
      | zero =>
        simp only [List.getElem?_cons_zero, Option.some.injEq] at hk
        subst hk
        have := sourceFetcher_url hu hn ho
        subst this
        exact ⟨_, fetchersGo_earlier h (by omega) (insertD_self_mem _ _ _)⟩
      | succ k =>
        simp only [List.getElem?_cons_succ] at hk
        split at h
        · obtain ⟨nm, hm⟩ := ih h hk
          exact ⟨nm, by rw [show i + (k + 1) = i + 1 + k from by omega]; exact hm⟩
        · split at h
          · obtain ⟨nm, hm⟩ := ih h hk
            exact ⟨nm, by rw [show i + (k + 1) = i + 1 + k from by omega]; exact hm⟩
          · cases h

theorem fetchersGo_numbers {schema : Schema} {name : Str} {count : Nat} {ignore : Bool} {i : Nat} {l : List PyVal}
    {acc tbl : List (Str × Fetcher)} (h : fetchersGo schema name count true ignore i l acc = .ok tbl) {B : Nat}
    (hB : i + l.length ≤ B) (hacc : ∀ kv ∈ acc, ∃ j, j < B ∧ kv.1 = §"/source/" ++ natStr j) :
    ∀ kv ∈ tbl, ∃ j, j < B ∧ kv.1 = §"/source/" ++ natStr j := by
  induction l generalizing i acc with
  | nil => simp only [fetchersGo] at h; injection h with h; subst h; exact hacc
  | cons s l ih =>
    simp only [List.length_cons] at hB
    simp only [fetchersGo, bind, Except.bind, if_true] at h
    split at h
    · cases h
    · split at h
      · refine ih h (by omega) ?_
        intro kv hkv
        rcases mem_insertD hkv with rfl | hkv
        · exact ⟨i, by omega, rfl⟩
        · exact hacc kv hkv
      · split at h
        · exact ih h (by omega) hacc
        · cases h

theorem fetchersOf_url {E : Env} {r : Recipe} {b : Bool} {tbl : List (Str × Fetcher)} {v : PyVal} {p url : Str}
    (h : fetchersOf E r b = .ok tbl) (hv : r.getValue E §"/source" (some (.list [])) true = .ok v) (hu : SourceUrl v p url) :
    ∃ name, (p, Fetcher.http name url) ∈ tbl := by
  unfold fetchersOf at h
  simp only [hv, bind, Except.bind] at h
  split at h
  · cases h
  · cases hu with
    | one h1 h2 =>
      simp only [fetchersGo, bind, Except.bind, Bool.false_eq_true, if_false, if_true] at h
      split at h
      · cases h
      · rename_i o ho
        have := sourceFetcher_url h1 h2 ho
        subst this
        simp only [insertD] at h
        injection h with h
        subst h
        exact ⟨_, List.mem_cons_self⟩
    | element h0 h1 h2 =>
      simp only at h
      obtain ⟨nm, hm⟩ := fetchersGo_element h h0 h1 h2
      exact ⟨nm, by simpa using hm⟩

theorem fetchersOf_numbers {E : Env} {r : Recipe} {b : Bool} {tbl : List (Str × Fetcher)} {v : PyVal} {i : Nat}
    (h : fetchersOf E r b = .ok tbl) (hv : r.getValue E §"/source" (some (.list [])) true = .ok v)
    (hi : absPath [§"source", natStr i] ∈ httpPaths tbl) : ∃ l, v = .list l ∧ i < l.length := by
  obtain ⟨name, url, hm⟩ := httpPaths_mem.1 hi
  unfold fetchersOf at h
  simp only [hv, bind, Except.bind] at h
  split at h
  · cases h
  · split at h
    · rename_i l
      obtain ⟨j, hj, he⟩ := fetchersGo_numbers (B := l.length) h (by omega) (by simp) _ hm
      refine ⟨l, rfl, ?_⟩
      have : natStr i = natStr j := by
        have he' : absPath [§"source", natStr i] = §"/source/" ++ natStr i := by simp [absPath]
        rw [he'] at he
        exact List.append_cancel_left he
      have := natStr_injective this
      omega
    · exfalso
      simp only [fetchersGo, bind, Except.bind, Bool.false_eq_true, if_false] at h
      split at h
      · cases h
      · have hlen : absPath [§"source", natStr i] ≠ §"/source" := by
          intro he
          have := congrArg List.length he
          simp [absPath] at this
        split at h
        · simp only [insertD] at h
          injection h with h
          subst h
          simp only [List.mem_cons, Prod.mk.injEq, List.not_mem_nil, or_false] at hm
          exact hlen hm.1
        · split at h
          · injection h with h; subst h; cases hm
          · cases h

theorem getValueIn_found {E : Env} {root : Node} {path : Str} {ctx : Option JinjaCtx} {v d : PyVal}
    (h : getValueIn E root path none ctx = .ok v) : getValueIn E root path (some d) ctx = .ok v := by
  unfold getValueIn at h ⊢
  cases hs : strToStack path with
  | error e => rw [hs] at h; cases h
  | ok st =>
    rw [hs] at h
    simp only [bind, Except.bind] at h ⊢
    cases hn : (traverse root st).bind (nodeAt root) with
    | none => rw [hn] at h; cases h
    | some n => rw [hn] at h; exact h

theorem isDigitS_s (c : Str) : isDigitS ('s' :: c) = false := by
  have : isDigitC 's' = false := by decide
  simp [isDigitS, this]

theorem updateVersion_source {E : Env} {r1 r2 : Recipe} {t : Str} (h : updateVersion E r1 t = .ok r2) :
    r2.schema = r1.schema ∧ r2.vars = (atVersion t r1).vars ∧
      (∀ bs, lookup r2.root (§"source" :: bs) = lookup r1.root (§"source" :: bs)) := by
  have hk := updateVersion_keeps h
  refine ⟨hk.schema, ?_, fun bs => hk.sections _ bs (by decide) (by decide)⟩
  unfold updateVersion at h
  obtain ⟨old, ho, h⟩ := bind_ok.1 h
  rw [orRaise_ok] at ho
  unfold atVersion
  rw [ho]
  by_cases hn : old = .none
  · subst hn
    rw [if_pos rfl]
    rw [if_neg (by simp)] at h
    obtain ⟨b, _, h⟩ := bind_ok.1 h
    refine (patch_keeps (rest := []) comps_package ?_ (by simp) (by decide) h).2
    cases b <;> simp
  · rw [if_neg (by intro he; injection he with he; exact hn he)]
    rw [if_pos hn] at h
    injection h with h
    rw [← h]

theorem atVersion_root (t : Str) (r : Recipe) : (atVersion t r).root = r.root ∧ (atVersion t r).schema = r.schema := by
  unfold atVersion
  split <;> exact ⟨rfl, rfl⟩

theorem atVersion_vars {t : Str} {r r1 : Recipe} (h : r1.vars = r.vars) : (atVersion t r1).vars = (atVersion t r).vars := by
  unfold atVersion
  rw [show r1.getVariable §"version" (some .none) = r.getVariable §"version" (some .none) from by
    unfold Recipe.getVariable; rw [h]]
  split
  · exact h
  · simp [Recipe.setVariable, h]

theorem atVersion_names (t : Str) (r : Recipe) (x : Str) : x ∈ (atVersion t r).listVariables → x ∈ r.listVariables := by
  unfold atVersion
  split
  · exact id
  · rename_i hne
    intro h
    simp only [Recipe.listVariables, Recipe.setVariable] at h ⊢
    rw [List.mem_map] at h ⊢
    obtain ⟨kv, hkv, rfl⟩ := h
    rcases mem_insertD hkv with rfl | hkv
    · unfold Recipe.getVariable at hne
      split at hne
      · rename_i w hw
        exact ⟨(§"version", w), lookupD_found hw, rfl⟩
      · exact absurd rfl hne
    · exact ⟨kv, hkv, rfl⟩

/-- C110: when `bump-recipe` succeeds with a target version, then every source that has a URL in the recipe with the new
version gets the hash of what was downloaded from this URL, at the new version: either in its field `sha256`, or in the
hash variable this field uses.  Assumed: the elements of the list `/source` stand as `- key: …` in the file, an existing
`sha256` is a key, and YAML reads the hash as a text.  Missing: hashes that look like numbers
(`C69_number_violation`), and list elements that are written otherwise (`C47_template_source_violation`). -/
theorem C110_hash_of_the_new_archive_partial (E : Env) (sha : Str → Str) (W : BumpWorld) (args : BumpArgs) (r : Recipe)
    (t p url : Str) (v : PyVal) (hord : ∀ l, (W.order l).Perm l) (hr : readsRecipe E W r) (ht : args.target = some t)
    (hv : (atVersion t r).getValue E §"/source" none true = .ok v) (hurl : SourceUrl v p url)
    (hsrc : ∀ l i, v = .list l → i < l.length →
      ∃ m, lookup r.root [§"source", natStr i] = some m ∧ m.isCollectionElement = true)
    (hkey : ∀ comps m, (∀ c ∈ comps, Component c) → p ++ §"/sha256" = absPath comps → lookup r.root comps = some m → m.key = true)
    (hok : (bumpRecipe E sha W args).stop = .exit 0) :
    ∃ (r' : Recipe) (s : Str), shown args (bumpRecipe E sha W args) = some r'.render ∧
      (getSha256 sha (W.net p url)).1 = .ok s ∧
      (PlainHash E s → r'.getValue E (p ++ §"/sha256") = .ok (.str s) ∨
        ∃ x ∈ [§"sha256", §"hash", §"hash_val", §"hash_value"], x ∈ r.listVariables ∧ r'.getVariable x = .ok (.str s) ∧
          p = §"/source" ∧ §"/source/sha256" ∈ r'.getVariableReferences x) := by
  obtain ⟨_, content, r0, r', hf, hp, hb, hout⟩ := (C45_success E sha W args).1 hok
  obtain ⟨content', hf', hp'⟩ := hr
  rw [hf] at hf'; injection hf' with hf'; subst hf'
  rw [hp] at hp'; injection hp' with hp'; subst hp'
  have hshown : shown args (bumpRecipe E sha W args) = some r'.render := by
    unfold shown
    rcases hout with ⟨hd, he⟩ | ⟨hd, _, he⟩ <;> rw [he, hd] <;> rfl
  unfold bumpEdits at hb
  obtain ⟨r1, h1, hb⟩ := bind_ok.1 hb
  rw [ht] at hb
  simp only at hb
  obtain ⟨_, _, hb⟩ := bind_ok.1 hb
  obtain ⟨r2, h2, h3⟩ := bind_ok.1 hb
  obtain ⟨hk1, hv1⟩ := updateBuildNum_keeps h1
  obtain ⟨hs2, hv2, hl2⟩ := updateVersion_source h2
  rw [atVersion_vars hv1] at hv2
  have hlook : ∀ bs, lookup r2.root (§"source" :: bs) = lookup r0.root (§"source" :: bs) := fun bs =>
    (hl2 bs).trans (hk1.sections _ bs (by decide) (by decide))
  have hval : r2.getValue E §"/source" (some (.list [])) true = .ok v := by
    have hctx : r2.ctx = (atVersion t r0).ctx := by
      unfold Recipe.ctx
      rw [hv2, hs2, hk1.schema, (atVersion_root t r0).2]
    unfold Recipe.getValue at hv ⊢
    rw [hctx]
    have := getValueIn_lookup (E := E) (t := r0.root) (t' := r2.root) (q := [§"source"]) (by simp) (by decide) (hlook [])
      (some (.list [])) (some (atVersion t r0).ctx)
    rw [show absPath [§"source"] = §"/source" from rfl] at this
    simp only [if_true] at hv ⊢
    rw [this]
    rw [(atVersion_root t r0).1] at hv
    exact getValueIn_found hv
  refine ⟨r', ?_⟩
  have h3' := h3
  unfold updateSha256 at h3'
  obtain ⟨tbl, htbl, h4⟩ := bind_ok.1 h3'
  rw [orRaise_ok] at htbl
  obtain ⟨name, hm⟩ := fetchersOf_url htbl hval hurl
  by_cases hvar : ∀ x name url, [§"sha256", §"hash", §"hash_val", §"hash_value"].filter (fun x => decide (x ∈ r2.listVariables)) = [x] →
      tbl = [(§"/source", .http name url)] → §"/source/sha256" ∉ r2.getVariableReferences x
  · obtain ⟨s, hs, hread⟩ := C69_own_hash_partial E sha W.net W.order r2 r' tbl p name url hord htbl hm hvar
      (by
        intro i hi
        obtain ⟨l, hl, hlt⟩ := fetchersOf_numbers htbl hval hi
        rw [hlook]
        exact hsrc l i hl hlt)
      (by
        intro comps m hcomp he hlk
        refine hkey comps m hcomp he ?_
        obtain ⟨pc, hpc, rfl⟩ := httpPaths_keys htbl p (httpPaths_mem.2 ⟨_, _, hm⟩)
        have hcs : ∃ c cs, comps = ('s' :: c) :: cs := by
          cases comps with
          | nil => rcases hpc with rfl | ⟨i, rfl⟩ <;> simp [absPath] at he
          | cons b bs =>
            cases b with
            | nil =>
              cases bs with
              | nil => rcases hpc with rfl | ⟨i, rfl⟩ <;> simp [absPath] at he
              | cons b' bs => rcases hpc with rfl | ⟨i, rfl⟩ <;> simp [absPath] at he
            | cons ch b =>
              rcases hpc with rfl | ⟨i, rfl⟩
              · simp [absPath] at he
                exact ⟨b, bs, by rw [← he.1]⟩
              · simp [absPath] at he
                exact ⟨b, bs, by rw [← he.1]⟩
        obtain ⟨c, cs, rfl⟩ := hcs
        have hd : isDigitS ('s' :: c) = false := isDigitS_s c
        rw [← hk1.sections _ cs hd (by simp), ← (updateVersion_keeps h2).sections _ cs hd (by simp)]
        exact hlk) h3
    exact ⟨s, hshown, hs, fun hpl => Or.inl (hread hpl)⟩
  · simp only [Classical.not_forall, Classical.not_not] at hvar
    obtain ⟨x, nm, u, hx, htb, href⟩ := hvar
    rw [htb] at htbl
    obtain ⟨s, hs, hg, hroot⟩ := C69_variable E sha W.net W.order r2 r' x nm u htbl hx href h3
    rw [htb] at hm
    simp only [List.mem_cons, Prod.mk.injEq, Fetcher.http.injEq, List.not_mem_nil, or_false] at hm
    obtain ⟨rfl, rfl, rfl⟩ := hm
    refine ⟨s, hshown, hs, fun _ => Or.inr ⟨x, ?_, ?_, hg, rfl, ?_⟩⟩
    · have : x ∈ [x] := by simp
      rw [← hx] at this
      exact (List.mem_filter.1 this).1
    · have : x ∈ [x] := by simp
      rw [← hx] at this
      have := (List.mem_filter.1 this).2
      have h5 : x ∈ r2.listVariables := by simpa using this
      apply atVersion_names t r0
      unfold Recipe.listVariables at h5 ⊢
      rw [← hv2]
      exact h5
    · have hsch : r'.schema = r2.schema := (updateSha256_keeps hord h3).1.schema
      unfold Recipe.getVariableReferences at href ⊢
      rw [hroot, hsch]
      unfold Recipe.getVariable at hg
      split at hg
      · rename_i w hw
        rw [hw]
        split at href
        · cases href
        · exact href
      · cases hg

namespace BumpArchiveExample

/-- A server whose archives are their own names, and a hash that keeps the end of a text. -/
def world (file : Str) : BumpWorld := { exBumpWorld with file := some file, net := fun _ url _ => { exGood with chunks := [url] } }
def hash (s : Str) : Str := s.drop 9

def single : Str :=
  §"{% set version = \"1.0.1\" %}\n\npackage:\n  name: p\n  version: {{ version }}\n\nsource:\n  url: http://x/p-{{ version }}.tgz\n  sha256: aa\n\nbuild:\n  number: 5\n"
def listed : Str :=
  §"{% set version = \"1.0.1\" %}\n\npackage:\n  name: p\n  version: {{ version }}\n\nsource:\n  - url: http://x/p-{{ version }}.tgz\n    sha256: aa\n  - url: http://x/q\n\nbuild:\n  number: 5\n"

/-- The value of `/source` at the new version, and the sources in it. -/
example : (atVersion §"2.0.1" (Toy.recipe (String.ofList single))).getValue Toy.env §"/source" none true =
    .ok (.dict [(§"url", .str §"http://x/p-2.0.1.tgz"), (§"sha256", .str §"aa")]) := by decide +kernel
example : SourceUrl (.dict [(§"url", .str §"http://x/p-2.0.1.tgz"), (§"sha256", .str §"aa")]) §"/source" §"http://x/p-2.0.1.tgz" :=
  .one (u := .str §"http://x/p-2.0.1.tgz") rfl (by simp)
example : (atVersion §"2.0.1" (Toy.recipe (String.ofList listed))).getValue Toy.env §"/source" none true =
    .ok (.list [.dict [(§"url", .str §"http://x/p-2.0.1.tgz"), (§"sha256", .str §"aa")], .dict [(§"url", .str §"http://x/q")]]) := by
  decide +kernel
example : SourceUrl (.list [.dict [(§"url", .str §"http://x/p-2.0.1.tgz"), (§"sha256", .str §"aa")],
    .dict [(§"url", .str §"http://x/q")]]) §"/source/1" §"http://x/q" :=
  .element (i := 1) (u := .str §"http://x/q") rfl rfl (by simp)
example : let r := Toy.recipe (String.ofList listed)
    (lookup r.root [§"source", §"0"]).map (·.isCollectionElement) = some true ∧
    (lookup r.root [§"source", §"1"]).map (·.isCollectionElement) = some true ∧
    (lookup r.root [§"source", §"0", §"sha256"]).map (·.key) = some true ∧
    lookup r.root [§"source", §"1", §"sha256"] = none := by decide +kernel

/-- The hashes written are those of the archives of the new version. -/
example : bumpRecipe Toy.env hash (world single) { target := some §"2.0.1" } =
    ⟨.exit 0, some §"{% set version = \"2.0.1\" %}\n\npackage:\n  name: p\n  version: {{ version }}\n\nsource:\n  url: http://x/p-{{ version }}.tgz\n  sha256: p-2.0.1.tgz\n\nbuild:\n  number: 0\n", none⟩ := by
  decide +kernel
example : bumpRecipe Toy.env hash (world listed) { target := some §"2.0.1" } =
    ⟨.exit 0, some §"{% set version = \"2.0.1\" %}\n\npackage:\n  name: p\n  version: {{ version }}\n\nsource:\n  - url: http://x/p-{{ version }}.tgz\n    sha256: p-2.0.1.tgz\n  - url: http://x/q\n    sha256: q\n\nbuild:\n  number: 0\n", none⟩ := by
  decide +kernel

def newFormat : Str :=
  §"schema_version: 1\n\ncontext:\n  version: 1.0.1\n\npackage:\n  name: p\n  version: ${{ version }}\n\nsource:\n  url: http://x/p-${{ version }}.tgz\n  sha256: aa\n\nbuild:\n  number: 5\n"

end BumpArchiveExample

/-- C110 is false of files of the new format whose version is a variable: the version in the file stays (C48), but the
archive hashed is that of the new version, so the file written pairs the URL of the old archive with the hash of another. -/
theorem C110_new_format_violation :
    bumpRecipe Toy.env BumpArchiveExample.hash (BumpArchiveExample.world BumpArchiveExample.newFormat) { target := some §"2.0.1" } =
    ⟨.exit 0, some §"schema_version: 1\n\ncontext:\n  version: 1.0.1\n\npackage:\n  name: p\n  version: ${{ version }}\n\nsource:\n  url: http://x/p-${{ version }}.tgz\n  sha256: p-2.0.1.tgz\n\nbuild:\n  number: 0\n",
      none⟩ := by decide +kernel

end Crm
