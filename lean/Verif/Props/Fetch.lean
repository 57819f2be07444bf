import Verif.Model.Fetch
import Verif.Props.Graph

/-!
# Fetching sources (C41, C42, C43, C68)
-/

namespace Crm
open Spec

namespace Spec

/-- The operation reads something from the fetcher. -/
def isAccess : HttpOp → Bool
  | .fetch _ => false
  | _ => true

/-- The whole archive arrives, is recognised and can be unpacked. -/
def arrives (a : HttpAttempt) : Prop :=
  a.answered = true ∧ a.opened = true ∧ a.complete = true ∧ (a.isTar = true ∨ a.isZip = true) ∧ a.unpacked = .ok ()

/-- The pieces received (up to the first empty one). -/
def received (a : HttpAttempt) : Str := (a.chunks.takeWhile fun c => !c.isEmpty).flatten

/-- Some fetch in the history succeeded. -/
def someFetchOk (tr : List (HttpOp × Except PyErr HttpResult)) : Prop := ∃ a res, (HttpOp.fetch a, Except.ok res) ∈ tr

/-- A source gives a fetcher: for its `url` if it has one, else for its git repository. -/
def fetcherFor (schema : Schema) (name : Str) (d : List (Str × PyVal)) : Option Fetcher :=
  let val (v0 v1 : Str) : Option Str :=
    ((lookupD (if schema = .v0 then v0 else v1) d).filter (· ≠ .none)).map pyStr
  match val §"url" §"url", val §"git_url" §"git" with
  | some u, _ => some (.http name u)
  | none, some g => some (.git name g (val §"git_branch" §"branch") (val §"git_tag" §"tag") (val §"git_rev" §"rev"))
  | none, none => none

end Spec

/-! ## C41 -/

/-- C41: `fetch()` returns without an exception exactly when the whole archive arrives, is recognised and unpacked. -/
theorem C41_fetch_ok_iff (f : HttpFetcher) (a : HttpAttempt) : (f.fetch a).1 = .ok () ↔ arrives a := by
  obtain ⟨a1, a2, a3, a4, a5, a6, a7⟩ := a
  unfold HttpFetcher.fetch HttpFetcher.extract arrives
  cases a1 <;> cases a2 <;> cases a4 <;> cases a5 <;> cases a6 <;> cases a7 <;> simp

/-- C41: if it does not, it raises `FetchError`, unless unpacking raises an error of another kind. -/
theorem C41_fetch_error (f : HttpFetcher) (a : HttpAttempt) (e : PyErr) (h : (f.fetch a).1 = .error e) :
    e = .fetchError ∨ a.unpacked = .error e := by
  obtain ⟨a1, a2, a3, a4, a5, a6, a7⟩ := a
  unfold HttpFetcher.fetch HttpFetcher.extract at h
  cases a1 <;> cases a2 <;> cases a4 <;> cases a5 <;> cases a6 <;> cases a7 <;> simp at h <;>
    first
    | exact Or.inl h.symm
    | (rename_i x; cases x <;> simp [unpackError] at h <;> subst h <;> simp)

theorem fetch_fetched (f : HttpFetcher) (a : HttpAttempt) :
    (f.fetch a).2.fetched = true ↔ f.fetched = true ∨ (f.fetch a).1 = .ok () := by
  obtain ⟨a1, a2, a3, a4, a5, a6, a7⟩ := a
  unfold HttpFetcher.fetch HttpFetcher.extract
  cases a1 <;> cases a2 <;> cases a4 <;> cases a5 <;> cases a6 <;> cases a7 <;> simp

theorem step_fetched (sha : Str → Str) (f : HttpFetcher) (op : HttpOp) :
    (f.step sha op).2.fetched = true ↔ f.fetched = true ∨ ∃ a res, op = .fetch a ∧ (f.step sha op).1 = .ok res := by
  cases op with
  | fetch a =>
    have h := fetch_fetched f a
    unfold HttpFetcher.step
    rcases hx : f.fetch a with ⟨res, f'⟩
    rw [hx] at h
    cases res with
    | ok u => simp [hx] at h ⊢; exact h
    | error e => simp [hx] at h ⊢; rw [h]
  | _ => simp [HttpFetcher.step]

theorem run_fetched (sha : Str → Str) (ops : List HttpOp) (f : HttpFetcher) :
    (f.run sha ops).2.fetched = true ↔ f.fetched = true ∨ someFetchOk (f.run sha ops).1 := by
  induction ops generalizing f with
  | nil => simp [HttpFetcher.run, someFetchOk]
  | cons op ops ih =>
    have h := step_fetched sha f op
    unfold HttpFetcher.run
    generalize f.step sha op = x at h ⊢
    obtain ⟨res, f'⟩ := x
    have ih' := ih f'
    simp only at h ih' ⊢
    rw [ih', h]
    simp only [someFetchOk, List.mem_cons, Prod.mk.injEq]
    constructor
    · rintro ((h | ⟨a, r, h1, h2⟩) | ⟨a, r, h⟩)
      · exact Or.inl h
      · exact Or.inr ⟨a, r, Or.inl ⟨h1.symm, h2.symm⟩⟩
      · exact Or.inr ⟨a, r, Or.inr h⟩
    · rintro (h | ⟨a, r, ⟨h1, h2⟩ | h⟩)
      · exact Or.inl (Or.inl h)
      · exact Or.inl (Or.inr ⟨a, r, h1.symm, h2.symm⟩)
      · exact Or.inr ⟨a, r, h⟩

/-- C41: after any history of fetches and accesses, every accessor of an HTTP fetcher raises `FetchRequiredError` if no
fetch in the history succeeded, and gives a result otherwise. Accesses change nothing. -/
theorem C41_http (sha : Str → Str) (ops : List HttpOp) (op : HttpOp) (hop : isAccess op = true) :
    let h := ({} : HttpFetcher).run sha ops
    (¬ someFetchOk h.1 → (h.2.step sha op).1 = .error .fetchRequired) ∧
    (someFetchOk h.1 → ∃ res, (h.2.step sha op).1 = .ok res) ∧
    (h.2.step sha op).2 = h.2 := by
  have h := run_fetched sha ops {}
  simp only [Bool.false_eq_true, false_or] at h
  generalize HttpFetcher.run sha {} ops = hr at h
  obtain ⟨tr, f⟩ := hr
  simp only at h ⊢
  by_cases hf : f.fetched = true
  · cases op <;> simp_all [HttpFetcher.step, fetchGuard, isAccess, bind, Except.bind]
  · cases op <;> simp_all [HttpFetcher.step, fetchGuard, isAccess, bind, Except.bind]

def exGood : HttpAttempt := ⟨true, true, [§"ab", §"c"], true, true, false, .ok ()⟩
def exCut : HttpAttempt := ⟨true, true, [§"a"], false, true, false, .ok ()⟩

example : someFetchOk (({} : HttpFetcher).run id [.sha256, .fetch exCut, .fetch exGood]).1 :=
  ⟨exGood, .done, by simp [HttpFetcher.run, HttpFetcher.step, HttpFetcher.fetch, HttpFetcher.extract, exGood]⟩
example : ¬ someFetchOk (({} : HttpFetcher).run id [.sha256, .fetch exCut]).1 := by
  rintro ⟨a, res, h⟩
  simp [HttpFetcher.run, HttpFetcher.step, HttpFetcher.fetch, exCut] at h
example : ((({} : HttpFetcher).run id [.sha256, .fetch exCut, .fetch exGood, .sha256]).1.map (·.2.toOption)) =
    [none, none, some .done, some (.digest §"abc")] := by decide

/-- C41: the same for a git fetcher: its path can be read exactly when some fetch succeeded. -/
theorem C41_git (g : GitFetcher) (as : List GitAttempt) (hg : g.fetched = false) :
    let h := g.run as
    ((∀ res ∈ h.1, ∃ e, res = .error e) → h.2.sourcePath = .error .fetchRequired) ∧
    ((∃ res ∈ h.1, res = .ok ()) → ∃ w, h.2.sourcePath = .ok w) := by
  have key : ∀ (as : List GitAttempt) (g : GitFetcher),
      (g.run as).2.fetched = true ↔ g.fetched = true ∨ ∃ res ∈ (g.run as).1, res = .ok () := by
    intro as
    induction as with
    | nil => intro g; simp [GitFetcher.run]
    | cons a as ih =>
      intro g
      unfold GitFetcher.run
      have h1 : (g.fetch a).2.fetched = true ↔ g.fetched = true ∨ (g.fetch a).1 = .ok () := by
        unfold GitFetcher.fetch
        cases hc : g.clone a with
        | error e => simp
        | ok g' =>
          have hg' : g'.fetched = g.fetched := by
            unfold GitFetcher.clone at hc
            repeat' split at hc
            all_goals (try cases hc)
            rfl
          simp only
          split
          · simp
          · cases gitCheckout a g'.branch g'.work <;> simp [hg']
      generalize g.fetch a = x at h1 ⊢
      obtain ⟨res, g'⟩ := x
      have ih' := ih g'
      simp only at h1 ih' ⊢
      rw [ih', h1]
      have hc : res = Except.ok () ↔ Except.ok () = res := eq_comm
      simp [or_assoc, hc]
  have h := key as g
  generalize GitFetcher.run g as = hr at h
  obtain ⟨rs, g'⟩ := hr
  simp only [hg, Bool.false_eq_true, false_or] at h ⊢
  constructor
  · intro hall
    have : ¬ g'.fetched = true := by
      rw [h]
      rintro ⟨res, hm, rfl⟩
      obtain ⟨e, he⟩ := hall _ hm
      cases he
    simp [GitFetcher.sourcePath, fetchGuard, this, bind, Except.bind]
  · intro hex
    have := h.2 hex
    simp [GitFetcher.sourcePath, fetchGuard, this, bind, Except.bind]

/-! ## C68 -/

/-- C68: after a fetch that succeeds and any accesses, the digest reported is that of what was received, and the type is
that of the archive. -/
theorem C68_digest_partial (sha : Str → Str) (f : HttpFetcher) (a : HttpAttempt) (ha : arrives a) (ops : List HttpOp)
    (hops : ∀ op ∈ ops, isAccess op = true) :
    let f' := (((f.step sha (.fetch a)).2).run sha ops).2
    (f'.step sha .sha256).1 = .ok (.digest (sha (received a))) ∧
    (f'.step sha .archiveType).1 = .ok (.type (if a.isTar = true then .tarball else .zip)) := by
  have hrun : ∀ (ops : List HttpOp) (f : HttpFetcher), (∀ op ∈ ops, isAccess op = true) → (f.run sha ops).2 = f := by
    intro ops
    induction ops with
    | nil => intro f _; rfl
    | cons op ops ih =>
      intro f h
      have h1 : (f.step sha op).2 = f := by
        have := h op (by simp)
        cases op <;> simp_all [HttpFetcher.step, isAccess]
      unfold HttpFetcher.run
      generalize f.step sha op = x at h1 ⊢
      obtain ⟨res, f'⟩ := x
      simp only at h1 ⊢
      rw [h1]
      exact ih f (fun op hop => h op (List.mem_cons_of_mem _ hop))
  simp only
  rw [hrun ops _ hops]
  obtain ⟨a1, a2, a3, a4, a5, a6, a7⟩ := a
  obtain ⟨h1, h2, h3, h4, h5⟩ := ha
  simp only at h1 h2 h3 h4 h5
  subst h1 h2 h3 h5
  cases a5 with
  | true => exact ⟨rfl, rfl⟩
  | false =>
    simp only [Bool.false_eq_true, false_or] at h4
    subst h4
    exact ⟨rfl, rfl⟩

example : arrives exGood := by simp [arrives, exGood]

/-- C68 fails when a later fetch fails: the accessors stay open, and the digest is that of an incomplete archive. -/
theorem C68_digest_violation :
    ((({} : HttpFetcher).run id [.fetch exGood, .fetch exCut, .sha256]).1.map (·.2.toOption)) =
    [some .done, none, some (.digest §"a")] := by decide

/-! ## C42 -/

/-- C42: the target to check out is the tag, else the revision, else the branch. -/
theorem C42_target (g : GitFetcher) : g.target = (g.tag.or g.rev).or g.branch := by
  unfold GitFetcher.target
  cases g.tag <;> cases g.rev <;> simp

/-- C42: if only a branch is given, a fetch that succeeds leaves the directory at that branch, and if nothing is given,
at the default branch. -/
theorem C42_checkout_partial (g : GitFetcher) (a : GitAttempt) (ht : g.tag = none) (hr : g.rev = none)
    (h : (g.fetch a).1 = .ok ()) :
    (g.fetch a).2.work = match g.branch with
      | none => some a.head
      | some b => if b = [] then some a.head else a.refs b := by
  obtain ⟨remote, branch, tag, rev, fetched, work⟩ := g
  simp only at ht hr
  subst ht hr
  unfold GitFetcher.fetch at h ⊢
  cases remote with
  | false => simp [GitFetcher.clone] at h
  | true =>
    cases work with
    | some w => simp [GitFetcher.clone] at h
    | none =>
      cases hcl : a.cloned with
      | false => simp [GitFetcher.clone, hcl] at h
      | true =>
        simp only [GitFetcher.clone, hcl, if_true, Option.isSome_none, Bool.false_eq_true, if_false] at h ⊢
        cases branch with
        | none => simp [GitFetcher.target]
        | some b =>
          cases b with
          | nil => simp [GitFetcher.target]
          | cons c cs =>
            simp only [GitFetcher.target, gitCheckout] at h ⊢
            cases hb : a.refs (c :: cs) with
            | none => simp [hb] at h
            | some w => simp

def exRepo : GitAttempt :=
  ⟨true, §"head", fun s => if s = §"dev" then some §"c1" else if s = §"v1" then some §"c2" else none⟩

example : ((⟨true, some §"dev", none, none, false, none⟩ : GitFetcher).fetch exRepo).2.work = some §"c1" := by decide

/-- C42 fails for a tag or a revision: if no branch is given, a fetch never fails to check it out, and the directory stays
at the default branch. -/
theorem C42_tag_violation (g : GitFetcher) (a : GitAttempt) (hr : g.remote = true) (hw : g.work = none)
    (ha : a.cloned = true) (hb : g.branch = none) :
    (g.fetch a).1 = .ok () ∧ (g.fetch a).2.work = some a.head := by
  obtain ⟨remote, branch, tag, rev, fetched, work⟩ := g
  simp only at hr hw hb
  subst hr hw hb
  unfold GitFetcher.fetch
  simp only [GitFetcher.clone, ha, if_true, Option.isSome_none, Bool.false_eq_true, if_false, gitCheckout]
  split <;> exact ⟨rfl, rfl⟩

/-- C42: the commit of the tag is another one. -/
theorem C42_tag_violation_witness :
    let g : GitFetcher := { remote := true, tag := some §"v1" }
    exRepo.refs §"v1" = some §"c2" ∧ (g.fetch exRepo).1 = .ok () ∧ (g.fetch exRepo).2.work = some §"head" := by decide

/-- C42: if a branch is given too, it is checked out instead of the tag. -/
theorem C42_tag_and_branch_violation :
    let g : GitFetcher := { remote := true, tag := some §"v1", branch := some §"dev" }
    exRepo.refs §"v1" = some §"c2" ∧ (g.fetch exRepo).1 = .ok () ∧ (g.fetch exRepo).2.work = some §"c1" := by decide

/-- C42 fails for a repository on disk: it is never fetched. -/
theorem C42_local_violation (g : GitFetcher) (a : GitAttempt) (hr : g.remote = false) :
    (g.fetch a).1 = .error .fetchError ∧ (g.fetch a).2 = g := by
  unfold GitFetcher.fetch
  simp [GitFetcher.clone, hr]

/-- C42 fails after a failure to check out: every later fetch fails, even if the branch is there by then. -/
theorem C42_retry_violation (g : GitFetcher) (a : GitAttempt) (ha : a.cloned = true) (hr : g.remote = true)
    (h : (g.fetch a).1 ≠ .ok ()) (b : GitAttempt) : (((g.fetch a).2).fetch b).1 = .error .fetchError := by
  obtain ⟨remote, branch, tag, rev, fetched, work⟩ := g
  simp only at hr
  subst hr
  cases work with
  | some w => simp [GitFetcher.fetch, GitFetcher.clone]
  | none =>
    have key : ∀ g' : GitFetcher, g'.remote = true → g'.work.isSome = true → (g'.fetch b).1 = .error .fetchError := by
      intro g' h1 h2
      simp [GitFetcher.fetch, GitFetcher.clone, h1, h2]
    apply key
    · unfold GitFetcher.fetch
      simp only [GitFetcher.clone, ha, if_true, Option.isSome_none, Bool.false_eq_true, if_false]
      split
      · rfl
      · split <;> rfl
    · unfold GitFetcher.fetch at h ⊢
      simp only [GitFetcher.clone, ha, if_true, Option.isSome_none, Bool.false_eq_true, if_false] at h ⊢
      split at h
      · exact absurd rfl h
      · rename_i hx
        rw [if_neg hx]
        split at h
        · rfl
        · exact absurd rfl h

/-! ## C43 -/

theorem optionalStr_getD (k : Str) (d : List (Str × PyVal)) :
    optionalStr ((lookupD k d).getD .none) = ((lookupD k d).filter (· ≠ .none)).map pyStr := by
  unfold optionalStr
  cases lookupD k d with
  | none => simp
  | some v => by_cases h : v = .none <;> simp [h, Option.filter]

theorem sourceFetcher_eq (schema : Schema) (name : Str) (d : List (Str × PyVal)) :
    sourceFetcher schema name (.dict d) = .ok (fetcherFor schema name d) := by
  unfold sourceFetcher fetcherFor
  cases schema
  · simp only [renderGitKey, sourceGet, bind, Except.bind, optionalStr_getD, if_true]
    generalize ((lookupD §"url" d).filter (· ≠ .none)).map pyStr = a
    generalize ((lookupD §"git_url" d).filter (· ≠ .none)).map pyStr = b
    cases a <;> cases b <;> rfl
  · simp only [renderGitKey, sourceGet, bind, Except.bind, optionalStr_getD, if_true, reduceCtorEq, if_false]
    simp only [List.cons.injEq, Char.reduceEq, false_and, and_false, if_false]
    generalize ((lookupD §"url" d).filter (· ≠ .none)).map pyStr = a
    generalize ((lookupD §"git" d).filter (· ≠ .none)).map pyStr = b
    cases a <;> cases b <;> rfl

/-- The name and the path of the `i`-th source of `count`. -/
def Spec.sourceName (recipeName : Str) (count i : Nat) : Str :=
  if count = 1 then recipeName else recipeName ++ §"_" ++ natStr i
def Spec.sourcePath (isList : Bool) (i : Nat) : Str := if isList then §"/source/" ++ natStr i else §"/source"

/-- The fetchers for a list of sources. -/
def Spec.fetchersFor (schema : Schema) (recipeName : Str) (count : Nat) (isList : Bool)
    (ds : List (List (Str × PyVal))) : List (Str × Fetcher) :=
  ds.zipIdx.filterMap fun di =>
    (fetcherFor schema (sourceName recipeName count di.2) di.1).map fun f => (sourcePath isList di.2, f)

theorem fetchersGo_eq (schema : Schema) (name : Str) (count : Nat) (isList ignore : Bool)
    (ds : List (List (Str × PyVal))) (i : Nat) (acc : List (Str × Fetcher))
    (hl : isList = true ∨ ds.length ≤ 1)
    (hacc : ∀ j, i ≤ j → (isList = true ∨ acc = []) → sourcePath isList j ∉ acc.map (·.1))
    (hacc' : isList = true ∨ ds = [] ∨ acc = []) :
    fetchersGo schema name count isList ignore i (ds.map .dict) acc =
      if ignore = false ∧ ∃ d ∈ ds, fetcherFor schema [] d = none then .error .fetchUnsupported
      else .ok (acc ++ (ds.zipIdx i).filterMap fun di =>
        (fetcherFor schema (sourceName name count di.2) di.1).map fun f => (sourcePath isList di.2, f)) := by
  have hnone : ∀ (n m : Str) (d : List (Str × PyVal)), fetcherFor schema n d = none → fetcherFor schema m d = none := by
    intro n m d h
    unfold fetcherFor at h ⊢
    revert h
    simp only
    split <;> simp
  induction ds generalizing i acc with
  | nil => simp [fetchersGo]
  | cons d ds ih =>
    simp only [List.map_cons]
    unfold fetchersGo
    simp only [bind, Except.bind, sourceFetcher_eq]
    have hn : (if count = 1 then name else name ++ §"_" ++ natStr i) = sourceName name count i := rfl
    have hp : (if isList then §"/source/" ++ natStr i else §"/source") = sourcePath isList i := by
      cases isList <;> rfl
    rw [hn, hp, List.zipIdx_cons, List.filterMap_cons]
    simp only
    have hl' : isList = true ∨ ds.length ≤ 1 := by
      rcases hl with h | h
      · exact Or.inl h
      · right; simp at h; simp [h]
    have hds : isList = true ∨ ds = [] := by
      rcases hl with h | h
      · exact Or.inl h
      · right; simpa using h
    have hfr : isList = true ∨ acc = [] := by
      rcases hacc' with h | h | h
      · exact Or.inl h
      · cases h
      · exact Or.inr h
    cases hf : fetcherFor schema (sourceName name count i) d with
    | none =>
      simp only [Option.map_none]
      cases ignore with
      | false =>
        rw [if_neg (by simp), if_pos]
        exact ⟨rfl, d, by simp, hnone _ _ _ hf⟩
      | true =>
        simp only [if_true]
        rw [ih (i + 1) acc hl' (fun j hj => hacc j (by omega)) (by rcases hds with h | h; exact Or.inl h; exact Or.inr (Or.inl h))]
        simp
    | some f =>
      simp only [Option.map_some]
      rw [insertD_fresh _ _ _ (hacc i (Nat.le_refl i) hfr), ih (i + 1) _ hl' ?_
        (by rcases hds with h | h; exact Or.inl h; exact Or.inr (Or.inl h))]
      · have : (∃ x ∈ d :: ds, fetcherFor schema [] x = none) ↔ ∃ x ∈ ds, fetcherFor schema [] x = none := by
          simp only [List.mem_cons, exists_eq_or_imp]
          constructor
          · rintro (h | h)
            · rw [hnone _ _ _ h] at hf; cases hf
            · exact h
          · exact Or.inr
        simp only [this, List.append_assoc, List.singleton_append]
      · intro j hj hor
        rcases hor with h | h
        · subst h
          intro hm
          rw [List.map_append, List.mem_append] at hm
          rcases hm with hm | hm
          · exact hacc j (by omega) (Or.inl rfl) hm
          · simp only [List.map_cons, List.map_nil, List.mem_singleton, sourcePath, if_true] at hm
            have := natStr_injective (List.append_cancel_left hm)
            omega
        · simp at h

/-- C43: a recipe with a list of sources gives one fetcher for each that has a `url` or a git repository (as the schema
names it), under the path of the source; a source with neither raises `FetchUnsupportedError` or is left out, as asked. -/
theorem C43_list (E : Env) (r : Recipe) (ignore : Bool) (ds : List (List (Str × PyVal))) (name : Option Str)
    (hv : r.getValue E §"/source" (some (.list [])) true = .ok (.list (ds.map .dict)))
    (hn : r.getRecipeName E = .ok name) :
    fetchersOf E r ignore =
      if ignore = false ∧ ∃ d ∈ ds, fetcherFor r.schema [] d = none then .error .fetchUnsupported
      else .ok (fetchersFor r.schema (name.getD §"Unknown Recipe") ds.length true ds) := by
  unfold fetchersOf
  simp only [bind, Except.bind, hv, hn]
  rw [fetchersGo_eq r.schema _ _ true ignore ds 0 [] (Or.inl rfl) (by simp) (Or.inl rfl)]
  simp [fetchersFor]

/-- C43: the same for a recipe with a single source, under the path `/source`. -/
theorem C43_single (E : Env) (r : Recipe) (ignore : Bool) (d : List (Str × PyVal)) (name : Option Str)
    (hv : r.getValue E §"/source" (some (.list [])) true = .ok (.dict d))
    (hn : r.getRecipeName E = .ok name) :
    fetchersOf E r ignore =
      match fetcherFor r.schema (name.getD §"Unknown Recipe") d with
      | some f => .ok [(§"/source", f)]
      | none => if ignore then .ok [] else .error .fetchUnsupported := by
  unfold fetchersOf
  simp only [bind, Except.bind, hv, hn, fetchersGo, sourceFetcher_eq, if_true, Bool.false_eq_true, if_false]
  cases fetcherFor r.schema (name.getD §"Unknown Recipe") d with
  | some f => rfl
  | none => cases ignore <;> rfl

/-- C43: a recipe without sources gives no fetchers. -/
theorem C43_none (E : Env) (r : Recipe) (ignore : Bool) (name : Option Str)
    (hv : r.getValue E §"/source" (some (.list [])) true = .ok (.list []))
    (hn : r.getRecipeName E = .ok name) : fetchersOf E r ignore = .ok [] := by
  have := C43_list E r ignore [] name hv hn
  simpa [fetchersFor] using this

def exSources : Recipe := Toy.recipe
  "package:\n  name: p\nsource:\n  - url: https://x/a.tgz\n  - git_url: https://x/r.git\n    git_tag: v1\n  - path: src\n"

example : exSources.getRecipeName Toy.env = .ok (some §"p") := by decide +kernel
example : exSources.getValue Toy.env §"/source" (some (.list [])) true = .ok (.list ([
    [(§"url", .str §"https://x/a.tgz")], [(§"git_url", .str §"https://x/r.git"), (§"git_tag", .str §"v1")],
    [(§"path", .str §"src")]].map .dict)) := by decide +kernel
example : fetchersOf Toy.env exSources true = .ok [(§"/source/0", .http §"p_0" §"https://x/a.tgz"),
    (§"/source/1", .git §"p_1" §"https://x/r.git" none (some §"v1") none)] := by decide +kernel
example : fetchersOf Toy.env exSources false = .error .fetchUnsupported := by decide +kernel

end Crm
