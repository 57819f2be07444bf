import Verif.Model.Bump
import Verif.Props.Fetch

/-!
# `bump-recipe`: retries (C44) and the recipe file (C45)
-/

namespace Crm
open Spec

namespace Spec

/-- Unpacking fails in a way that is not reported as a failed fetch: the error nobody catches. -/
def crash (a : HttpAttempt) : Option PyErr :=
  match a.answered && a.opened && a.complete && (a.isTar || a.isZip), a.unpacked with
  | true, .error e => if e = .valueError ∨ e = .fetchError then none else some e
  | _, _ => none

/-- The attempt fails and can be repeated. -/
def fails (a : HttpAttempt) : Prop := ¬ arrives a ∧ crash a = none

instance (a : HttpAttempt) : Decidable (arrives a) :=
  decidable_of_iff (a.answered = true ∧ a.opened = true ∧ a.complete = true ∧ (a.isTar = true ∨ a.isZip = true) ∧
      a.unpacked.toOption = some ()) (by
    unfold arrives
    cases a.unpacked <;> simp [Except.toOption])

instance (a : HttpAttempt) : Decidable (fails a) := by unfold fails; exact inferInstance

end Spec

/-! ## C44 -/

theorem fetchSha_result (sha : Str → Str) (f : HttpFetcher) (a : HttpAttempt) :
    (arrives a → (fetchSha sha f a).1 = .ok (sha (received a))) ∧
    (fails a → (fetchSha sha f a).1 = .error .fetchError) ∧
    (∀ e, crash a = some e → (fetchSha sha f a).1 = .error e ∧ e ≠ .fetchError) := by
  obtain ⟨a1, a2, a3, a4, a5, a6, a7⟩ := a
  unfold fetchSha HttpFetcher.fetch HttpFetcher.extract fails arrives crash received fetchGuard
  cases a1 <;> cases a2 <;> cases a4 <;> cases a5 <;> cases a6 <;> cases a7 <;>
    simp [bind, Except.bind] <;>
    (rename_i e; cases e <;> simp [unpackError])

theorem shaLoop_spec (sha : Str → Str) (at' : Nat → HttpAttempt) :
    ∀ n k f, (∀ i, i < n → (∀ j, j < i → fails (at' (k + j))) → arrives (at' (k + i)) →
        shaLoop sha at' n k f = (.ok (sha (received (at' (k + i)))), (List.range i).map (k + ·))) ∧
      (∀ i e, i < n → (∀ j, j < i → fails (at' (k + j))) → crash (at' (k + i)) = some e →
        shaLoop sha at' n k f = (.error e, (List.range i).map (k + ·))) ∧
      ((∀ j, j < n → fails (at' (k + j))) → shaLoop sha at' n k f = (.error .fetchError, (List.range n).map (k + ·))) := by
  intro n
  induction n with
  | zero => intro k f; simp [shaLoop]
  | succ n ih =>
    intro k f
    have hr := fetchSha_result sha f (at' k)
    have hshift : ∀ i, (List.range (i + 1)).map (k + ·) = k :: (List.range i).map (k + 1 + ·) := by
      intro i
      rw [List.range_succ_eq_map]
      simp only [List.map_cons, Nat.add_zero, List.map_map, List.cons.injEq, true_and]
      apply List.map_congr_left; intro j _; simp only [Function.comp]; omega
    have hfail : fails (at' k) → ∀ f', (fetchSha sha f (at' k)) = (.error .fetchError, f') →
        shaLoop sha at' (n + 1) k f = ((shaLoop sha at' n (k + 1) f').1, k :: (shaLoop sha at' n (k + 1) f').2) := by
      intro _ f' h; simp only [shaLoop, h]
    have hidx : ∀ j, k + 1 + j = k + (j + 1) := by intro j; omega
    have hpair : fails (at' k) → ∃ f', fetchSha sha f (at' k) = (.error .fetchError, f') := by
      intro h
      exact ⟨_, Prod.ext (hr.2.1 h) rfl⟩
    refine ⟨?_, ?_, ?_⟩
    · intro i hi hj ha
      cases i with
      | zero =>
        have h := hr.1 ha
        rcases hx : fetchSha sha f (at' k) with ⟨x, f'⟩
        rw [hx] at h
        simp only at h
        subst h
        simp [shaLoop, hx]
      | succ i =>
        have h0 := hj 0 (by omega)
        obtain ⟨f', hf'⟩ := hpair h0
        rw [hfail h0 f' hf', ((ih (k + 1) f').1 i (by omega) (fun j hji => by rw [hidx]; exact hj (j + 1) (by omega))
          (by rw [hidx]; exact ha)), hshift, hidx]
    · intro i e hi hj ha
      cases i with
      | zero =>
        obtain ⟨h, hne⟩ := hr.2.2 e ha
        rcases hx : fetchSha sha f (at' k) with ⟨x, f'⟩
        rw [hx] at h
        simp only at h
        subst h
        cases e <;> simp_all [shaLoop]
      | succ i =>
        have h0 := hj 0 (by omega)
        obtain ⟨f', hf'⟩ := hpair h0
        rw [hfail h0 f' hf', ((ih (k + 1) f').2.1 i e (by omega) (fun j hji => by rw [hidx]; exact hj (j + 1) (by omega))
          (by rw [hidx]; exact ha)), hshift]
    · intro hj
      have h0 := hj 0 (by omega)
      obtain ⟨f', hf'⟩ := hpair h0
      rw [hfail h0 f' hf', ((ih (k + 1) f').2.2 (fun j hji => by rw [hidx]; exact hj (j + 1) (by omega))), hshift]

/-- C44: if one of the first five attempts to download an archive succeeds, the hash is the one of what this attempt
received, and the command has waited 1, 2, … times the interval after the failed attempts before it, and not otherwise. -/
theorem C44_first_success (sha : Str → Str) (attempts : Nat → HttpAttempt) (i : Nat) (hi : i < 5)
    (hfail : ∀ j, j < i → fails (attempts (1 + j))) (hok : arrives (attempts (1 + i))) :
    getSha256 sha attempts = (.ok (sha (received (attempts (1 + i)))), (List.range i).map (1 + ·)) :=
  (shaLoop_spec sha attempts 5 1 {}).1 i hi hfail hok

/-- C44: if all five fail, the result is a `FetchError`; the waits are 1, …, 5 times the interval (so there is one more
wait after the last attempt). -/
theorem C44_all_fail (sha : Str → Str) (attempts : Nat → HttpAttempt)
    (hfail : ∀ j, j < 5 → fails (attempts (1 + j))) :
    getSha256 sha attempts = (.error .fetchError, [1, 2, 3, 4, 5]) :=
  (shaLoop_spec sha attempts 5 1 {}).2.2 hfail

/-- C44: an error that is not a failed fetch (an archive that cannot be unpacked for an unexpected reason) ends the
attempts at once. -/
theorem C44_crash (sha : Str → Str) (attempts : Nat → HttpAttempt) (i : Nat) (hi : i < 5) (e : PyErr)
    (hfail : ∀ j, j < i → fails (attempts (1 + j))) (hcrash : crash (attempts (1 + i)) = some e) :
    getSha256 sha attempts = (.error e, (List.range i).map (1 + ·)) :=
  (shaLoop_spec sha attempts 5 1 {}).2.1 i e hi hfail hcrash

/-- C44: these are all cases, and attempts after the fifth play no part. -/
theorem C44_cases (attempts : Nat → HttpAttempt) :
    (∀ j, j < 5 → fails (attempts (1 + j))) ∨
    ∃ i, i < 5 ∧ (∀ j, j < i → fails (attempts (1 + j))) ∧
      (arrives (attempts (1 + i)) ∨ ∃ e, crash (attempts (1 + i)) = some e) := by
  by_cases h : ∀ j, j < 5 → fails (attempts (1 + j))
  · exact Or.inl h
  · right
    have key : ∀ n, (¬ ∀ j, j < n → fails (attempts (1 + j))) →
        ∃ i, i < n ∧ (∀ j, j < i → fails (attempts (1 + j))) ∧ ¬ fails (attempts (1 + i)) := by
      intro n
      induction n with
      | zero => intro h; exact absurd (fun j hj => absurd hj (by omega)) h
      | succ n ih =>
        intro h
        by_cases hn : ∀ j, j < n → fails (attempts (1 + j))
        · refine ⟨n, by omega, hn, ?_⟩
          intro hf
          apply h
          intro j hj
          by_cases hjn : j = n
          · subst hjn; exact hf
          · exact hn j (by omega)
        · obtain ⟨i, hi, h1, h2⟩ := ih hn
          exact ⟨i, by omega, h1, h2⟩
    obtain ⟨i, hi, h1, h2⟩ := key 5 h
    refine ⟨i, hi, h1, ?_⟩
    unfold fails at h2
    by_cases ha : arrives (attempts (1 + i))
    · exact Or.inl ha
    · right
      cases hc : crash (attempts (1 + i)) with
      | none => exact absurd ⟨ha, hc⟩ h2
      | some e => exact ⟨e, rfl⟩

/-- Two failures, then success. -/
example : fails exCut ∧ arrives exGood := by decide
example : (getSha256 id (fun n => if n < 3 then exCut else exGood)) = (.ok §"abc", [1, 2]) := by rfl
example : crash { exGood with unpacked := .error .assertionError } = some .assertionError := by decide

/-! ## C45 -/

theorem exitOnFailedPatch_code {E : Env} {r : Recipe} {p : PyVal} {c : Nat}
    (h : exitOnFailedPatch E r p = .error (.exit c)) : c = 107 := by
  unfold exitOnFailedPatch at h
  split at h <;> simp only [reduceCtorEq, Except.error.injEq, Stop.exit.injEq] at h
  exact h.symm

theorem orRaise_code {α : Type} {x : Except PyErr α} {c : Nat} : orRaise x ≠ .error (.exit c) := by
  cases x <;> simp [orRaise]

theorem orHttpExit_code {x : Except PyErr Str} {c : Nat} (h : orHttpExit x = .error (.exit c)) : c = 108 := by
  unfold orHttpExit at h
  split at h <;> simp only [reduceCtorEq, Except.error.injEq, Stop.exit.injEq] at h
  exact h.symm

theorem bind_code {α β : Type} {x : Except Stop α} {f : α → Except Stop β} {c : Nat} (S : Nat → Prop)
    (hx : x = .error (.exit c) → S c) (hf : ∀ a, f a = .error (.exit c) → S c)
    (h : (x >>= f) = .error (.exit c)) : S c := by
  cases x with
  | error e => exact hx (by simpa [bind, Except.bind] using h)
  | ok a => exact hf a (by simpa [bind, Except.bind] using h)

theorem updateBuildNum_code {E : Env} {r : Recipe} {b : Bool} {c : Nat}
    (h : updateBuildNum E r b = .error (.exit c)) : c = 106 ∨ c = 107 := by
  unfold updateBuildNum at h
  split at h
  · injection h with h; injection h with h; exact Or.inl h.symm
  · injection h with h; cases h
  · refine bind_code (fun c => c = 106 ∨ c = 107) (fun h => absurd h orRaise_code) ?_ h
    intro a h
    split at h
    · refine bind_code (fun c => c = 106 ∨ c = 107) (fun h => absurd h orRaise_code) ?_ h
      intro v h
      split at h
      · injection h with h; injection h with h; exact Or.inl h.symm
      · exact Or.inr (exitOnFailedPatch_code h)
    · exact Or.inr (exitOnFailedPatch_code h)

theorem updateVersion_code {E : Env} {r : Recipe} {t : Str} {c : Nat}
    (h : updateVersion E r t = .error (.exit c)) : c = 107 := by
  unfold updateVersion at h
  refine bind_code (fun c => c = 107) (fun h => absurd h orRaise_code) ?_ h
  intro a h
  split at h
  · cases h
  · refine bind_code (fun c => c = 107) (fun h => absurd h orRaise_code) ?_ h
    intro v h
    exact exitOnFailedPatch_code h

theorem collectShas_code {sha : Str → Str} {net : Requests} {paths : List Str} {tbl : List (Str × Str)} {c : Nat}
    (h : collectShas sha net paths tbl = .error (.exit c)) : c = 108 := by
  induction paths generalizing tbl with
  | nil => cases h
  | cons p ps ih =>
    unfold collectShas at h
    exact bind_code (fun c => c = 108) orHttpExit_code (fun a h => ih h) h

theorem patchShas_code {E : Env} {tbl : List (Str × Str)} {r : Recipe} {c : Nat}
    (h : patchShas E tbl r = .error (.exit c)) : c = 107 := by
  induction tbl generalizing r with
  | nil => cases h
  | cons p ps ih =>
    unfold patchShas at h
    refine bind_code (fun c => c = 107) (fun h => absurd h orRaise_code) ?_ h
    intro b h
    exact bind_code (fun c => c = 107) exitOnFailedPatch_code (fun a h => ih h) h

theorem checkHashVar_code {sha : Str → Str} {net : Requests} {r : Recipe} {tbl : List (Str × Fetcher)} {c : Nat}
    (h : checkHashVar sha net r tbl = .error (.exit c)) : c = 108 := by
  unfold checkHashVar at h
  split at h
  · split at h
    · exact bind_code (fun c => c = 108) orHttpExit_code (fun a h => by cases h) h
    · cases h
  · cases h

theorem updateSha256_code {E : Env} {sha : Str → Str} {net : Network} {order : List Str → List Str} {r : Recipe} {c : Nat}
    (h : updateSha256 E sha net order r = .error (.exit c)) : c = 107 ∨ c = 108 := by
  unfold updateSha256 at h
  refine bind_code (fun c => c = 107 ∨ c = 108) (fun h => absurd h orRaise_code) ?_ h
  intro tbl h
  split at h
  · cases h
  · refine bind_code (fun c => c = 107 ∨ c = 108) (fun h => Or.inr (checkHashVar_code h)) ?_ h
    intro o h
    split at h
    · cases h
    · exact bind_code (fun c => c = 107 ∨ c = 108) (fun h => Or.inr (collectShas_code h)) (fun a h => Or.inl (patchShas_code h)) h

theorem bumpEdits_code {E : Env} {sha : Str → Str} {W : BumpWorld} {args : BumpArgs} {r : Recipe} {c : Nat}
    (h : bumpEdits E sha W args r = .error (.exit c)) : c = 106 ∨ c = 107 ∨ c = 108 := by
  unfold bumpEdits at h
  refine bind_code (fun c => c = 106 ∨ c = 107 ∨ c = 108) (fun h => ?_) ?_ h
  · rcases updateBuildNum_code h with h | h <;> simp [h]
  · intro r1 h
    split at h
    · cases h
    · refine bind_code (fun c => c = 106 ∨ c = 107 ∨ c = 108) (fun h => absurd h orRaise_code) ?_ h
      intro _ h
      refine bind_code (fun c => c = 106 ∨ c = 107 ∨ c = 108) (fun h => by simp [updateVersion_code h]) ?_ h
      intro r2 h
      rcases updateSha256_code h with h | h <;> simp [h]

/-- What the options ask for. -/
def Spec.asksSomething (args : BumpArgs) : Prop := args.buildNum = true ∨ args.target.isSome = true

/-- The options the command refuses: an empty version, an interval that is not positive, nothing to do. -/
def Spec.goodArgs (args : BumpArgs) : Prop := args.target ≠ some [] ∧ 0 < args.interval ∧ asksSomething args

/-- C45: the command succeeds exactly when the options are good, the file can be read and parsed, all edits succeed and
(unless it is a dry run) the file can be written. Then the rendering of the edited recipe is printed and the file left
alone (dry run), or it is what the file holds. -/
theorem C45_success (E : Env) (sha : Str → Str) (W : BumpWorld) (args : BumpArgs) :
    (bumpRecipe E sha W args).stop = .exit 0 ↔
    goodArgs args ∧ ∃ content r r', W.file = some content ∧
      Recipe.ofString E (preProcessRemoveHashType W.variants content) = .ok r ∧ bumpEdits E sha W args r = .ok r' ∧
      ((args.dryRun = true ∧ bumpRecipe E sha W args = ⟨.exit 0, W.file, some r'.render⟩) ∨
       (args.dryRun = false ∧ W.writeFails = none ∧ bumpRecipe E sha W args = ⟨.exit 0, some r'.render, none⟩)) := by
  unfold bumpRecipe goodArgs asksSomething
  by_cases h1 : args.target = some [] ∨ args.interval ≤ 0
  · simp only [h1, if_true]
    constructor
    · intro h; exact absurd h (by simp)
    · rintro ⟨⟨h2, h3, _⟩, _⟩
      rcases h1 with h1 | h1
      · exact absurd h1 h2
      · omega
  · rw [if_neg h1]
    have h1' : args.target ≠ some [] ∧ 0 < args.interval := ⟨fun h => h1 (Or.inl h), by omega⟩
    by_cases h2 : args.buildNum = true ∨ args.target.isSome = true
    · have h2' : (!args.buildNum && args.target.isNone) = false := by
        rcases h2 with h2 | h2
        · simp [h2]
        · cases ht : args.target with
          | none => rw [ht] at h2; cases h2
          | some t => simp
      rw [if_neg (by simp [h2'])]
      simp only [h1'.1, h1'.2, h2, ne_eq, not_false_eq_true, true_and]
      cases hf : W.file with
      | none => simp
      | some content =>
        simp only
        cases hp : Recipe.ofString E (preProcessRemoveHashType W.variants content) with
        | error e => simp [hp]
        | ok r =>
          simp only
          cases hb : bumpEdits E sha W args r with
          | error stop =>
            simp only
            constructor
            · intro h
              subst h
              have := bumpEdits_code hb
              omega
            · rintro ⟨c, r1, r2, hc, hr1, hr2, _⟩
              injection hc with hc; subst hc
              rw [hp] at hr1; injection hr1 with hr1; subst hr1
              rw [hb] at hr2; cases hr2
          | ok r' =>
            simp only
            cases hd : args.dryRun with
            | true =>
              simp only [if_true, true_iff]
              exact ⟨content, r, r', rfl, hp, hb, Or.inl ⟨trivial, rfl⟩⟩
            | false =>
              simp only [Bool.false_eq_true, if_false]
              cases hw : W.writeFails with
              | some b => simp
              | none =>
                simp only [true_iff]
                exact ⟨content, r, r', rfl, hp, hb, Or.inr ⟨trivial, trivial, rfl⟩⟩
    · have h2' : (!args.buildNum && args.target.isNone) = true := by
        cases ht : args.target with
        | none => cases hb : args.buildNum with
          | true => exact absurd (Or.inl hb) h2
          | false => rfl
        | some t => exact absurd (Or.inr (by rw [ht]; rfl)) h2
      rw [if_pos h2']
      constructor
      · intro h; exact absurd h (by simp)
      · rintro ⟨⟨_, _, h3⟩, _⟩; exact absurd h3 h2

/-- C45: a dry run never touches the file; nor does any run that does not end in success, as long as writing itself does
not fail. -/
theorem C45_untouched_partial (E : Env) (sha : Str → Str) (W : BumpWorld) (args : BumpArgs) :
    (args.dryRun = true → (bumpRecipe E sha W args).file = W.file) ∧
    (W.writeFails = none → (bumpRecipe E sha W args).stop ≠ .exit 0 → (bumpRecipe E sha W args).file = W.file) := by
  unfold bumpRecipe
  constructor
  · intro hd
    simp only [hd, if_true]
    repeat' split
    all_goals first | rfl | simp_all
  · intro hw
    simp only [hw]
    repeat' split
    all_goals first | (intro _; rfl) | (intro h; simp_all)

/-- C45: the exit codes of the command, and when they occur. -/
theorem C45_codes (E : Env) (sha : Str → Str) (W : BumpWorld) (args : BumpArgs) (c : Nat)
    (h : (bumpRecipe E sha W args).stop = .exit c) :
    (c = 2 ∧ ¬ goodArgs args) ∨ (c = 5 ∧ W.file = none) ∨
    (c = 102 ∧ ∃ content e, W.file = some content ∧
      Recipe.ofString E (preProcessRemoveHashType W.variants content) = .error e) ∨
    c = 106 ∨ c = 107 ∨ c = 108 ∨ c = 0 := by
  by_cases hg : goodArgs args
  · obtain ⟨g1, g2, g3⟩ := hg
    unfold bumpRecipe at h
    rw [if_neg (by rintro (h | h); exact g1 h; omega)] at h
    rw [if_neg (by rcases g3 with g | g <;> cases hh : args.target <;> simp_all)] at h
    split at h
    · rename_i hf; injection h with h; exact Or.inr (Or.inl ⟨h.symm, hf⟩)
    · rename_i content hf
      split at h
      · rename_i e hp; injection h with h; exact Or.inr (Or.inr (Or.inl ⟨h.symm, content, e, hf, hp⟩))
      · split at h
        · rename_i stop hb
          simp only at h
          subst h
          rcases bumpEdits_code hb with h | h | h <;> simp [h]
        · split at h
          · injection h with h; simp [← h]
          · split at h
            · cases h
            · injection h with h; simp [← h]
  · left
    refine ⟨?_, hg⟩
    unfold bumpRecipe at h
    by_cases h1 : args.target = some [] ∨ args.interval ≤ 0
    · rw [if_pos h1] at h; injection h with h; exact h.symm
    · rw [if_neg h1] at h
      rw [if_pos] at h
      · injection h with h; exact h.symm
      · unfold goodArgs asksSomething at hg
        have : args.target ≠ some [] ∧ 0 < args.interval := ⟨fun h => h1 (Or.inl h), by omega⟩
        cases hb : args.buildNum <;> cases ht : args.target <;> simp_all

/-- A recipe for examples: one source with a hash. -/
def exBumpText : Str :=
  §"package:\n  name: p\n  version: 1.0.1\nsource:\n  url: http://x\n  sha256: ab\nbuild:\n  number: 5\n"

def exBumpWorld : BumpWorld := { file := some exBumpText, net := fun _ _ _ => exGood, order := id }

example : bumpRecipe Toy.env (fun s => §"digest" ++ s) exBumpWorld { target := some §"2.0.1" } =
    ⟨.exit 0, some §"package:\n  name: p\n  version: 2.0.1\n\nsource:\n  url: http://x\n  sha256: digestabc\n\nbuild:\n  number: 0\n",
      none⟩ := by decide +kernel
example : bumpRecipe Toy.env (fun s => s) exBumpWorld { buildNum := true, dryRun := true } =
    ⟨.exit 0, some exBumpText,
      some §"package:\n  name: p\n  version: 1.0.1\n\nsource:\n  url: http://x\n  sha256: ab\n\nbuild:\n  number: 6\n"⟩ := by
  decide +kernel
example : (bumpRecipe Toy.env (fun s => s) { exBumpWorld with net := fun _ _ _ => exCut } { target := some §"2.0.1" }).stop =
    .exit 108 := by decide +kernel

/-- C45 is false when writing fails: the file is emptied first, so the old recipe is lost. -/
theorem C45_write_failure_violation : ∃ W : BumpWorld, W.file = some exBumpText ∧
    bumpRecipe Toy.env id W { buildNum := true } = ⟨.raised .ioError, some [], none⟩ :=
  ⟨{ exBumpWorld with writeFails := some [] }, rfl, by decide +kernel⟩

end Crm
