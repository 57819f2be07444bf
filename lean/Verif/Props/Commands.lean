import Verif.Model.Commands
import Verif.Lemmas.Dict
import Verif.Lemmas.RegexLang
import Verif.Props.Sort
import Verif.Examples.ToyYaml

/-!
# C49, C50, C52, C72: the commands `patch`, `convert` and `rattler-bulk-build`
-/

namespace Crm
open Spec

namespace Spec

/-- The patches change `r` into `r'`, one after the other, each successfully. -/
inductive AppliesAll (E : Env) : Recipe → List PyVal → Recipe → Prop
  | nil (r) : AppliesAll E r [] r
  | cons {r r₁ r₂ p ps} : r.patch E p = (.ok true, r₁) → AppliesAll E r₁ ps r₂ → AppliesAll E r (p :: ps) r₂

/-- The patches of a patch file: a list of patches or a single patch. -/
def patchesIn (json : PyVal) (ps : List PyVal) : Prop := json = .list ps ∨ ((∀ l, json ≠ .list l) ∧ ps = [json])

end Spec

theorem patchBlobs_in (v : PyVal) : patchesIn v (patchBlobs v) := by
  cases v <;> first | (left; rfl) | (right; exact ⟨fun l h => (by cases h), rfl⟩)

theorem patchBlobs_eq {v : PyVal} {ps : List PyVal} (h : patchesIn v ps) : patchBlobs v = ps := by
  rcases h with rfl | ⟨h, rfl⟩
  · rfl
  · cases v with
    | list l => exact absurd rfl (h l)
    | _ => rfl

theorem patchLoop_append {E : Env} {r r₁ : Recipe} {ps : List PyVal} (h : AppliesAll E r ps r₁) (qs : List PyVal) :
    patchLoop E (ps ++ qs) r = patchLoop E qs r₁ := by
  induction h with
  | nil r => rfl
  | cons hp _ ih => simp only [List.cons_append, patchLoop, hp]; exact ih

theorem patchLoop_success {E : Env} : ∀ {ps : List PyVal} {r r' : Recipe},
    patchLoop E ps r = (.exit ExitCode.success, r') ↔ AppliesAll E r ps r'
  | [], r, r' => by
    constructor
    · intro h; simp only [patchLoop, Prod.mk.injEq] at h; rw [h.2]; exact .nil _
    · intro h; cases h; rfl
  | p :: ps, r, r' => by
    simp only [patchLoop]
    constructor
    · intro h
      rcases hp : r.patch E p with ⟨res, r₁⟩
      rw [hp] at h
      cases res with
      | error e => cases e <;> simp at h
      | ok b => cases b with
        | false => simp at h
        | true => exact .cons hp (patchLoop_success.1 h)
    · intro h
      cases h with
      | cons hp h => rw [hp]; exact patchLoop_success.2 h

/-- C49: the exit code is 0 exactly when the patch file is JSON, the recipe can be read and parsed, and every patch is
applied, in order; the recipe file is then the rendering of the patched recipe. -/
theorem C49_success (E : Env) (json : Except PyErr PyVal) (file file' : Option Str) :
    patchCommand E json file = (.exit 0, file') ↔
      ∃ blob content ps r r', json = .ok blob ∧ file = some content ∧ patchesIn blob ps ∧ Recipe.ofString E content = .ok r ∧
        AppliesAll E r ps r' ∧ file' = some r'.render := by
  constructor
  · intro h
    unfold patchCommand at h
    cases json with
    | error e => cases e <;> simp at h
    | ok blob =>
      cases file with
      | none => simp at h
      | some content =>
        simp only at h
        cases hr : Recipe.ofString E content with
        | error e => simp [hr] at h
        | ok r =>
          simp only [hr] at h
          rcases hl : patchLoop E (patchBlobs blob) r with ⟨stop, r'⟩
          rw [hl] at h
          cases stop with
          | raised e => simp at h
          | exit c =>
            simp only [Prod.mk.injEq, Stop.exit.injEq] at h
            obtain ⟨rfl, rfl⟩ := h
            exact ⟨blob, content, _, r, r', rfl, rfl, patchBlobs_in blob, hr, patchLoop_success.1 hl, rfl⟩
  · rintro ⟨blob, content, ps, r, r', rfl, rfl, hps, hr, happ, rfl⟩
    simp only [patchCommand, hr, patchBlobs_eq hps, patchLoop_success.2 happ]

/-- C49: at the first patch that cannot be applied the command stops with code 106, and the file holds the recipe as the
patches up to there leave it. -/
theorem C49_refused (E : Env) (blob : PyVal) (content : Str) (ps qs : List PyVal) (p : PyVal) (r r₁ r₂ : Recipe)
    (hps : patchesIn blob (ps ++ p :: qs)) (hr : Recipe.ofString E content = .ok r) (happ : AppliesAll E r ps r₁)
    (hp : r₁.patch E p = (.ok false, r₂)) :
    patchCommand E (.ok blob) (some content) = (.exit 106, some r₂.render) := by
  simp only [patchCommand, hr, patchBlobs_eq hps]
  rw [patchLoop_append happ]
  simp only [patchLoop, hp]

/-- C49: at the first object that is not a patch the command stops with code 4, and the file holds the recipe as the
patches before it leave it. -/
theorem C49_invalid (E : Env) (blob : PyVal) (content : Str) (ps qs : List PyVal) (p : PyVal) (r r₁ r₂ : Recipe)
    (hps : patchesIn blob (ps ++ p :: qs)) (hr : Recipe.ofString E content = .ok r) (happ : AppliesAll E r ps r₁)
    (hp : r₁.patch E p = (.error .jsonPatchValidation, r₂)) :
    patchCommand E (.ok blob) (some content) = (.exit 4, some r₂.render) := by
  simp only [patchCommand, hr, patchBlobs_eq hps]
  rw [patchLoop_append happ]
  simp only [patchLoop, hp]

/-- C49: at the first patch that raises anything else the command ends with that exception and the file is untouched. -/
theorem C49_raised (E : Env) (blob : PyVal) (content : Str) (ps qs : List PyVal) (p : PyVal) (r r₁ r₂ : Recipe) (e : PyErr)
    (hps : patchesIn blob (ps ++ p :: qs)) (hr : Recipe.ofString E content = .ok r) (happ : AppliesAll E r ps r₁)
    (hp : r₁.patch E p = (.error e, r₂)) (he : e ≠ .jsonPatchValidation) :
    patchCommand E (.ok blob) (some content) = (.raised e, some content) := by
  simp only [patchCommand, hr, patchBlobs_eq hps]
  rw [patchLoop_append happ]
  have : patchLoop E (p :: qs) r₁ = (.raised e, r₂) := by
    simp only [patchLoop, hp]
  simp only [this]

/-- C49: these are all the cases for a recipe that parses. -/
theorem C49_cases_partial (E : Env) (ps : List PyVal) (r : Recipe) :
    (∃ r', AppliesAll E r ps r') ∨
    ∃ pre p post r₁ r₂ res, ps = pre ++ p :: post ∧ AppliesAll E r pre r₁ ∧ r₁.patch E p = (res, r₂) ∧ res ≠ .ok true := by
  induction ps generalizing r with
  | nil => exact Or.inl ⟨r, .nil r⟩
  | cons p ps ih =>
    rcases hp : r.patch E p with ⟨res, r₁⟩
    by_cases hres : res = .ok true
    · subst hres
      rcases ih r₁ with ⟨r', h⟩ | ⟨pre, q, post, r₂, r₃, res, rfl, h1, h2, h3⟩
      · exact Or.inl ⟨r', .cons hp h⟩
      · exact Or.inr ⟨p :: pre, q, post, r₂, r₃, res, rfl, .cons hp h1, h2, h3⟩
    · exact Or.inr ⟨[], p, ps, r, r₁, res, rfl, .nil r, hp, hres⟩

/-- C49: a patch file that is not JSON, a recipe that cannot be read and a recipe that cannot be parsed are reported by
the codes 4, 5 and 102, and the file is untouched. -/
theorem C49_unusable (E : Env) (json : Except PyErr PyVal) (file : Option Str) :
    (json = .error .valueError → patchCommand E json file = (.exit 4, file)) ∧
    (∀ blob, json = .ok blob → file = none → patchCommand E json file = (.exit 5, none)) ∧
    (∀ blob content e, json = .ok blob → file = some content → Recipe.ofString E content = .error e →
      patchCommand E json file = (.exit 102, some content)) := by
  refine ⟨?_, ?_, ?_⟩
  · rintro rfl; rfl
  · rintro blob rfl rfl; rfl
  · rintro blob content e rfl rfl he; simp only [patchCommand, he]

example : patchCommand Toy.env (.ok (.dict [(§"op", .str §"replace"), (§"path", .str §"/a"), (§"value", .int 2)]))
    (some §"a: 1\n") = (.exit 0, some §"a: 2\n") := by decide +kernel

/-- Not atomic: when a patch fails, the patches before it stay in the file. -/
theorem C49_atomic_violation :
    patchCommand Toy.env (.ok (.list [.dict [(§"op", .str §"replace"), (§"path", .str §"/a"), (§"value", .int 2)],
      .dict [(§"op", .str §"remove"), (§"path", .str §"/b")]])) (some §"a: 1\n") = (.exit 106, some §"a: 2\n") := by
  decide +kernel

/-- A run that fails without applying anything still rewrites the file. -/
theorem C49_rewrite_violation :
    patchCommand Toy.env (.ok (.dict [(§"op", .str §"remove"), (§"path", .str §"/b")])) (some §"a:   1\n\n\n# end\n") =
      (.exit 106, some §"a: 1\n\n# end") := by
  decide +kernel

/-! ## Histograms and dictionaries -/

theorem lookupD_histAdd (h : List (Str × Nat)) (x y : Str) :
    lookupD y (histAdd h x) = if y = x then some ((lookupD x h).getD 0 + 1) else lookupD y h := by
  unfold histAdd
  rw [lookupD_insertD]

theorem lookupD_histFold (l : List Str) (h : List (Str × Nat)) (x : Str) :
    lookupD x (l.foldl histAdd h) = if x ∈ l then some ((lookupD x h).getD 0 + l.count x) else lookupD x h := by
  induction l generalizing h with
  | nil => simp
  | cons y l ih =>
    rw [List.foldl_cons, ih, lookupD_histAdd]
    by_cases hxy : x = y
    · subst hxy
      by_cases hx : x ∈ l
      · simp [hx]; omega
      · simp [hx, List.count_eq_zero.2 hx]
    · have : (y == x) = false := by simpa using Ne.symm hxy
      simp [hxy, List.count_cons, this]

theorem nodup_histFold (l : List Str) (h : List (Str × Nat)) (hn : (h.map (·.1)).Nodup) :
    ((l.foldl histAdd h).map (·.1)).Nodup := by
  induction l generalizing h with
  | nil => exact hn
  | cons y l ih => exact ih _ (nodup_insertD _ _ _ hn)

namespace Spec

/-- `hist` has one entry for each text of `l`: the number of its occurrences. -/
def Counts (hist : List (Str × Nat)) (l : List Str) : Prop :=
  (hist.map (·.1)).Nodup ∧ ∀ x, lookupD x hist = if x ∈ l then some (l.count x) else none

end Spec

theorem histFold_counts (l : List Str) : Counts (l.foldl histAdd []) l :=
  ⟨nodup_histFold l [] (by simp), fun x => by rw [lookupD_histFold]; simp [lookupD]⟩

theorem insertD_fresh {α : Type} (k : Str) (v : α) (d : List (Str × α)) (h : k ∉ d.map (·.1)) :
    insertD k v d = d ++ [(k, v)] := by
  induction d with
  | nil => rfl
  | cons e d ih =>
    obtain ⟨l, w⟩ := e
    simp only [List.map_cons, List.mem_cons, not_or] at h
    simp only [insertD, if_neg (Ne.symm h.1), List.cons_append, ih h.2]

theorem dictOf_distinct {α : Type} (pairs : List (Str × α)) (h : (pairs.map (·.1)).Nodup) : dictOf pairs = pairs := by
  suffices ∀ (d : List (Str × α)), ((d ++ pairs).map (·.1)).Nodup →
      pairs.foldl (fun d kv => insertD kv.1 kv.2 d) d = d ++ pairs by simpa [dictOf] using this [] (by simpa using h)
  induction pairs with
  | nil => intro d _; simp
  | cons kv pairs ih =>
    intro d hd
    rw [List.foldl_cons, insertD_fresh, ih (by simpa using (List.nodup_cons.1 h).2)]
    · simp
    · simpa using hd
    · intro hm
      rw [List.map_append, List.nodup_append] at hd
      exact hd.2.2 _ hm _ (by simp) rfl

/-! ## C50 -/

namespace Spec

/-- The conversion of a file runs to its end, with this output and these messages. -/
def Converted (K : Converter) (content : Option Str) (out : Str) (msgs : MsgTable) : Prop :=
  ∃ text text' r, content = some text ∧ K.pre text = .ok text' ∧ K.parse text' = .ok r ∧ r.schema = .v0 ∧
    K.convert r = .ok (out, msgs)

end Spec

theorem count_pos {t : MsgTable} {c : Category} : t.count c > 0 ↔ t.get c ≠ [] := by
  unfold MsgTable.count MsgTable.get
  cases t.find c with
  | none => simp
  | some l => simp only [Option.getD_some]; exact List.length_pos_iff

/-- C50: a conversion that runs to its end gives its output and its messages; the code is 101 if there are errors, else
100 if there are warnings, else 0. -/
theorem C50_converted (K : Converter) (path : Str) (content : Option Str) (out : Str) (msgs : MsgTable)
    (h : Converted K content out msgs) :
    convertFile K path content =
      ⟨if msgs.get .error ≠ [] then 101 else if msgs.get .warning ≠ [] then 100 else 0, out, msgs⟩ := by
  obtain ⟨text, text', r, rfl, h1, h2, h3, h4⟩ := h
  simp only [convertFile, h1, h2, h3, ne_eq, not_true, if_false, h4, ConvResult.setReturnCode, count_pos]
  by_cases he : msgs.get .error = []
  · by_cases hw : msgs.get .warning = []
    · simp [he, hw]
    · simp [he, hw]
  · simp [he]

theorem convFailure_msgs (code : Nat) (msg : Str) :
    (convFailure code msg).msgs.get .error = [] ∧ (convFailure code msg).msgs.get .warning = [] ∧
    (convFailure code msg).msgs.get .exception = [msg] := by
  simp [convFailure, MsgTable.add, MsgTable.get, MsgTable.find]

/-- C50: a conversion that does not run to its end gives no output and one exception message; the code tells where it
stopped. -/
theorem C50_failed (K : Converter) (path : Str) (content : Option Str) (h : ¬ ∃ out msgs, Converted K content out msgs) :
    let res := convertFile K path content
    res.content = [] ∧ res.msgs.get .error = [] ∧ res.msgs.get .warning = [] ∧ (∃ msg, res.msgs.get .exception = [msg]) ∧
    ((res.code = 104 ∧ content = none) ∨
     ∃ text, content = some text ∧
      ((res.code = 105 ∧ ∃ e, K.pre text = .error e) ∨
       ∃ text', K.pre text = .ok text' ∧
        ((res.code = 102 ∧ ∃ e, K.parse text' = .error e) ∨
         ∃ r, K.parse text' = .ok r ∧
          ((res.code = 106 ∧ r.schema ≠ .v0) ∨ (res.code = 103 ∧ r.schema = .v0 ∧ ∃ e, K.convert r = .error e))))) := by
  intro res
  have key : ∀ code msg, res = convFailure code msg →
      res.content = [] ∧ res.msgs.get .error = [] ∧ res.msgs.get .warning = [] ∧ (∃ msg, res.msgs.get .exception = [msg]) ∧
      res.code = code := by
    intro code msg hr
    have := convFailure_msgs code msg
    rw [hr]
    exact ⟨rfl, this.1, this.2.1, ⟨msg, this.2.2⟩, rfl⟩
  cases hc : content with
  | none =>
    obtain ⟨a, b, c, d, e⟩ := key _ _ (by show convertFile K path content = _; rw [hc]; rfl)
    exact ⟨a, b, c, d, Or.inl ⟨e, rfl⟩⟩
  | some text =>
    subst hc
    cases h1 : K.pre text with
    | error e =>
      obtain ⟨a, b, c, d, e'⟩ := key _ _ (by show convertFile K path _ = _; simp only [convertFile, h1]; rfl)
      exact ⟨a, b, c, d, Or.inr ⟨text, rfl, Or.inl ⟨e', e, h1⟩⟩⟩
    | ok text' =>
      cases h2 : K.parse text' with
      | error e =>
        obtain ⟨a, b, c, d, e'⟩ := key _ _ (by show convertFile K path _ = _; simp only [convertFile, h1, h2]; rfl)
        exact ⟨a, b, c, d, Or.inr ⟨text, rfl, Or.inr ⟨text', h1, Or.inl ⟨e', e, h2⟩⟩⟩⟩
      | ok r =>
        by_cases h3 : r.schema = .v0
        · cases h4 : K.convert r with
          | error e =>
            obtain ⟨a, b, c, d, e'⟩ := key _ _ (by
              show convertFile K path _ = _
              simp only [convertFile, h1, h2, h3, ne_eq, not_true, if_false, h4]; rfl)
            exact ⟨a, b, c, d, Or.inr ⟨text, rfl, Or.inr ⟨text', h1, Or.inr ⟨r, h2, Or.inr ⟨e', h3, e, h4⟩⟩⟩⟩⟩
          | ok p =>
            exact absurd ⟨p.1, p.2, text, text', r, rfl, h1, h2, h3, h4⟩ h
        · obtain ⟨a, b, c, d, e'⟩ := key _ _ (by
            show convertFile K path _ = _
            simp only [convertFile, h1, h2, ne_eq, h3, not_false_eq_true, if_true]; rfl)
          exact ⟨a, b, c, d, Or.inr ⟨text, rfl, Or.inr ⟨text', h1, Or.inr ⟨r, h2, Or.inl ⟨e', h3⟩⟩⟩⟩⟩

namespace Spec

/-- The codes of failures counted as exceptions. -/
def isException (r : ConvResult) : Bool := [102, 103, 104].contains r.code

/-- Success: no errors, possibly warnings. -/
def isSuccess (r : ConvResult) : Bool := [0, 100].contains r.code && (r.msgs.get .error).isEmpty

end Spec

theorem step_fields (s : ConvStats) (e : Str × ConvResult) :
    (s.step e).withExcept = s.withExcept ++ (if isException e.2 then [e.1] else []) ∧
    (s.step e).exceptHist = (if isException e.2 then e.2.msgs.get .exception else []).foldl histAdd s.exceptHist ∧
    (s.step e).withErrors = s.withErrors ++ (if e.2.msgs.get .error ≠ [] then [e.1] else []) ∧
    (s.step e).errorHist = (e.2.msgs.get .error).foldl histAdd s.errorHist ∧
    (s.step e).totalErrors = s.totalErrors + (e.2.msgs.get .error).length ∧
    (s.step e).withWarnings = s.withWarnings ++ (if e.2.msgs.get .warning ≠ [] then [e.1] else []) ∧
    (s.step e).warningHist = (e.2.msgs.get .warning).foldl histAdd s.warningHist ∧
    (s.step e).totalWarnings = s.totalWarnings + (e.2.msgs.get .warning).length ∧
    (s.step e).numSuccess = s.numSuccess + (if isSuccess e.2 then 1 else 0) := by
  obtain ⟨name, r⟩ := e
  have hE : isException r = true ↔ (r.code = ExitCode.parseException ∨ r.code = ExitCode.readException ∨
      r.code = ExitCode.renderException) := by
    simp only [isException, List.contains_iff_mem, List.mem_cons, List.not_mem_nil, or_false]
    constructor <;> (rintro (h | h | h) <;> simp [h])
  have hS : isSuccess r = true ↔ ((r.code = ExitCode.success ∨ r.code = ExitCode.renderWarnings) ∧
      (r.msgs.get .error).isEmpty = true) := by
    simp [isSuccess]
  unfold ConvStats.step ConvStats.addSuccess
  by_cases h1 : isException r = true <;> by_cases h2 : isSuccess r = true
  all_goals
    simp only [← hS, h1, h2, if_true, if_false, ConvStats.addWarnings, ConvStats.addErrors, ConvStats.addExcept, ← hE,
      Bool.false_eq_true, ne_eq]
    by_cases h3 : r.msgs.get .error = [] <;> by_cases h4 : r.msgs.get .warning = [] <;> simp [h3, h4]

/-- C50: the statistics of a bulk conversion say what happened: the recipes with exceptions, errors and warnings are
listed, in order, and counted; the totals count every error and every warning; the histograms count every message. -/
theorem C50_stats (results : List (Str × ConvResult)) :
    let s := convStats results
    s.withExcept = (results.filter (isException ·.2)).map (·.1) ∧
    s.withErrors = (results.filter (·.2.msgs.get .error ≠ [])).map (·.1) ∧
    s.withWarnings = (results.filter (·.2.msgs.get .warning ≠ [])).map (·.1) ∧
    s.totalErrors = (results.flatMap (·.2.msgs.get .error)).length ∧
    s.totalWarnings = (results.flatMap (·.2.msgs.get .warning)).length ∧
    Counts s.exceptHist ((results.filter (isException ·.2)).flatMap (·.2.msgs.get .exception)) ∧
    Counts s.errorHist (results.flatMap (·.2.msgs.get .error)) ∧
    Counts s.warningHist (results.flatMap (·.2.msgs.get .warning)) ∧
    s.numSuccess = results.countP (isSuccess ·.2) := by
  have key : ∀ (results : List (Str × ConvResult)) (s : ConvStats),
      (results.foldl ConvStats.step s).withExcept = s.withExcept ++ (results.filter (isException ·.2)).map (·.1) ∧
      (results.foldl ConvStats.step s).withErrors = s.withErrors ++ (results.filter (·.2.msgs.get .error ≠ [])).map (·.1) ∧
      (results.foldl ConvStats.step s).withWarnings =
        s.withWarnings ++ (results.filter (·.2.msgs.get .warning ≠ [])).map (·.1) ∧
      (results.foldl ConvStats.step s).totalErrors = s.totalErrors + (results.flatMap (·.2.msgs.get .error)).length ∧
      (results.foldl ConvStats.step s).totalWarnings = s.totalWarnings + (results.flatMap (·.2.msgs.get .warning)).length ∧
      (results.foldl ConvStats.step s).exceptHist =
        ((results.filter (isException ·.2)).flatMap (·.2.msgs.get .exception)).foldl histAdd s.exceptHist ∧
      (results.foldl ConvStats.step s).errorHist = (results.flatMap (·.2.msgs.get .error)).foldl histAdd s.errorHist ∧
      (results.foldl ConvStats.step s).warningHist = (results.flatMap (·.2.msgs.get .warning)).foldl histAdd s.warningHist ∧
      (results.foldl ConvStats.step s).numSuccess = s.numSuccess + results.countP (isSuccess ·.2) := by
    intro results
    induction results with
    | nil => intro s; simp
    | cons e results ih =>
      intro s
      obtain ⟨a1, a2, a3, a4, a5, a6, a7, a8, a9⟩ := ih (s.step e)
      obtain ⟨b1, b2, b3, b4, b5, b6, b7, b8, b9⟩ := step_fields s e
      rw [List.foldl_cons, a1, a2, a3, a4, a5, a6, a7, a8, a9, b1, b2, b3, b4, b5, b6, b7, b8, b9]
      refine ⟨?_, ?_, ?_, ?_, ?_, ?_, ?_, ?_, ?_⟩
      · by_cases h : isException e.2 = true <;> simp [h]
      · by_cases h : e.2.msgs.get .error = [] <;> simp [h]
      · by_cases h : e.2.msgs.get .warning = [] <;> simp [h]
      · simp; omega
      · simp; omega
      · by_cases h : isException e.2 = true <;> simp [h, List.foldl_append]
      · simp [List.foldl_append]
      · simp [List.foldl_append]
      · rw [List.countP_cons]; omega
  intro s
  have hs : s = results.foldl ConvStats.step {} := rfl
  obtain ⟨a1, a2, a3, a4, a5, a6, a7, a8, a9⟩ := key results {}
  rw [← hs] at a1 a2 a3 a4 a5 a6 a7 a8 a9
  refine ⟨by simpa using a1, by simpa using a2, by simpa using a3, by simpa using a4, by simpa using a5, ?_, ?_, ?_,
    by simpa using a9⟩
  · show Counts s.exceptHist _
    rw [a6]; exact histFold_counts _
  · show Counts s.errorHist _
    rw [a7]; exact histFold_counts _
  · show Counts s.warningHist _
    rw [a8]; exact histFold_counts _

/-- C50: a bulk conversion has one result for each file, in the order of the files (which have different paths). -/
theorem C50_results (K : Converter) (round2 : Nat → Nat → Int) (files : List SrcFile) (output : Option Str) (m : Threshold)
    (h2 : 2 ≤ files.length) (hd : (files.map (·.rel)).Nodup) :
    (convertCommand K round2 files output m).results = files.map (fun f => (f.rel, convertFile K f.path f.content)) ∧
    (convertCommand K round2 files output m).stats = convStats (files.map fun f => (f.rel, convertFile K f.path f.content)) := by
  match files, h2 with
  | f :: g :: files, _ =>
    have hnd : ((((f :: g :: files).map fun f => (f.rel, convertFile K f.path f.content))).map (·.1)).Nodup := by
      rw [List.map_map]; exact hd
    refine ⟨?_, ?_⟩
    · exact dictOf_distinct _ hnd
    · show convStats (dictOf _) = _
      rw [dictOf_distinct _ hnd]

/-- C50: the number of successes the command expects (all recipes but those with exceptions or errors) exceeds the number
of successes it counts by the recipes that failed in pre-processing or are not in the V0 format. -/
theorem C50_self_check_partial (K : Converter) (files : List SrcFile) :
    let results := files.map fun f => (f.rel, convertFile K f.path f.content)
    (convStats results).theoretical files.length =
      (convStats results).numSuccess + results.countP (fun e => decide (e.2.code = 105 ∨ e.2.code = 106)) := by
  intro results
  obtain ⟨h1, h2, _, _, _, _, _, _, h9⟩ := C50_stats results
  unfold ConvStats.theoretical
  rw [h1, h2, h9, List.length_map, List.length_map, ← List.countP_eq_length_filter, ← List.countP_eq_length_filter]
  have hlen : files.length = results.length := by simp [results]
  rw [hlen]
  have hres : ∀ e ∈ results, ∃ f : SrcFile, e = (f.rel, convertFile K f.path f.content) := by
    intro e he
    simp only [results, List.mem_map] at he
    obtain ⟨f, _, rfl⟩ := he
    exact ⟨f, rfl⟩
  have hsum : ∀ l : List (Str × ConvResult), (∀ e ∈ l, ∃ f : SrcFile, e = (f.rel, convertFile K f.path f.content)) →
      l.length = l.countP (isException ·.2) + l.countP (fun e => decide (e.2.msgs.get .error ≠ [])) +
        l.countP (isSuccess ·.2) + l.countP (fun e => decide (e.2.code = 105 ∨ e.2.code = 106)) := by
    intro l
    induction l with
    | nil => intro _; rfl
    | cons e l ih =>
      intro hl
      have ih := ih (fun e he => hl e (by simp [he]))
      obtain ⟨f, rfl⟩ := hl e (by simp)
      simp only [List.countP_cons, List.length_cons]
      suffices (if isException (convertFile K f.path f.content) = true then 1 else 0) +
          (if decide ((convertFile K f.path f.content).msgs.get .error ≠ []) = true then 1 else 0) +
          (if isSuccess (convertFile K f.path f.content) = true then 1 else 0) +
          (if decide ((convertFile K f.path f.content).code = 105 ∨ (convertFile K f.path f.content).code = 106) = true then 1
            else 0) = 1 by omega
      by_cases hc : ∃ out msgs, Converted K f.content out msgs
      · obtain ⟨out, msgs, hc⟩ := hc
        rw [C50_converted K f.path f.content out msgs hc]
        by_cases he : msgs.get .error = []
        · by_cases hw : msgs.get .warning = [] <;> simp [he, hw, isException, isSuccess]
        · simp [he, isException, isSuccess]
      · obtain ⟨_, a2, _, _, a5⟩ := C50_failed K f.path f.content hc
        have hcode : (convertFile K f.path f.content).code ∈ [102, 103, 104, 105, 106] := by
          rcases a5 with ⟨h, _⟩ | ⟨_, _, ⟨h, _⟩ | ⟨_, _, ⟨h, _⟩ | ⟨_, _, ⟨h, _⟩ | ⟨h, _⟩⟩⟩⟩ <;> simp [h]
        simp only [List.mem_cons, List.not_mem_nil, or_false] at hcode
        rcases hcode with h | h | h | h | h <;> simp [isException, isSuccess, a2, h]
  have := hsum results hres
  omega

end Crm
