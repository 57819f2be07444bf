import Verif.Model.ConvertMain
import Verif.Props.ConvWhole
import Verif.Props.RoundTrip
import Verif.Props.PreProcess
import Verif.Props.Scanner
import Verif.Props.Bulk
import Verif.Examples.DocCheck

/-! # C95: `crm convert` from the file to the file -/

namespace Crm

open Spec

namespace Spec

/-- The messages of a kind. -/
def ofKind (c : Category) (says : List (Category × Str)) : List Str := (says.filter fun m => m.1 == c).map (·.2)

/-- The exit code of a conversion that came to its end. -/
def exitFor (says : List (Category × Str)) : Nat :=
  if ofKind .error says ≠ [] then 101 else if ofKind .warning says ≠ [] then 100 else 0

/-- `1 error`, `2 errors`. -/
def inNumber (n : Nat) (word : Str) : Str := natStr n ++ §" " ++ word ++ if n = 1 then [] else §"s"

/-- What is printed about the messages: the warnings, the errors, a summary. -/
def reported (says : List (Category × Str)) : List Str :=
  (ofKind .warning says).map (§"[WARNING]: " ++ ·) ++ (ofKind .error says).map (§"[ERROR]: " ++ ·) ++
    [if says = [] then [] else
      inNumber (ofKind .error says).length §"error" ++ §" and " ++ inNumber (ofKind .warning says).length §"warning" ++ §" were found."]

end Spec

theorem run_says (says : List (Category × Str)) : says.foldl (fun (t : MsgTable) m => t.add m.1 m.2) [] =
    MsgTable.run [] (says.map fun m => .add m.1 m.2) := by
  generalize ([] : MsgTable) = t
  induction says generalizing t with
  | nil => rfl
  | cons m ms ih => exact ih _

theorem messagesSince_says (c : Category) (past : List Str) (says : List (Category × Str)) :
    messagesSince c past (says.map fun m => .add m.1 m.2) = past ++ ofKind c says := by
  induction says generalizing past with
  | nil => simp [messagesSince, ofKind]
  | cons m ms ih =>
    simp only [List.map_cons, messagesSince]
    rw [ih]
    by_cases h : m.1 = c
    · simp [ofKind, h]
    · simp [ofKind, h]

theorem get_says (c : Category) (says : List (Category × Str)) :
    (says.foldl (fun (t : MsgTable) m => t.add m.1 m.2) []).get c = ofKind c says := by
  rw [run_says, (C56_messages _ c).1, messagesSince_says]; rfl

theorem totals_says (says : List (Category × Str)) :
    (says.foldl (fun (t : MsgTable) m => t.add m.1 m.2) []).totals = if says = [] then [] else
      inNumber (ofKind .error says).length §"error" ++ §" and " ++ inNumber (ofKind .warning says).length §"warning" ++ §" were found." := by
  rw [run_says]
  have h := C56_totals (says.map fun m => MsgOp.add m.1 m.2)
  simp only [messagesSince_says, List.nil_append] at h
  by_cases hs : says = []
  · rw [if_pos hs]
    apply h.1
    intro c; rw [hs]; rfl
  · rw [if_neg hs, h.2]
    · unfold inNumber
      generalize (ofKind .error says).length = a
      generalize (ofKind .warning says).length = b
      split <;> split <;> simp
    · intro hall
      cases says with
      | nil => exact hs rfl
      | cons m ms => have := hall m.1; simp [ofKind] at this

theorem splitChar_snoc (sep : Char) (d b : Str) (hb : sep ∉ b) : splitChar sep (d ++ sep :: b) = splitChar sep d ++ [b] := by
  have h := splitChar_join sep (splitChar sep d ++ [b]) (by simp) (by
    intro p hp
    rcases List.mem_append.1 hp with h | h
    · exact splitChar_no_sep sep d p h
    · rw [List.mem_singleton.1 h]; exact hb)
  rw [joinStr_append _ _ _ (splitChar_ne_nil sep d) (by simp), join_splitChar] at h
  simpa [joinStr] using h

theorem baseName_iff (o : Str) : baseName o = §"recipe.yaml" ↔ o = §"recipe.yaml" ∨ §"/recipe.yaml" <:+ o := by
  unfold baseName
  constructor
  · intro h
    have hj := join_splitChar '/' o
    have hne := splitChar_ne_nil '/' o
    generalize splitChar '/' o = ps at *
    subst hj
    rcases List.eq_nil_or_concat ps with rfl | ⟨ini, last, rfl⟩
    · exact absurd rfl hne
    · rw [List.concat_eq_append] at *
      have hl : last = §"recipe.yaml" := by simpa using h
      subst hl
      by_cases hi : ini = []
      · subst hi; exact .inl rfl
      · right
        rw [joinStr_append _ _ _ hi (by simp)]
        exact ⟨joinStr ['/'] ini, by simp [joinStr]⟩
  · rintro (rfl | ⟨d, rfl⟩)
    · decide
    · rw [show §"/recipe.yaml" = '/' :: §"recipe.yaml" from rfl, splitChar_snoc _ _ _ (by decide)]
      simp

/-- C95: a conversion that comes to its end.  Without `-o` the new recipe, and nothing else, is printed to the standard output;
with `-o` it is written to the file and nothing is printed there.  The messages go to the standard error output, and the exit code
says whether there are any. -/
theorem C95_converted (K : Converter) (shown : PyErr → Str) (round2 : Nat → Nat → Int) (f : SrcFile) (output : Option Str)
    (minRate : Threshold) (out : Str) (says : List (Category × Str))
    (h : Converted K f.content out (says.foldl (fun (t : MsgTable) m => t.add m.1 m.2) [])) :
    convertOne K shown round2 f output minRate = match output with
      | none => ⟨.exit (exitFor says), [out], reported says, []⟩
      | some o => ⟨.exit (exitFor says), [],
          (if o = §"recipe.yaml" ∨ §"/recipe.yaml" <:+ o then [] else [§"WARNING: File is not called `recipe.yaml`."]) ++ reported says,
          [(o, out)]⟩ := by
  have hc := C50_converted K f.path f.content out _ h
  have hp : convertPrints K shown f output = match output with
      | none => ([out], [])
      | some o => ([], if baseName o ≠ §"recipe.yaml" then [§"WARNING: File is not called `recipe.yaml`."] else []) := by
    obtain ⟨text, text', r, h0, h1, h2, h3, h4⟩ := h
    cases output <;> simp only [convertPrints, h0, h1, h2, h3, h4, ne_eq, not_true, if_false]
  have hw : (convertFile K f.path f.content).writes = true := (writes_iff K f.path f.content).2 ⟨out, _, h⟩
  have hmsgs : printMessages .warning (convertFile K f.path f.content).msgs ++ printMessages .error (convertFile K f.path f.content).msgs ++
      [(convertFile K f.path f.content).msgs.totals] = reported says := by
    rw [hc]
    simp only [printMessages, get_says, totals_says, categoryName, reported]
    rfl
  have hcode : (convertFile K f.path f.content).code = exitFor says := by
    rw [hc]; simp only [get_says, exitFor]
  unfold convertOne
  simp only [List.append_assoc] at hmsgs ⊢
  rw [hp, hmsgs]
  cases output with
  | none => simp only [convertCommand, hcode, List.nil_append]
  | some o =>
    have hout : (convertFile K f.path f.content).content = out := by rw [hc]
    simp only [convertCommand, hcode, hw, if_true, hout, ne_eq, baseName_iff]
    by_cases hx : o = §"recipe.yaml" ∨ §"/recipe.yaml" <:+ o
    · rw [if_neg (fun h => h hx), if_pos hx]
    · rw [if_pos hx, if_neg hx]

/-- C95 (in part): from file to file.  The text of the file is pre-processed (C87) and read; the conversion (C90) gives a tree,
variables and messages.  When the tree is that of a document, the text of the document is what is printed or written. -/
theorem C95_file_to_file_partial {E : Env} {W : ConvWorld} (hW : ∀ l, (W.order l).Perm l) {variants : List Str}
    (hv : variants.Perm hashTypeLines) (shown : PyErr → Str) (round2 : Nat → Nat → Int) (minRate : Threshold) (f : SrcFile)
    (output : Option Str) {text pre : Str} {r v1 : Recipe} {root : Node} {vars : List (Str × PyVal)} {says : List (Category × Str)}
    {ds : List Doc} (hf : f.content = some text) (hp : PreProcessed variants text pre) (hr : Recipe.ofString E pre = .ok r)
    (hs : r.schema = .v0) (hc : Recipe.ofString E r.render = .ok v1)
    (hconv : Conversion E (findLicense W.close W.db) v1 root vars says) (hroot : root = Doc.root ds) (hok : Doc.OkL E ds) :
    convertOne (crmConverter E W variants) shown round2 f output minRate = match output with
      | none => ⟨.exit (exitFor says), [Doc.text ds], reported says, []⟩
      | some o => ⟨.exit (exitFor says), [],
          (if o = §"recipe.yaml" ∨ §"/recipe.yaml" <:+ o then [] else [§"WARNING: File is not called `recipe.yaml`."]) ++ reported says,
          [(o, Doc.text ds)]⟩ := by
  have hnew : newConv E pre = .ok ⟨r, v1, []⟩ := by
    unfold newConv
    simp only [Bind.bind, Except.bind, hr, hc]
  obtain ⟨c', e1, _, e2, e3, _, e5⟩ := C90_conversion_partial hW hnew hconv
  apply C95_converted
  refine ⟨text, pre, r, hf, ?_, ?_, hs, ?_⟩
  · exact congrArg Except.ok ((C87_pre_process variants hv text pre).2 hp)
  · show (do let c ← newConv E pre; Except.ok c.self) = _
    rw [hnew]; rfl
  · show (do let v ← Recipe.ofString E r.render; (renderToV1 E W ⟨r, v, []⟩).1) = _
    rw [hc]
    show (renderToV1 E W ⟨r, v1, []⟩).1 = _
    rw [e1, e5, C31_render E c'.v1 ds (e2.trans hroot) hok, e3]
    rfl

/-- C95 (in part): reading the output again.  The result is a recipe of the V1 format with the tree and the variables of the
conversion. -/
theorem C95_output_is_read_partial {E : Env} {recognised : Str → Option Str} {v1 : Recipe} {root : Node} {vars : List (Str × PyVal)}
    {says : List (Category × Str)} {ds : List Doc} (hconv : Conversion E recognised v1 root vars says) (hroot : root = Doc.root ds)
    (hd : Doc.Document E ds) (hv : ValueOf E §"schema_version" root.children (some (.int 1))) :
    ∃ r, Recipe.ofString E (Doc.text ds) = .ok r ∧ r.root = root ∧ r.schema = .v1 ∧ r.vars = vars := by
  have hparse := C31_text_is_read E ds hd
  rw [← hroot] at hparse
  obtain ⟨es1, es2, hconv⟩ := hconv
  cases hconv with
  | @mk n order bad ctx old count ks ks1 ks2 ks3 ks4 ks5 says1 says3 context hone hn hks ho hs ha hi hk1 hvars hctx hput hes hk2 hne hcount
      hsec hout hold hp hord hval =>
    have hne5 : ks5 ≠ [] := by
      rintro rfl
      obtain ⟨⟩ | ⟨h, _, _⟩ := hv
      simp at h
    have key : ∀ x (hx : KeyName x) (v : Option PyVal) (d : PyVal), ValueOf E x ks5 v →
        getValueIn E { n with children := ks5 } (absPath [x]) (some d) = .ok (v.getD d) := by
      intro x hx v d h
      let v1' : Recipe := { v1 with root := { n with children := ks5 } }
      have hsec : Section ⟨v1, v1', []⟩ [] [] n ks5 := ⟨by simp, rfl, rfl, Or.inl ⟨Or.inr hne5, hn, by decide⟩⟩
      obtain ⟨c1, g1, _, _⟩ := InSection.valueOf (E := E) hx h d _ hsec
      simp only [valueAt, Act.ask] at g1
      exact congrArg Prod.fst g1
    have h1 := key §"schema_version" (by decide) _ (.int 0) hv
    have h2 := key §"context" (by decide) _ (.dict []) hval
    refine ⟨⟨Doc.text ds, { n with children := ks5 }, .v1, contextEntries context, rebuildSelectors { n with children := ks5 }, false⟩, ?_,
      rfl, rfl, rfl⟩
    unfold Recipe.ofString
    rw [hparse]
    simp only [Bind.bind, Except.bind]
    rw [show §"/schema_version" = absPath [§"schema_version"] from rfl, h1]
    simp only [Option.getD_some, show schemaOf (.int 1) = .v1 from rfl]
    rw [show §"/context" = absPath [§"context"] from rfl, h2]
    rcases context with _ | v
    · rfl
    · cases v <;> rfl

/-- C95: a conversion that does not come to its end prints nothing to the standard output and writes no file.  The exit code and
the first line of the standard error output tell what went wrong. -/
theorem C95_failed (K : Converter) (shown : PyErr → Str) (round2 : Nat → Nat → Int) (f : SrcFile) (output : Option Str) (minRate : Threshold) :
    let failed := fun (code : Nat) (lines : List Str) =>
      convertOne K shown round2 f output minRate = ⟨.exit code, [], lines ++ [§"0 errors and 0 warnings were found."], []⟩
    (f.content = none → failed 104 [§"EXCEPTION: Failed to read: " ++ f.path, shown .ioError]) ∧
    ∀ text, f.content = some text →
      (∀ e, K.pre text = .error e → failed 105 [§"EXCEPTION: An exception occurred while pre-processing the recipe file", shown e]) ∧
      ∀ text', K.pre text = .ok text' →
        (∀ e, K.parse text' = .error e → failed 102 [§"EXCEPTION: An exception occurred while parsing the recipe file", shown e]) ∧
        ∀ r, K.parse text' = .ok r →
          (r.schema = .v1 → failed 106 [§"ILLEGAL OPERATION: Only V0-formatted recipe files can be converted"]) ∧
          (r.schema = .v0 → ∀ e, K.convert r = .error e →
            failed 103 [§"EXCEPTION: An exception occurred while converting to the new recipe file", shown e]) := by
  intro failed
  have key : ∀ code msg, convertFile K f.path f.content = convFailure code msg →
      (code = 102 ∨ code = 103 ∨ code = 104 ∨ code = 105 ∨ code = 106) → ∀ lines, convertPrints K shown f output = ([], lines) →
      failed code lines := by
    intro code msg h hcode lines hl
    have hw : (convFailure code msg).writes = false := by
      rcases hcode with rfl | rfl | rfl | rfl | rfl <;> rfl
    have hm := convFailure_msgs code msg
    have ht : (convFailure code msg).msgs.totals = §"0 errors and 0 warnings were found." := rfl
    show convertOne K shown round2 f output minRate = _
    unfold convertOne
    simp only [hl, convertCommand, h, printMessages, hm.1, hm.2.1, ht, hw, List.map_nil, List.append_nil]
    cases output <;> rfl
  refine ⟨fun h => ?_, fun text h => ⟨fun e h1 => ?_, fun text' h1 => ⟨fun e h2 => ?_, fun r h2 => ⟨fun h3 => ?_, fun h3 e h4 => ?_⟩⟩⟩⟩
  · exact key _ _ (by rw [h]; rfl) (by decide) _ (by simp only [convertPrints, h])
  · exact key _ _ (by rw [h]; simp only [convertFile, h1]; rfl) (by decide) _ (by simp only [convertPrints, h, h1])
  · exact key _ _ (by rw [h]; simp only [convertFile, h1, h2]; rfl) (by decide) _ (by simp only [convertPrints, h, h1, h2])
  · exact key _ _ (by rw [h]; simp only [convertFile, h1, h2, h3]; rfl) (by decide) _ (by simp only [convertPrints, h, h1, h2, h3]; rfl)
  · exact key _ _ (by rw [h]; simp only [convertFile, h1, h2, h3, h4]; rfl) (by decide) _ (by simp only [convertPrints, h, h1, h2, h3, h4]; rfl)

/-- C95: which files are converted. -/
theorem C95_targets (K : Converter) (shown : PyErr → Str) (round2 : Nat → Nat → Int) (report : List (Str × ConvResult) → ConvStats → Str)
    (output : Option Str) (minRate : Threshold) :
    (convertMain K shown round2 report .other output minRate =
      ⟨.exit 2, [], [§"Could not identify path as file or directory."], []⟩) ∧
    (convertMain K shown round2 report (.directory []) output minRate =
      ⟨.exit 2, [], [§"Could not find any recipe files in this directory."], []⟩) ∧
    (∀ f t, t = .file f ∨ t = .directory [f] →
      convertMain K shown round2 report t output minRate = convertOne K shown round2 f output minRate) ∧
    ∀ files, 2 ≤ files.length →
      let run := convertMain K shown round2 report (.directory files) output minRate
      run.stdout = [report (convertCommand K round2 files output minRate).results (convertCommand K round2 files output minRate).stats] ∧
        run.stderr = [] ∧ run.stop = (convertCommand K round2 files output minRate).stop ∧
        run.written = (convertCommand K round2 files output minRate).written := by
  refine ⟨rfl, rfl, ?_, ?_⟩
  · rintro f t (rfl | rfl) <;> rfl
  · intro files h
    match files, h with
    | f :: g :: files, _ => exact ⟨rfl, rfl, rfl, rfl⟩

/-! ## The example of C90, from file to file -/

namespace WholeExample

/-- The result, as a document. -/
def wDoc : List Doc :=
  [.scalar §"schema_version" §"1" (.int 1) [],
   .block §"context" [] [.scalar §"v" §"2" (.int 2) []],
   .block §"recipe" [] [.scalar §"name" §"x" (.str §"x") [], .scalar §"version" §"${{ v }}" (.str §"${{ v }}") []],
   .block §"outputs" [] [.elem (.block §"package" [] [.scalar §"name" §"a" (.str §"a") []])
     [.block §"build" [] [.scalar §"skip" §"win" (.str §"win") []],
      .block §"requirements" [] [.block §"run_constraints" [] [.item §"b" (.str §"b") []]]]]]

theorem w_document : Doc.Document Toy.env wDoc := documentB_sound (by decide +kernel)

theorem w_new : ∃ c, newConv Toy.env wText = .ok c ∧ c.v1.root = wRoot ∧ c.v1.vars = [(§"v", .int 2)] ∧ c.self.schema = .v0 := by
  have hroot : (newConv Toy.env wText).map (fun c => (c.v1.root, c.v1.vars)) = .ok (wRoot, [(§"v", .int 2)]) := by decide +kernel
  have hs : (newConv Toy.env wText).map (fun c => c.self.schema) = .ok .v0 := by decide +kernel
  cases hc : newConv Toy.env wText with
  | error e => rw [hc] at hroot; cases hroot
  | ok c =>
    rw [hc] at hroot hs
    injection hroot with hroot
    injection hroot with hroot hv
    injection hs with hs
    exact ⟨c, rfl, hroot, hv, hs⟩

def wFile : SrcFile := ⟨§"x", §"x/meta.yaml", §"x/meta.yaml", some wText⟩

example : convertOne (crmConverter Toy.env exWorld hashTypeLines) (fun _ => []) (fun _ _ => 0) wFile (some §"x/recipe.yaml") ⟨4, 5⟩ =
    ⟨.exit 100, [], [§"[WARNING]: Could not relocate comment: # lost", §"0 errors and 1 warning were found."], [(§"x/recipe.yaml",
§"schema_version: 1

context:
  v: 2

recipe:
  name: x
  version: ${{ v }}

outputs:
  - package:
      name: a
    build:
      skip: win
    requirements:
      run_constraints:
        - b
")]⟩ := by
  obtain ⟨c, hc, hroot, hv, hs⟩ := w_new
  obtain ⟨h1, h2, _⟩ := C51_copy _ _ _ hc
  have hp : PreProcessed hashTypeLines wText wText := (C87_pre_process _ (.refl _) _ _).1 (by decide +kernel)
  rw [C95_file_to_file_partial (W := exWorld) (fun l => .refl l) (.refl _) _ _ _ wFile (some §"x/recipe.yaml") (text := wText) rfl hp h1 hs h2
    (w_conversion hroot hv) (ds := wDoc) (by decide) w_document.1]
  decide +kernel

example : ∃ r, Recipe.ofString Toy.env (Doc.text wDoc) = .ok r ∧ r.root = topW wk5 ∧ r.schema = .v1 ∧ r.vars = [(§"v", .int 2)] := by
  have hroot : (newConv Toy.env wText).map (fun c => (c.v1.root, c.v1.vars)) = .ok (wRoot, [(§"v", .int 2)]) := by decide +kernel
  cases hc : newConv Toy.env wText with
  | error e => rw [hc] at hroot; cases hroot
  | ok c =>
    rw [hc] at hroot
    injection hroot with hroot
    injection hroot with hroot hv
    exact C95_output_is_read_partial (w_conversion hroot hv) (by decide) w_document
      (.present (a := []) (m := schemaW) (b := [ctxW, recipeW, outW o4]) rfl ⟨rfl, by decide⟩ (by decide +kernel))

end WholeExample

end Crm
