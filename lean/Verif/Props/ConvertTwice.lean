import Verif.Props.ConvertMain

/-!
# C123: A converted recipe is not converted again
-/

namespace Crm
open Spec

/-- C123: `convert` on the file that a conversion has written is refused with code 106; nothing is printed to the standard output and no
file is written.  Missing: conversions outside the relation of C90, output that is not the text of a document, and output in which the
pre-processing would change something. -/
theorem C123_not_again_partial {E : Env} {W : ConvWorld} {variants : List Str} (hvar : variants.Perm hashTypeLines) (shown : PyErr → Str)
    (round2 : Nat → Nat → Int) (minRate : Threshold) (f : SrcFile) (output : Option Str) {recognised : Str → Option Str} {v1 : Recipe}
    {root : Node} {vars : List (Str × PyVal)} {says : List (Category × Str)} {ds : List Doc}
    (hconv : Conversion E recognised v1 root vars says) (hroot : root = Doc.root ds) (hd : Doc.Document E ds)
    (hv : ValueOf E §"schema_version" root.children (some (.int 1))) (hf : f.content = some (Doc.text ds))
    (hp : PreProcessed variants (Doc.text ds) (Doc.text ds)) :
    convertOne (crmConverter E W variants) shown round2 f output minRate =
      ⟨.exit 106, [], [§"ILLEGAL OPERATION: Only V0-formatted recipe files can be converted", §"0 errors and 0 warnings were found."], []⟩ := by
  obtain ⟨r, h1, h2, h3, _⟩ := C95_output_is_read_partial hconv hroot hd hv
  have hren : r.render = Doc.text ds := by
    rw [C31_render E r ds (h2.trans hroot) hd.1, h3, if_neg (by decide)]
    rfl
  have hnew : newConv E (Doc.text ds) = .ok ⟨r, r, []⟩ := by
    unfold newConv
    simp only [Bind.bind, Except.bind, h1, hren]
  exact (((((C95_failed (crmConverter E W variants) shown round2 f output minRate).2 _ hf).2 _
    (congrArg Except.ok ((C87_pre_process variants hvar _ _).2 hp))).2 r (by
      show (do let c ← newConv E (Doc.text ds); Except.ok c.self) = _
      rw [hnew]
      rfl)).1 h3)

/-! ## The output of the example of C95, converted again -/

namespace WholeExample

def wAgain : SrcFile := ⟨§"x", §"x/recipe.yaml", §"x/recipe.yaml", some (Doc.text wDoc)⟩

example : convertOne (crmConverter Toy.env exWorld hashTypeLines) (fun _ => []) (fun _ _ => 0) wAgain (some §"x/recipe.yaml") ⟨4, 5⟩ =
    ⟨.exit 106, [], [§"ILLEGAL OPERATION: Only V0-formatted recipe files can be converted", §"0 errors and 0 warnings were found."], []⟩ := by
  obtain ⟨c, hc, hroot, hv, hs⟩ := w_new
  have hp : PreProcessed hashTypeLines (Doc.text wDoc) (Doc.text wDoc) := (C87_pre_process _ (.refl _) _ _).1 (by decide +kernel)
  exact C123_not_again_partial (.refl _) _ _ _ wAgain _ (w_conversion hroot hv) (by decide) w_document
    (.present (a := []) (m := schemaW) (b := [ctxW, recipeW, outW o4]) rfl ⟨rfl, by decide⟩ (by decide +kernel)) rfl hp

end WholeExample

end Crm
