import Verif.Spec.PatchPieces
import Verif.Props.PatchFile
import Verif.Props.Interrupt

/-!
# C120: One patch file or several
-/

namespace Crm
open Spec Doc

theorem patchLoop_pieces (E : Env) (qs : List PyVal) : ∀ (ps : List PyVal) (r : Recipe),
    patchLoop E (ps ++ qs) r =
      match patchLoop E ps r with
      | (.exit 0, r') => patchLoop E qs r'
      | stopped => stopped
  | [], r => rfl
  | p :: ps, r => by
    simp only [List.cons_append, patchLoop]
    rcases r.patch E p with ⟨res, r1⟩
    cases res with
    | ok b => cases b with
      | true => exact patchLoop_pieces E qs ps r1
      | false => rfl
    | error e => cases e <;> rfl

theorem patchLoop_alike (E : Env) : ∀ (ps : List PyVal) {r r' : Recipe}, Restored r r' →
    (patchLoop E ps r').1 = (patchLoop E ps r).1 ∧ Restored (patchLoop E ps r).2 (patchLoop E ps r').2
  | [], _, _, h => ⟨rfl, h⟩
  | p :: ps, r, r', h => by
    have hp := patch_alike E h p
    simp only [patchLoop]
    generalize r.patch E p = x at hp
    generalize r'.patch E p = y at hp
    obtain ⟨x1, x2⟩ := x
    obtain ⟨y1, y2⟩ := y
    obtain ⟨h1, h2⟩ := hp
    have h1 : y1 = x1 := h1
    subst h1
    have h2 : Restored x2 y2 := h2
    cases y1 with
    | ok b => cases b with
      | true => exact patchLoop_alike E ps h2
      | false => exact ⟨rfl, h2⟩
    | error e => cases e <;> exact ⟨rfl, h2⟩

theorem patchOnce_eq {E : Env} {text : Str} {r : Recipe} (h : Recipe.ofString E text = .ok r) (ps : List PyVal) :
    patchOnce E text ps =
      match patchLoop E ps r with
      | (.raised e, _) => (.raised e, some text)
      | (.exit c, r) => (.exit c, some r.render) := by
  simp only [patchOnce, patchCommand, h, patchBlobs]
  rfl

/-- Both end alike, and unless that is an exception they leave the same file. -/
def EndAlike (x y : Stop × Option Str) : Prop := x.1 = y.1 ∧ ((∃ c, x.1 = .exit c) → x = y)

theorem patchOnce_alike {E : Env} {t t' : Str} {r r' : Recipe} (h : Recipe.ofString E t = .ok r) (h' : Recipe.ofString E t' = .ok r')
    (hr : Restored r r') (ps : List PyVal) : EndAlike (patchOnce E t' ps) (patchOnce E t ps) := by
  obtain ⟨h1, h2⟩ := patchLoop_alike E ps hr
  rw [patchOnce_eq h, patchOnce_eq h']
  generalize patchLoop E ps r = x at h1 h2
  generalize patchLoop E ps r' = y at h1 h2
  obtain ⟨x1, x2⟩ := x
  obtain ⟨y1, y2⟩ := y
  have h1 : y1 = x1 := h1
  subst h1
  cases y1 with
  | exit c => exact ⟨rfl, fun _ => by simp only [h2.text]⟩
  | raised e => exact ⟨rfl, by rintro ⟨c, hc⟩; cases hc⟩

theorem pieces_alike {E : Env} {vars : List (Str × PyVal)} (hv : Writable E vars) (last : List PyVal) {pieces : List (List PyVal)}
    {ds ds' : List Doc} (hp : Pieces E pieces ds ds') : ∀ (t : Str) (r r0 : Recipe), Document E ds →
    Recipe.ofString E (recipeText vars ds) = .ok r0 → Recipe.ofString E t = .ok r → Restored r0 r → (r0.schema = .v1 → vars = []) →
    EndAlike (patchEach E t (pieces ++ [last])) (patchOnce E t (pieces.flatten ++ last)) := by
  induction hp with
  | nil =>
    intro t r r0 _ _ _ _ _
    have : patchEach E t ([] ++ [last]) = patchOnce E t last := by
      simp only [List.nil_append, patchEach]
      split
      · rename_i h; rw [h]
      · rfl
    rw [this]
    exact ⟨rfl, fun _ => rfl⟩
  | @cons ps rest ds ds1 ds2 hrun hd1 hsame _ ih =>
    intro t r r0 hd h0 hr hres hs
    obtain ⟨_, t2, t3⟩ := C31_text_is_kept_partial E vars ds r0 hv hd h0 hs
    obtain ⟨r1, l1, l2, l3, l4⟩ := patchRun_loop hrun r (hres.lines.trans t2)
    obtain ⟨r2, c1, c2, c3, c4, c5, _⟩ := open_session hv hv hd hd1 h0 hsame fun _ => rfl
    have htext : r1.render = recipeText vars ds1 := by
      rw [C31_render E r1 ds1 l2 hd1.1, l3, l4, hres.format, hres.variables]
      cases hc : r0.schema with
      | v0 => rw [if_pos rfl, t3 hc]
      | v1 => rw [if_neg (by decide), hs hc]
    have h12 : Restored r1 r2 := restored_of (by rw [c2, l2])
      (by
        rw [l3, hres.variables]
        cases hc : r0.schema with
        | v0 => rw [c4 hc, t3 hc]
        | v1 => rw [c5 hc])
      (by rw [c3, l4, hres.format])
    have hfirst : patchEach E t ((ps :: rest) ++ [last]) = patchEach E (recipeText vars ds1) (rest ++ [last]) := by
      rw [List.cons_append, patchEach, patchOnce_eq hr, l1]
      simp only [htext]
    have hih := ih (recipeText vars ds1) r2 r2 hd1 c1 c1 (restored_of rfl rfl rfl) fun hc => hs (c3 ▸ hc)
    obtain ⟨a1, a2⟩ := patchLoop_alike E (rest.flatten ++ last) h12
    have hall : EndAlike (patchOnce E (recipeText vars ds1) (rest.flatten ++ last)) (patchOnce E t ((ps :: rest).flatten ++ last)) := by
      have hloop : patchLoop E ((ps :: rest).flatten ++ last) r = patchLoop E (rest.flatten ++ last) r1 := by
        rw [List.flatten_cons, List.append_assoc, patchLoop_pieces E (rest.flatten ++ last) ps r, l1]
        rfl
      rw [patchOnce_eq c1, patchOnce_eq hr, hloop]
      rcases hx : patchLoop E (rest.flatten ++ last) r1 with ⟨x1, x2⟩
      rcases hy : patchLoop E (rest.flatten ++ last) r2 with ⟨y1, y2⟩
      rw [hx, hy] at a1 a2
      have a1 : y1 = x1 := a1
      subst a1
      cases y1 with
      | exit c => exact ⟨rfl, fun _ => congrArg (fun s => (Stop.exit c, some s)) a2.text⟩
      | raised e => exact ⟨rfl, by rintro ⟨c, hc⟩; cases hc⟩
    rw [hfirst]
    exact ⟨hih.1.trans hall.1, fun he => (hih.2 he).trans (hall.2 (hih.1 ▸ he))⟩

/-! ## The property -/

/-- C120: patches behind one that stops the command have no effect: with them it ends as without them, and leaves the same file. -/
theorem C120_refused (E : Env) (text : Str) (ps qs : List PyVal) (h : (patchOnce E text ps).1 ≠ .exit 0) :
    patchOnce E text (ps ++ qs) = patchOnce E text ps := by
  cases hr : Recipe.ofString E text with
  | error e => simp only [patchOnce, patchCommand, hr]
  | ok r =>
    rw [patchOnce_eq hr] at h ⊢
    rw [patchOnce_eq hr, patchLoop_pieces]
    generalize patchLoop E ps r = x at h
    obtain ⟨x1, x2⟩ := x
    cases x1 with
    | exit c => cases c with
      | zero => exact absurd rfl h
      | succ c => rfl
    | raised e => rfl

/-- C120: running `patch` with several patch files one after the other ends like one run with all their patches, and unless it ends with an
exception it leaves the same file.  The last patch file may be anything at all.  Missing: patches after which the file does not read back
(`C120_list_entry_violation`), and exceptions (`C120_exception_violation`). -/
theorem C120_in_pieces_partial (E : Env) (vars : List (Str × PyVal)) (ds ds' : List Doc) (fs : List Str) (r : Recipe)
    (pieces : List (List PyVal)) (last : List PyVal) (hv : Writable E vars) (h : Document E ds) (hf : FreeFile E vars ds fs)
    (hr : Recipe.ofString E (fileText fs) = .ok r) (hs : r.schema = .v1 → vars = []) (hp : Pieces E pieces ds ds') :
    (patchEach E (fileText fs) (pieces ++ [last])).1 = (patchOnce E (fileText fs) (pieces.flatten ++ last)).1 ∧
      ((∃ code, (patchOnce E (fileText fs) (pieces.flatten ++ last)).1 = .exit code) →
        patchEach E (fileText fs) (pieces ++ [last]) = patchOnce E (fileText fs) (pieces.flatten ++ last)) := by
  have hr' := hr
  rw [C31_layout_does_not_matter_partial E vars ds fs hv h hf] at hr
  cases hr0 : Recipe.ofString E (recipeText vars ds) with
  | error e => rw [hr0] at hr; cases hr
  | ok r0 =>
    rw [hr0] at hr
    injection hr with hr
    have := pieces_alike hv last hp (fileText fs) r r0 h hr0 hr' (by rw [← hr]; exact restored_of rfl rfl rfl)
      fun hc => hs (by rw [← hr]; exact hc)
    exact ⟨this.1, fun he => this.2 (this.1 ▸ he)⟩

/-! ## A file and patches that meet the hypotheses -/

namespace PatchPiecesExample
open LayoutExample PatchFileExample

def pieces : List (List PyVal) :=
  [ [mkPatch §"test" §"/package/version" [(§"value", .flt §"1.2")]],
    [mkPatch §"replace" §"/build/number" [(§"value", .int 2)]] ]

def rest : List PyVal := [mkPatch §"remove" §"/about/home" [], mkPatch §"remove" §"/package" []]

theorem in_pieces : Pieces Toy.env pieces doc patched :=
  .cons (.holds _ _ _ asks (by decide +kernel) .done) document ⟨rfl, Or.inr rfl⟩
    (.cons (.made edit .done) (documentB_sound (by decide +kernel)) ⟨rfl, Or.inr rfl⟩ .nil)

/-- The first patch of the third file is about an entry that is not there. -/
example : patchEach Toy.env (fileText lines) [pieces[0], pieces[1], rest] = (.exit 106, some (recipeText vars patched)) := by
  have h1 : patchOnce Toy.env (fileText lines) (pieces.flatten ++ rest) = (.exit 106, some (recipeText vars patched)) :=
    C113_patch_file_partial Toy.env vars doc patched lines LayoutExample.opened _ patches 106 document.1 free_file opened_eq
      (fun h => by rw [opened_schema] at h; cases h) (Or.inl rfl) run (documentB_sound (by decide +kernel) : Document Toy.env patched).1
  have h2 := (C120_in_pieces_partial Toy.env vars doc patched lines LayoutExample.opened pieces rest writable document free_file opened_eq
    (fun h => by rw [opened_schema] at h; cases h) in_pieces).2 ⟨106, by rw [h1]⟩
  exact h2.trans h1

/-- Nothing comes after the patch that is refused. -/
example (more : List PyVal) : patchOnce Toy.env (fileText lines) (patches ++ more) = (.exit 106, some (recipeText vars patched)) := by
  have h1 : patchOnce Toy.env (fileText lines) patches = (.exit 106, some (recipeText vars patched)) :=
    C113_patch_file_partial Toy.env vars doc patched lines LayoutExample.opened _ patches 106 document.1 free_file opened_eq
      (fun h => by rw [opened_schema] at h; cases h) (Or.inl rfl) run (documentB_sound (by decide +kernel) : Document Toy.env patched).1
  rw [C120_refused Toy.env (fileText lines) patches more (by rw [h1]; simp), h1]

end PatchPiecesExample

/-- C120 fails when the command ends with an exception: in pieces the first patches are kept, at once they are lost. -/
theorem C120_exception_violation :
    let file := §"package:\n  name: p\n\nl:\n  - a\n"
    let ps := [mkPatch §"replace" §"/package/name" [(§"value", .str §"q")]]
    let qs := [mkPatch §"add" §"/l/7" [(§"value", .str §"b")]]
    patchEach Toy.env file [ps, qs] = (.raised .indexError, some §"package:\n  name: q\n\nl:\n  - a\n") ∧
      patchOnce Toy.env file (ps ++ qs) = (.raised .indexError, some file) :=
  ⟨by decide +kernel, by decide +kernel⟩

/-- C120 fails when what the first patches leave does not read back: a mapping in a list is replaced by a text, then the next entry is
removed. -/
theorem C120_list_entry_violation :
    let file := §"l:\n  - title: foo\n    u: x\n  - q\n"
    let ps := [mkPatch §"replace" §"/l/0" [(§"value", .str §"foo")]]
    let qs := [mkPatch §"remove" §"/l/1" []]
    (patchEach Toy.env file [ps, qs]).1 = .exit 106 ∧ (patchOnce Toy.env file (ps ++ qs)).1 = .exit 0 :=
  ⟨by decide +kernel, by decide +kernel⟩

end Crm
