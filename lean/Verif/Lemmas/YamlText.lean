import Verif.Spec.YamlText
import Verif.Props.PlainValue

/-! # Texts that are read with placeholders for their expressions -/

namespace Crm
open Spec

theorem expressions_holes (segs : List Seg) : expressions segs = holes .v0 segs := by
  induction segs with
  | nil => rfl
  | cons s segs ih => cases s <;> simp [expressions, holes] at ih ⊢ <;> exact ih

theorem markers_hidden (segs : List Seg) (hs : ∀ s ∈ segs, s.Ok)
    (hm : inStr §"RECIPE_MANAGER_SUBSTITUTION_MARKER" (source .v0 segs) = false) (extra : List Str) :
    substituteMarkers (hidden segs) (expressions segs ++ extra) = (source .v0 segs, extra) := by
  obtain ⟨p, rest, h1, h3, h2⟩ := Rx.sub_findall_weave (holeRx .v0) (by decide) subMarker [] (source .v0 segs)
  rw [sub_segs segs hs] at h2
  rw [findall_segs .v0 segs hs [], ← expressions_holes] at h3
  rw [h2, h3]
  have := C58_markers_restored_in_order p rest extra (h1 ▸ hm)
  simpa [← h1] using this

/-- What `_parse_yaml` does to the value that is read with placeholders. -/
abbrev restore (d : Str) (subs : List Str) : Except PyErr (PyVal × List Str) :=
  let (r, subs) := substituteMarkers d subs
  .ok (.str r, subs)

theorem recSub_restores {n : Nat} {v v' : PyVal} {es : List Str} (h : Hides n v v' es) :
    ∀ extra, recSub restore n v' (es ++ extra) = .ok (v, extra) := by
  induction h with
  | @text n segs h1 h2 h3 =>
    intro extra
    apply recSub_text
    · rw [quote_unquoted h2, restore, markers_hidden segs h1 h3]
    · trivial
  | @other n v h1 h2 =>
    intro extra
    unfold recSub
    cases v <;> first | rfl | exact absurd h1 id | exact absurd rfl (h2 _)
  | @list n xs h ih =>
    intro extra
    have key : ∀ (ys : List (PyVal × PyVal × List Str)) (acc : List PyVal), (∀ y ∈ ys, y ∈ xs) →
        (ys.map (·.2.1)).foldlM (init := (acc, ys.flatMap (·.2.2) ++ extra)) (fun (x : List PyVal × List Str) v =>
          (recSub restore n v x.2).bind fun y => (.ok (x.1 ++ [y.1], y.2) : Except PyErr _)) = .ok (acc ++ ys.map (·.1), extra) := by
      intro ys
      induction ys with
      | nil => intro acc _; simp [pure, Except.pure]
      | cons y ys ihy =>
        intro acc hy
        rw [List.map_cons, List.foldlM_cons]
        simp only [bind, Except.bind] at ihy ⊢
        rw [List.flatMap_cons, List.append_assoc]
        simp only [ih y (hy y (by simp))]
        rw [ihy _ fun v hv => hy v (by simp [hv])]
        simp
    have := key xs [] (fun _ h => h)
    unfold recSub
    simp only [bind, Except.bind] at this ⊢
    rw [this]
    simp
  | @dict n xs h ih =>
    intro extra
    have key : ∀ (ys : List (Str × PyVal × PyVal × List Str)) (acc : List (Str × PyVal)), (∀ y ∈ ys, y ∈ xs) →
        (ys.map fun x => (x.1, x.2.2.1)).foldlM (init := (acc, ys.flatMap (·.2.2.2) ++ extra)) (fun (x : List (Str × PyVal) × List Str) kv =>
          (recSub restore n kv.2 x.2).bind fun y => (.ok (x.1 ++ [(kv.1, y.1)], y.2) : Except PyErr _)) =
            .ok (acc ++ ys.map (fun x => (x.1, x.2.1)), extra) := by
      intro ys
      induction ys with
      | nil => intro acc _; simp [pure, Except.pure]
      | cons y ys ihy =>
        intro acc hy
        rw [List.map_cons, List.foldlM_cons]
        simp only [bind, Except.bind] at ihy ⊢
        rw [List.flatMap_cons, List.append_assoc]
        simp only [ih y (hy y (by simp))]
        rw [ihy _ fun v hv => hy v (by simp [hv])]
        simp
    have := key xs [] (fun _ h => h)
    unfold recSub
    simp only [bind, Except.bind] at this ⊢
    rw [this]
    simp

theorem reads_parse {E : Env} {s : Str} {v : PyVal} (h : ReadsText E s v) : parseYaml E s none = .ok v := by
  cases h with
  | itself h => unfold parseYaml; simp only [h, bind, Except.bind, subJinja]
  | @placeholders segs v v' e hs hx he hl hh =>
    have hsub : Regex.jinjaV0Sub.sub (fun _ => subMarker) (source .v0 segs) = hidden segs := by
      rw [holeRx_v0]; exact sub_segs segs hs []
    have hfind : Regex.jinjaV0Sub.findall (source .v0 segs) = expressions segs := by
      rw [holeRx_v0, expressions_holes]; exact findall_segs .v0 segs hs []
    have hrec := recSub_restores hh []
    rw [List.append_nil] at hrec
    unfold parseYaml
    simp only [he, bind, Except.bind, quote_source .v0 segs hs hx, hsub, hfind, hl]
    unfold restore at hrec
    cases e <;> simp only [hrec] <;> rfl

/-- The same with the variables replaced. -/
theorem reads_filled {E : Env} (c : JinjaCtx) {s : Str} {v w : PyVal} (h : ReadsText E s v) (hv : Filled E c.schema c.vars E.recLimit v w) :
    parseYaml E s (some c) = .ok w :=
  parseYaml_filled E c s v w (reads_parse h) hv

end Crm
