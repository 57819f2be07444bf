import Verif.Lemmas.Traverse
import Verif.Model.Parser

/-! Which exceptions looking a value up can raise. -/

namespace Crm
open Spec

theorem ite_ok_ne_error {α : Type} {c : Prop} [Decidable c] {x y : α} {e : PyErr} :
    (if c then Except.ok x else Except.ok y : Except PyErr α) ≠ .error e := by
  split <;> simp

theorem foldlM_error {α β : Type} {f : β → α → Except PyErr β} {e : PyErr} {l : List α}
    (hf : ∀ b a, a ∈ l → f b a ≠ .error e) (b : β) : l.foldlM f b ≠ .error e := by
  induction l generalizing b with
  | nil => intro h; cases h
  | cons x xs ih =>
    simp only [List.foldlM_cons]
    intro h
    cases hx : f b x with
    | error e' =>
      rw [hx] at h
      injection h with h
      exact hf b x (by simp) (by rw [hx, h])
    | ok b' =>
      rw [hx] at h
      exact ih (fun b a ha => hf b a (by simp [ha])) b' h

theorem recSub_error {σ : Type} {m : Str → σ → Except PyErr (PyVal × σ)} {e : PyErr} (he : e ≠ .recursionError)
    (hm : ∀ s st, m s st ≠ .error e) (fuel : Nat) (v : PyVal) (st : σ) : recSub m fuel v st ≠ .error e := by
  induction fuel generalizing v st with
  | zero => intro h; simp only [recSub] at h; injection h with h; exact he h.symm
  | succ fuel ih =>
    have body : ∀ d : PyVal × σ, (match d.1 with
        | .dict kvs => do
          let (kvs, st) ← kvs.foldlM (init := (([] : List (Str × PyVal)), d.2)) fun (acc, st) (k, v) => do
            let (v, st) ← recSub m fuel v st
            .ok (acc ++ [(k, v)], st)
          .ok (.dict kvs, st)
        | .list xs => do
          let (xs, st) ← xs.foldlM (init := (([] : List PyVal), d.2)) fun (acc, st) v => do
            let (v, st) ← recSub m fuel v st
            .ok (acc ++ [v], st)
          .ok (.list xs, st)
        | w => .ok (w, d.2) : Except PyErr (PyVal × σ)) ≠ .error e := by
      rintro ⟨w, st⟩
      cases w with
      | dict kvs =>
        simp only
        intro h
        cases hf : kvs.foldlM (init := (([] : List (Str × PyVal)), st)) (fun (acc, st) (k, v) => do
            let (v, st) ← recSub m fuel v st
            Except.ok (acc ++ [(k, v)], st)) with
        | error e' =>
          rw [hf] at h; injection h with h; subst h
          refine foldlM_error ?_ _ hf
          rintro ⟨acc, st⟩ ⟨k, v⟩ _ hx
          cases hr : recSub m fuel v st with
          | error e'' => simp only [hr] at hx; injection hx with hx; subst hx; exact ih _ _ hr
          | ok r => simp only [hr] at hx; cases hx
        | ok r => rw [hf] at h; cases h
      | list xs =>
        simp only
        intro h
        cases hf : xs.foldlM (init := (([] : List PyVal), st)) (fun (acc, st) v => do
            let (v, st) ← recSub m fuel v st
            Except.ok (acc ++ [v], st)) with
        | error e' =>
          rw [hf] at h; injection h with h; subst h
          refine foldlM_error ?_ _ hf
          rintro ⟨acc, st⟩ v _ hx
          cases hr : recSub m fuel v st with
          | error e'' => simp only [hr] at hx; injection hx with hx; subst hx; exact ih _ _ hr
          | ok r => simp only [hr] at hx; cases hx
        | ok r => rw [hf] at h; cases h
      | _ => simp
    cases v with
    | str s =>
      simp only [recSub]
      cases hs : m (quoteSpecialStrings s) st with
      | error e' => intro h; injection h with h; exact hm _ _ (by rw [hs, h])
      | ok d => exact body d
    | sentinel => exact body (.sentinel, st)
    | none => exact body (.none, st)
    | bool b => exact body (.bool b, st)
    | int i => exact body (.int i, st)
    | flt r => exact body (.flt r, st)
    | list xs => exact body (.list xs, st)
    | dict kvs => exact body (.dict kvs, st)

/-- What the YAML loader itself never raises, looking at YAML text does not raise either. -/
theorem renderJinjaVars_error {E : Env} {e : PyErr} (hE : ∀ s, E.load s ≠ .error e) (c : JinjaCtx) (s : Str) :
    renderJinjaVars E c s ≠ .error e := hE _

theorem subJinja_error {E : Env} {e : PyErr} (he : e ≠ .recursionError) (hE : ∀ s, E.load s ≠ .error e)
    (ctx : Option JinjaCtx) (v : PyVal) : subJinja E ctx v ≠ .error e := by
  cases ctx with
  | none => simp [subJinja]
  | some c =>
    simp only [subJinja]
    intro h
    cases hr : recSub (σ := Unit) (fun s _ => (renderJinjaVars E c s).map (·, ())) E.recLimit v () with
    | error e' =>
      rw [hr] at h; injection h with h; subst h
      refine recSub_error he ?_ _ _ _ hr
      intro s st hx
      cases hs : renderJinjaVars E c s with
      | error e'' => rw [hs] at hx; injection hx with hx; subst hx; exact renderJinjaVars_error hE c s hs
      | ok r => rw [hs] at hx; cases hx
    | ok r => rw [hr] at h; cases h

theorem parseYaml_error {E : Env} {e : PyErr} (he : e ≠ .recursionError) (hE : ∀ s, E.load s ≠ .error e)
    (s : Str) (ctx : Option JinjaCtx) : parseYaml E s ctx ≠ .error e := by
  have hfall : ∀ t subs, (do
      let out ← E.load t
      let (out, _) ← recSub (fun d subs => let (r, subs) := substituteMarkers d subs; .ok (.str r, subs))
        E.recLimit out subs
      subJinja E ctx out : Except PyErr PyVal) ≠ .error e := by
    intro t subs h
    cases hl : E.load t with
    | error e' => rw [hl] at h; injection h with h; subst h; exact hE _ hl
    | ok out =>
      rw [hl] at h
      simp only [bind, Except.bind] at h
      cases hr : recSub (fun d subs => let (r, subs) := substituteMarkers d subs; Except.ok (.str r, subs))
        E.recLimit out subs with
      | error e' =>
        rw [hr] at h; injection h with h; subst h
        exact recSub_error he (fun s st hx => by cases hx) _ _ _ hr
      | ok r =>
        rw [hr] at h
        exact subJinja_error he hE _ _ h
  unfold parseYaml
  intro h
  simp only at h
  split at h
  · cases h
  · split at h
    · cases h
    · exact hfall _ _ h
  · exact hfall _ _ h

/-- Shape of a lookup: missing paths give the default or `KeyError`; for an existing path no exception other than those
of the YAML loader (and `RecursionError`) is raised. -/
theorem getValueIn_missing {E : Env} {root : Node} {path : Str} {st : List Str} (hst : strToStack path = .ok st)
    (hn : traverse root st = none) (d : Option PyVal) (ctx : Option JinjaCtx) :
    getValueIn E root path d ctx = match d with | none => .error .keyError | some v => .ok v := by
  simp only [getValueIn, hst, bind, Except.bind, hn, Option.bind_none]; cases d <;> rfl

theorem getValueIn_found_no_keyError {E : Env} {root : Node} {path : Str} {st : List Str} {p : Pos}
    (hE : ∀ s, E.load s ≠ .error .keyError) (hst : strToStack path = .ok st)
    (hp : traverse root st = some p) (d : Option PyVal) (ctx : Option JinjaCtx) :
    getValueIn E root path d ctx ≠ .error .keyError := by
  obtain ⟨n, hn⟩ := traverse_valid hp
  have hfin : ∀ v : PyVal, (match v with
      | .str s => do
        let parsed ← parseYaml E s ctx
        let isList := match parsed with | .list _ => true | _ => false
        let wrap := match n.children with | [c] => c.listMember | _ => false
        if !isList && wrap then .ok (.list [parsed]) else .ok parsed
      | v => .ok v : Except PyErr PyVal) ≠ .error .keyError := by
    intro v
    cases v with
    | str s =>
      simp only
      intro h
      cases hs : parseYaml E s ctx with
      | error e => rw [hs] at h; injection h with h; subst h; exact parseYaml_error (by decide) hE _ _ hs
      | ok w =>
        rw [hs] at h
        simp only [bind, Except.bind] at h
        exact ite_ok_ne_error h
    | _ => simp
  unfold getValueIn
  simp only [hst, bind, Except.bind, hp, Option.bind_some, hn]
  split
  · split
    · simp
    · split
      · split
        · exact renderJinjaVars_error hE _ _
        · exact hE _
        · simp
      · exact hfin _
  · split
    · exact hfin _
    · exact hfin (.str (joinStr §"\n" (renderTree (-1) none n)))

/-- Whether the path exists decides between default and value; the default is not otherwise looked at. -/
theorem getValueIn_found_default {E : Env} {root : Node} {path : Str} {st : List Str} {p : Pos}
    (hst : strToStack path = .ok st) (hp : traverse root st = some p) (d d' : Option PyVal) (ctx : Option JinjaCtx) :
    getValueIn E root path d ctx = getValueIn E root path d' ctx := by
  obtain ⟨n, hn⟩ := traverse_valid hp
  unfold getValueIn
  simp only [hst, bind, Except.bind, hp, Option.bind_some, hn]

end Crm
