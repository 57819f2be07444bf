import Verif.Props.Jinja

/-! # Values without Jinja expressions (C73) -/

namespace Crm
open Spec

namespace Spec

/-- A value, less than `n` levels deep, the texts of which have no brace and are read by the loader as they are. -/
inductive Settled (E : Env) : Nat → PyVal → Prop
  | text {n s} : '{' ∉ s → Unquoted s → E.load s = .ok (.str s) → Settled E (n + 1) (.str s)
  | other {n v} : Scalar v → (∀ s, v ≠ .str s) → Settled E (n + 1) v
  | list {n xs} : (∀ v ∈ xs, Settled E n v) → Settled E (n + 1) (.list xs)
  | dict {n kvs} : (∀ kv ∈ kvs, Settled E n kv.2) → Settled E (n + 1) (.dict kvs)

/-- `v` is the text `s` with its variables replaced: the text is made of pieces, it is not put in quotes, and the loader reads
`v` from the pieces with the values of the variables put in. -/
def Fills (E : Env) (schema : Schema) (vars : List (Str × PyVal)) (s : Str) (v : PyVal) : Prop :=
  ∃ segs, s = source schema segs ∧ Template E vars segs ∧ (HasExpr segs ∨ Unquoted s) ∧ E.load (substituted E schema vars segs) = .ok v

/-- `w` is the value `v`, less than `n` levels deep, with the variables in its texts replaced. -/
inductive Filled (E : Env) (schema : Schema) (vars : List (Str × PyVal)) : Nat → PyVal → PyVal → Prop
  | text {n s v} : Fills E schema vars s v → Scalar v → Filled E schema vars (n + 1) (.str s) v
  | other {n v} : Scalar v → (∀ s, v ≠ .str s) → Filled E schema vars (n + 1) v v
  | list {n xs} (g : PyVal → PyVal) : (∀ v ∈ xs, Filled E schema vars n v (g v)) → Filled E schema vars (n + 1) (.list xs) (.list (xs.map g))
  | dict {n kvs} (g : Str × PyVal → PyVal) : (∀ kv ∈ kvs, Filled E schema vars n kv.2 (g kv)) →
      Filled E schema vars (n + 1) (.dict kvs) (.dict (kvs.map fun kv => (kv.1, g kv)))

/-- The value of the place is not a block text. -/
def NoBlockText (root : Node) (comps : List Str) : Prop :=
  ∀ n, lookup root comps = some n → ∀ c ∈ n.children, c.multiline = .no

end Spec

theorem render_plain (E : Env) (c : JinjaCtx) (s : Str) (h : '{' ∉ s) : renderJinjaVars E c s = E.load s := by
  have := renderJinjaVars_segs E c [.text s] ⟨by simpa [Seg.Ok] using h, by simp⟩
  have h1 : source c.schema [.text s] = s := by simp [source, Seg.src]
  have h2 : substituted E c.schema c.vars [.text s] = s := by
    have : ([Seg.text s].map (Seg.value E c.schema c.vars)).flatten = s := by simp [Seg.value]
    unfold substituted
    simp only [this]
    rw [if_neg]
    rintro ⟨_, h3⟩
    exact h (List.mem_of_mem_take (i := 2) (by rw [h3]; simp))
  rwa [h1, h2] at this

theorem Spec.Settled.up {E : Env} {n : Nat} {v : PyVal} (h : Settled E n v) : Settled E (n + 1) v := by
  induction h with
  | text h1 h2 h3 => exact .text h1 h2 h3
  | other h1 h2 => exact .other h1 h2
  | list _ ih => exact .list ih
  | dict _ ih => exact .dict ih

theorem settled_list {E : Env} {n : Nat} {xs : List PyVal} (h : Settled E n (.list xs)) (v : PyVal) (hv : v ∈ xs) : Settled E (n - 1) v := by
  cases h with
  | other h1 _ => exact absurd h1 id
  | list h => exact h v hv

theorem settled_single {E : Env} {n : Nat} {v : PyVal} (h : Settled E n (.list [v])) : Settled E n v := by
  cases n with
  | zero => cases h
  | succ n => exact (settled_list h v (by simp)).up

theorem fills_unquoted {E : Env} {schema : Schema} {vars : List (Str × PyVal)} {s : Str} {v : PyVal} (h : Fills E schema vars s v) :
    quoteSpecialStrings s = s := by
  obtain ⟨segs, hs, ht, hq, -⟩ := h
  rcases hq with hq | hq
  · rw [hs, quote_source _ _ ht.1 hq]
  · exact quote_unquoted hq

theorem fills_render {E : Env} {schema : Schema} {vars : List (Str × PyVal)} {s : Str} {v : PyVal} (h : Fills E schema vars s v) :
    renderJinjaVars E ⟨schema, vars⟩ s = .ok v := by
  obtain ⟨segs, hs, ht, -, hl⟩ := h
  rw [hs, ← hl]
  exact renderJinjaVars_segs E ⟨schema, vars⟩ segs ht

theorem fills_plain {E : Env} {schema : Schema} {vars : List (Str × PyVal)} {s : Str} {v : PyVal} (h : '{' ∉ s) (hq : Unquoted s)
    (hl : E.load s = .ok v) : Fills E schema vars s v := by
  refine ⟨[.text s], by simp [source, Seg.src], ⟨by simpa [Seg.Ok] using h, by simp⟩, .inr hq, ?_⟩
  have : ([Seg.text s].map (Seg.value E schema vars)).flatten = s := by simp [Seg.value]
  unfold substituted
  simp only [this]
  rw [if_neg, hl]
  rintro ⟨_, h3⟩
  exact h (List.mem_of_mem_take (i := 2) (by rw [h3]; simp))

theorem recSub_filled (E : Env) (c : JinjaCtx) {n : Nat} {v w : PyVal} (h : Filled E c.schema c.vars n v w) :
    recSub (σ := Unit) (fun s _ => (renderJinjaVars E c s).map (·, ())) n v () = .ok (w, ()) := by
  induction h with
  | text h1 h3 =>
    refine recSub_text _ _ _ _ _ _ ?_ h3
    rw [fills_unquoted h1, fills_render h1]
    rfl
  | @other n v h1 h2 =>
    unfold recSub
    cases v <;> first | rfl | exact absurd h1 id | exact absurd rfl (h2 _)
  | @list n xs g h ih =>
    have key : ∀ (ys acc : List PyVal), (∀ v ∈ ys, v ∈ xs) → ys.foldlM (init := (acc, ())) (fun (x : List PyVal × Unit) v =>
        (recSub (σ := Unit) (fun s _ => (renderJinjaVars E c s).map (·, ())) n v x.2).bind fun y => (.ok (x.1 ++ [y.1], y.2) : Except PyErr _)) =
          .ok (acc ++ ys.map g, ()) := by
      intro ys
      induction ys with
      | nil => intro acc _; simp [pure, Except.pure]
      | cons y ys ihy =>
        intro acc hy
        rw [List.foldlM_cons]
        simp only [bind, Except.bind] at ihy ⊢
        simp only [ih y (hy y (by simp))]
        rw [ihy _ fun v hv => hy v (by simp [hv])]
        simp
    unfold recSub
    have := key xs [] fun _ h => h
    simp only [bind, Except.bind] at this ⊢
    rw [this]
    simp
  | @dict n kvs g h ih =>
    have key : ∀ (ys acc : List (Str × PyVal)), (∀ v ∈ ys, v ∈ kvs) → ys.foldlM (init := (acc, ())) (fun (x : List (Str × PyVal) × Unit) (kv : Str × PyVal) =>
        (recSub (σ := Unit) (fun s _ => (renderJinjaVars E c s).map (·, ())) n kv.2 x.2).bind fun y =>
          (.ok (x.1 ++ [(kv.1, y.1)], y.2) : Except PyErr _)) = .ok (acc ++ ys.map (fun kv => (kv.1, g kv)), ()) := by
      intro ys
      induction ys with
      | nil => intro acc _; simp [pure, Except.pure]
      | cons y ys ihy =>
        intro acc hy
        rw [List.foldlM_cons]
        simp only [bind, Except.bind] at ihy ⊢
        simp only [ih y (hy y (by simp))]
        rw [ihy _ fun v hv => hy v (by simp [hv])]
        simp
    unfold recSub
    have := key kvs [] fun _ h => h
    simp only [bind, Except.bind] at this ⊢
    rw [this]
    simp

/-- A value without expressions is not changed. -/
theorem Spec.Settled.filled {E : Env} {n : Nat} {v : PyVal} (h : Settled E n v) (schema : Schema) (vars : List (Str × PyVal)) :
    Filled E schema vars n v v := by
  induction h with
  | text h1 h2 h3 => exact .text (fills_plain h1 h2 h3) trivial
  | other h1 h2 => exact .other h1 h2
  | @list n xs h ih => simpa using Filled.list (xs := xs) id ih
  | @dict n kvs h ih => simpa using Filled.dict (kvs := kvs) (·.2) ih

/-- What is read with the variables replaced is what is read without, with the variables replaced in it. -/
theorem parseYaml_filled (E : Env) (c : JinjaCtx) (s : Str) (v w : PyVal) (h : parseYaml E s none = .ok v)
    (hv : Filled E c.schema c.vars E.recLimit v w) : parseYaml E s (some c) = .ok w := by
  have hj : subJinja E (some c) v = .ok w := by
    unfold subJinja
    simp only [recSub_filled E c hv]
    rfl
  have hnone : ∀ w, (E.load w >>= subJinja E none) = E.load w := by
    intro w; cases E.load w <;> rfl
  unfold parseYaml at h ⊢
  simp only [hnone] at h ⊢
  have hfall : ∀ (m : Except PyErr (PyVal × List Str)) , (do let (out, _) ← m; subJinja E none out) = .ok v →
      (do let (out, _) ← m; subJinja E (some c) out) = .ok w := by
    intro m hm
    cases m with
    | error e => cases hm
    | ok x =>
      have : x.1 = v := by injection hm
      simp only [bind, Except.bind, this]
      exact hj
  have hfall2 : ∀ (m : Except PyErr PyVal) (f : PyVal → Except PyErr (PyVal × List Str)),
      (do let out ← m; let (out, _) ← f out; subJinja E none out) = .ok v →
      (do let out ← m; let (out, _) ← f out; subJinja E (some c) out) = .ok w := by
    intro m f hm
    cases m with
    | error e => cases hm
    | ok x => exact hfall (f x) hm
  cases h1 : E.load s with
  | ok x =>
    rw [h1] at h
    have : x = v := by injection h
    subst this
    rw [show (Except.ok x >>= subJinja E (some c)) = .ok w from hj]
  | error e =>
    rw [h1] at h
    show (match (Except.error e : Except PyErr PyVal) with | .ok v => _ | .error .yamlScanner => _ | .error _ => _) = _
    cases e with
    | yamlScanner =>
      simp only at h ⊢
      cases h2 : E.load (quoteSpecialStrings s) with
      | ok x =>
        rw [h2] at h
        have : x = v := by injection h
        subst this
        rw [show (Except.ok x >>= subJinja E (some c)) = .ok w from hj]
      | error e =>
        rw [h2] at h
        exact hfall2 _ _ h
    | _ => exact hfall2 _ _ h

theorem parseYaml_settled (E : Env) (c : JinjaCtx) (s : Str) (v : PyVal) (h : parseYaml E s none = .ok v) (hv : Settled E E.recLimit v) :
    parseYaml E s (some c) = .ok v :=
  parseYaml_filled E c s v v h (hv.filled _ _)

/-- C73: a value without expressions is the same with and without `sub_vars`: a text, a list or a mapping of any depth, if the loader
reads its texts as they are.  (A quoted `"1.10"` becomes a number, see below.) -/
theorem C73_plain_values_are_kept (E : Env) (r : Recipe) (comps : List Str) (hc : ∀ c ∈ comps, Component c) (hne : comps ≠ [])
    (hb : NoBlockText r.root comps) (d : Option PyVal) (v : PyVal) (hv : r.getValue E (absPath comps) d false = .ok v)
    (hs : Settled E E.recLimit v) : r.getValue E (absPath comps) d true = .ok v := by
  have hfin : ∀ (wrap : Bool) (ret : PyVal),
      (match ret with
        | .str s => (parseYaml E s none).bind fun parsed =>
          if (!(match parsed with | .list _ => true | _ => false) && wrap) = true then .ok (.list [parsed]) else .ok parsed
        | v => .ok v : Except PyErr PyVal) = .ok v →
      (match ret with
        | .str s => (parseYaml E s (some r.ctx)).bind fun parsed =>
          if (!(match parsed with | .list _ => true | _ => false) && wrap) = true then .ok (.list [parsed]) else .ok parsed
        | v => .ok v : Except PyErr PyVal) = .ok v := by
    intro wrap ret h
    cases ret with
    | str s =>
      simp only at h ⊢
      cases hp : parseYaml E s none with
      | error e => rw [hp] at h; cases h
      | ok p =>
        rw [hp] at h
        have hp' : Settled E E.recLimit p := by
          simp only [Except.bind] at h
          have key : ∀ (b : Prop) [Decidable b], (if b then .ok (.list [p]) else .ok p : Except PyErr PyVal) = .ok v → Settled E E.recLimit p := by
            intro b _ hb
            split at hb <;> (injection hb with hb; subst hb)
            · exact settled_single hs
            · exact hs
          exact key _ h
        rw [parseYaml_settled E r.ctx s p hp hp']
        exact h
    | _ => exact h
  simp only [Recipe.getValue, Bool.false_eq_true, if_false, if_true] at hv ⊢
  unfold getValueIn at hv ⊢
  rw [strToStack_absPath comps hne hc] at hv ⊢
  simp only [bind, Except.bind] at hv ⊢ hfin
  rw [traverse_lookup] at hv ⊢
  cases hn : lookup r.root comps with
  | none => rw [hn] at hv; exact hv
  | some n =>
    rw [hn] at hv
    have hb := hb n hn
    simp only at hv ⊢
    split at hv
    · rename_i hk
      rw [if_pos hk]
      split at hv
      · cases hv
      · rename_i ch rest hch
        have hm : ch.multiline = .no := hb ch (by rw [hch]; simp)
        simp only [hm, ne_eq, not_true_eq_false, if_false] at hv ⊢
        exact hfin _ _ hv
    · rename_i hk
      rw [if_neg hk]
      split at hv
      · rename_i hl
        rw [if_pos hl]
        exact hfin _ _ hv
      · rename_i hl
        rw [if_neg hl]
        exact hfin _ (.str _) hv

/-- `requirements/run` of a recipe: a list of texts. -/
example : (Toy.recipe "requirements:\n  run:\n    - a >1\n    - b\n").getValue Toy.env (absPath [§"requirements", §"run"]) none true =
    .ok (.list [.str §"a >1", .str §"b"]) := by
  have hl : 0 < Toy.env.recLimit - 1 := by decide
  obtain ⟨n, hn⟩ : ∃ n, Toy.env.recLimit = n + 1 + 1 := ⟨Toy.env.recLimit - 2, by omega⟩
  refine C73_plain_values_are_kept Toy.env _ _ (by decide) (by decide) ?_ none _ (by decide +kernel) ?_
  · have : (match lookup (Toy.recipe "requirements:\n  run:\n    - a >1\n    - b\n").root [§"requirements", §"run"] with
        | none => true | some n => n.children.all (·.multiline = .no)) = true := by decide +kernel
    intro n hn c hc
    rw [hn] at this
    exact of_decide_eq_true (List.all_eq_true.1 this c hc)
  · rw [hn]
    refine .list fun v hv => ?_
    simp only [List.mem_cons, List.not_mem_nil, or_false] at hv
    rcases hv with rfl | rfl
    · exact .text (by decide) ⟨by decide, by decide, by decide⟩ (by decide +kernel)
    · exact .text (by decide) ⟨by decide, by decide, by decide⟩ (by decide +kernel)

/-! ## Other expressions

A call and a filter that the tool does not know are kept, in the same text as a variable. -/

def otherRecipe : Recipe := Toy.recipe
  "{% set name = \"Foo\" %}\nabout:\n  doc: |\n    {{ compiler('c') }} for {{ name }} or {{ name.split('o')[0] | replace('F', 'f') | lower }}\n    b\n  home: x\n"

def otherSegs : List Seg := [.text §"|\n  ", .hole §" " (.other §"compiler('c')") §" ", .text §" for ",
  .hole §" " (.access §"name" none .none [] []) §" ", .text §" or ", .hole §" " (.call §"name.split('o')[0] | replace('F', 'f') | lower") §" ", .text §"\n  b"]

example : otherRecipe.getValue Toy.env (absPath [§"about", §"doc"]) none true =
    .ok (.str §"{{ compiler('c') }} for Foo or {{ name.split('o')[0] | replace('F', 'f') | lower }}\nb") := by
  have hs : Template Toy.env otherRecipe.vars otherSegs := segB_sound (by decide +kernel)
  have h1 : otherRecipe.schema = .v0 := by decide +kernel
  rw [C73_block_texts_are_evaluated Toy.env otherRecipe _ (by decide) (by decide) otherSegs hs (by rw [h1]; decide +kernel), h1]
  decide +kernel

end Crm
