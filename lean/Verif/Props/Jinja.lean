import Verif.Lemmas.TemplateText
import Verif.Lemmas.GetValue
import Verif.Lemmas.Path
import Verif.Spec.Tree
import Verif.Props.Utils
import Verif.Examples.ToyYaml
import Verif.Examples.TemplateCheck

/-!
# Values with Jinja expressions (C73)
-/

namespace Crm
open Spec

namespace Spec

/-- The text written at a place: an element of a list, or the one-line value of a key. -/
def textAt (root : Node) (comps : List Str) : Option Str :=
  match lookup root comps with
  | none => none
  | some n =>
    if n.value = .str §"/" then none
    else match n.children with
      | [] => match n.value with | .str s => some s | _ => none
      | [c] =>
        if n.key = true ∧ c.children = [] ∧ c.multiline = .no ∧ c.listMember = false then
          match c.value with | .str s => some s | _ => none
        else none
      | _ => none

/-- The block text written at a place, as it is shown to the loader: the header, then the lines, two spaces deep. -/
def blockAt (root : Node) (comps : List Str) : Option Str :=
  match lookup root comps with
  | none => none
  | some n =>
    if n.value = .str §"/" then none
    else match n.children with
      | [c] =>
        if n.key = true ∧ c.children = [] ∧ c.multiline ≠ .no then
          match c.value with
          | .list (x :: xs) => some (c.multiline.text ++ ((x :: xs).flatMap fun l => §"\n  " ++ pyStr l))
          | _ => none
        else none
      | _ => none

/-- The text with a placeholder for every expression. -/
def hidden (segs : List Seg) : Str :=
  (segs.map fun s => match s with | .text t => t | .hole _ _ _ => §"__RECIPE_MANAGER_SUBSTITUTION_MARKER__").flatten

/-- A value that is neither a list nor a mapping. -/
def Scalar : PyVal → Prop
  | .list _ | .dict _ => False
  | _ => True

/-- There is an expression in the text. -/
def HasExpr (segs : List Seg) : Prop := ∃ w1 e w2, Seg.hole w1 e w2 ∈ segs

/-- A text no part of which has to be put in quotes. -/
def Unquoted (s : Str) : Prop := '"' ∉ s ∧ '\'' ∉ s ∧ ∀ c, s.head? = some c → c ∉ toQuoteSpecialChars

end Spec

/-! ## Texts with an expression are never quoted -/

/-- The same text, read as a V0 text. -/
def asV0 : List Seg → List Seg
  | [] => []
  | .text t :: segs => .text t :: asV0 segs
  | .hole w1 e w2 :: segs => .text §"$" :: .hole w1 e w2 :: asV0 segs

theorem source_asV0 (segs : List Seg) : source .v1 segs = source .v0 (asV0 segs) := by
  induction segs with
  | nil => rfl
  | cons s segs ih =>
    cases s with
    | text t => rw [source_cons, asV0, source_cons, ih]; rfl
    | hole w1 e w2 => rw [source_cons, asV0, source_cons, source_cons, ih]; simp [Seg.src, opening]

theorem asV0_ok (segs : List Seg) (h : ∀ s ∈ segs, s.Ok) : ∀ s ∈ asV0 segs, s.Ok := by
  induction segs with
  | nil => intro s hs; cases hs
  | cons s segs ih =>
    have hi := ih (fun s hs => h s (by simp [hs]))
    cases s with
    | text t =>
      intro s hs
      rcases List.mem_cons.1 hs with rfl | hs
      · exact h _ (by simp)
      · exact hi s hs
    | hole w1 e w2 =>
      intro s hs
      simp only [asV0, List.mem_cons] at hs
      rcases hs with rfl | rfl | hs
      · show '{' ∉ §"$"; decide
      · exact h _ (by simp)
      · exact hi s hs

theorem holes_ne_nil (v : Schema) (segs : List Seg) (h : HasExpr segs) : holes v segs ≠ [] := by
  obtain ⟨w1, e, w2, h⟩ := h
  induction segs with
  | nil => cases h
  | cons s segs ih =>
    cases s with
    | text t =>
      rcases List.mem_cons.1 h with h | h
      · cases h
      · exact ih h
    | hole u1 e' u2 => simp [holes]

theorem asV0_hasExpr (segs : List Seg) (h : HasExpr segs) : HasExpr (asV0 segs) := by
  obtain ⟨w1, e, w2, h⟩ := h
  refine ⟨w1, e, w2, ?_⟩
  induction segs with
  | nil => cases h
  | cons s segs ih =>
    rcases List.mem_cons.1 h with h | h
    · subst h; simp [asV0]
    · have := ih h
      cases s <;> simp [asV0, this]

theorem quote_source (v : Schema) (segs : List Seg) (hs : ∀ s ∈ segs, s.Ok) (hx : HasExpr segs) :
    quoteSpecialStrings (source v segs) = source v segs := by
  have hf : (Regex.jinjaV0Sub.findall (source v segs)).isEmpty = false := by
    rw [holeRx_v0]
    unfold Rx.findall
    cases v with
    | v0 =>
      rw [findall_segs .v0 segs hs []]
      simpa using holes_ne_nil .v0 segs hx
    | v1 =>
      rw [source_asV0, findall_segs .v0 _ (asV0_ok segs hs) []]
      simpa using holes_ne_nil .v0 _ (asV0_hasExpr segs hx)
  unfold quoteSpecialStrings
  simp [hf]

theorem quote_unquoted {s : Str} (h : Unquoted s) : quoteSpecialStrings s = s := by
  obtain ⟨h1, h2, h3⟩ := h
  unfold quoteSpecialStrings
  split
  · rfl
  · rw [if_neg]
    simp only [Bool.or_eq_true, Bool.and_eq_true, Bool.not_eq_true', not_or, not_and]
    have hq : ∀ c : Char, c ∉ s → inStr [c] s = false := by
      intro c hc
      rw [inStr_false_iff]
      rintro a ⟨x, rfl⟩ ⟨y, rfl⟩
      exact hc (by simp)
    have hst : ∀ c ∈ toQuoteSpecialChars, startsWith s [c] = false := by
      intro c hc
      cases hb : startsWith s [c] with
      | false => rfl
      | true =>
        obtain ⟨t, ht⟩ := List.isPrefixOf_iff_prefix.1 hb
        exact absurd hc (h3 c (by rw [← ht]; rfl))
    refine ⟨⟨?_, ?_⟩, ?_⟩
    · simp only [List.any_eq_true, not_exists, not_and, beq_iff_eq]
      rintro c hc rfl
      exact h3 c rfl hc
    · intro _
      simp [hq _ h1, hq _ h2]
    · simp only [List.any_eq_true, not_exists, not_and]
      intro c hc
      simp [hst c hc]

/-! ## Reading a value -/

theorem recSub_text {σ : Type} (m : Str → σ → Except PyErr (PyVal × σ)) (n : Nat) (s : Str) (st st' : σ) (v : PyVal)
    (hm : m (quoteSpecialStrings s) st = .ok (v, st')) (hv : Scalar v) : recSub m (n + 1) (.str s) st = .ok (v, st') := by
  unfold recSub
  simp only [bind, Except.bind, hm]
  cases v <;> first | rfl | exact absurd hv id

theorem subJinja_text (E : Env) (c : JinjaCtx) (hl : 0 < E.recLimit) (segs : List Seg) (hs : Template E c.vars segs) (hx : HasExpr segs)
    (v : PyVal) (hv : Scalar v) (hload : E.load (substituted E c.schema c.vars segs) = .ok v) :
    subJinja E (some c) (.str (source c.schema segs)) = .ok v := by
  unfold subJinja
  simp only
  obtain ⟨n, hn⟩ : ∃ n, E.recLimit = n + 1 := ⟨E.recLimit - 1, by omega⟩
  rw [hn, recSub_text _ n _ () () v _ hv]
  · rfl
  · rw [quote_source c.schema segs hs.1 hx, renderJinjaVars_segs E c segs hs, hload]
    rfl

/-- The text is what the loader makes of it. -/
theorem parseYaml_direct (E : Env) (c : JinjaCtx) (hl : 0 < E.recLimit) (segs : List Seg) (hs : Template E c.vars segs) (hx : HasExpr segs)
    (hself : E.load (source c.schema segs) = .ok (.str (source c.schema segs)))
    (v : PyVal) (hv : Scalar v) (hload : E.load (substituted E c.schema c.vars segs) = .ok v) :
    parseYaml E (source c.schema segs) (some c) = .ok v := by
  unfold parseYaml
  simp only [hself, bind, Except.bind]
  rw [subJinja_text E c hl segs hs hx v hv hload]

theorem sub_segs (segs : List Seg) (hs : ∀ s ∈ segs, s.Ok) (bef : Str) :
    (holeRx .v0).subGo (fun _ => subMarker) 0 bef (source .v0 segs) = hidden segs := by
  induction segs generalizing bef with
  | nil => rfl
  | cons s segs ih =>
    have hi := ih (fun s h => hs s (by simp [h]))
    rw [source_cons]
    cases s with
    | text u =>
      have hu : '{' ∉ u := hs (.text u) (by simp)
      rw [show (Seg.text u).src .v0 = u from rfl, subGo_text, hi]
      · simp [hidden]
      · intro x y hxy hy
        cases hm : (holeRx .v0).matchAt (x.reverse ++ bef) (y ++ source .v0 segs) with
        | none => rfl
        | some m => exact absurd (holeRx_start hm) (opening_not_in_text .v0 y hy (fun hm => hu (by rw [hxy]; simp [hm])) segs
            (fun s h => hs s (by simp [h])))
    | hole w1 e w2 =>
      obtain ⟨m, hm, ht, hp⟩ := hole_match .v0 w1 e w2 (hs _ (by simp)) bef (source .v0 segs)
      obtain ⟨c, cs, hc⟩ := List.exists_cons_of_ne_nil (hole_ne_nil .v0 w1 e w2)
      rw [hc] at hm ht ⊢
      rw [List.cons_append] at hm ⊢
      rw [Rx.subGo, hm]
      simp only [ht, List.length_cons, Nat.add_sub_cancel]
      rw [Rx.subGo_skip _ _ _ _ _ _ rfl, hi]
      simp [hidden, subMarker]

/-- The loader rejects the text, and the expressions have to be hidden from it. -/
theorem parseYaml_hidden (E : Env) (ctx : Option JinjaCtx) (hl : 0 < E.recLimit) (segs : List Seg) (hs : ∀ s ∈ segs, s.Ok) (hx : HasExpr segs)
    (e : PyErr) (hself : E.load (source .v0 segs) = .error e)
    (hmark : inStr §"RECIPE_MANAGER_SUBSTITUTION_MARKER" (source .v0 segs) = false)
    (hhid : E.load (hidden segs) = .ok (.str (hidden segs))) (hq : Unquoted (hidden segs)) :
    parseYaml E (source .v0 segs) ctx = subJinja E ctx (.str (source .v0 segs)) := by
  have hsub : Regex.jinjaV0Sub.sub (fun _ => subMarker) (source .v0 segs) = hidden segs := by
    rw [holeRx_v0]; exact sub_segs segs hs []
  have hround := C58_line_roundtrip (source .v0 segs) hmark
  rw [hsub] at hround
  obtain ⟨n, hn⟩ : ∃ n, E.recLimit = n + 1 := ⟨E.recLimit - 1, by omega⟩
  unfold parseYaml
  simp only [hself, bind, Except.bind, quote_source .v0 segs hs hx, hsub, hhid]
  have hrec : recSub (fun d subs => (let (r, subs) := substituteMarkers d subs; Except.ok (PyVal.str r, subs) : Except PyErr (PyVal × List Str)))
      E.recLimit (.str (hidden segs)) (Regex.jinjaV0Sub.findall (source .v0 segs)) = .ok (.str (source .v0 segs), []) := by
    rw [hn]
    apply recSub_text
    · rw [quote_unquoted hq, hround]
    · trivial
  cases e <;> simp only [hrec]

/-- A value that is a single text is read by parsing this text. -/
theorem getValueIn_text (E : Env) (root : Node) (comps : List Str) (hc : ∀ c ∈ comps, Component c) (hne : comps ≠ []) (s : Str)
    (hh : textAt root comps = some s) (d : Option PyVal) (ctx : Option JinjaCtx) (v : PyVal)
    (hv : parseYaml E s ctx = .ok v) : getValueIn E root (absPath comps) d ctx = .ok v := by
  unfold textAt at hh
  unfold getValueIn
  rw [strToStack_absPath comps hne hc]
  simp only [bind, Except.bind]
  rw [traverse_lookup]
  cases hn : lookup root comps with
  | none => rw [hn] at hh; cases hh
  | some n =>
    rw [hn] at hh
    simp only at hh ⊢
    split at hh
    · cases hh
    rename_i hroot
    have hr : n.isRoot = false := by simp [Node.isRoot, hroot]
    split at hh
    · rename_i h1
      split at hh
      · rename_i s' h2
        injection hh with hh; subst hh
        have hsk : n.isSingleKey = false := by simp [Node.isSingleKey, h1]
        have hlf : n.isLeaf = true := by simp [Node.isLeaf, h1, Node.isComment, Node.isSentinel, h2]
        rw [hsk, hlf, h2, h1]
        simp only [Bool.false_and, Bool.false_eq_true, if_false, if_true, hv, Bool.and_false]
      · cases hh
    · rename_i c h1
      split at hh
      · rename_i hcond
        obtain ⟨hk, h2, h4, h5⟩ := hcond
        split at hh
        · rename_i s' h3
          injection hh with hh; subst hh
          have hlf : c.isLeaf = true := by simp [Node.isLeaf, h2, Node.isComment, Node.isSentinel, h3]
          have hsk : n.isSingleKey = true := by simp [Node.isSingleKey, h1, hk, hlf]
          rw [hsk, hr]
          simp only [Bool.not_false, Bool.and_self, if_true, h1, h4, ne_eq, not_true, if_false, h3, hv, h5, Bool.and_false,
            Bool.false_eq_true]
        · cases hh
      · cases hh
    · cases hh

/-- A block text is handed to the loader after its expressions were evaluated. -/
theorem getValueIn_block (E : Env) (root : Node) (comps : List Str) (hc : ∀ c ∈ comps, Component c) (hne : comps ≠ []) (s : Str)
    (hh : blockAt root comps = some s) (d : Option PyVal) (ctx : Option JinjaCtx) :
    getValueIn E root (absPath comps) d ctx = match ctx with | some c => renderJinjaVars E c s | none => E.load s := by
  unfold blockAt at hh
  unfold getValueIn
  rw [strToStack_absPath comps hne hc]
  simp only [bind, Except.bind]
  rw [traverse_lookup]
  cases hn : lookup root comps with
  | none => rw [hn] at hh; cases hh
  | some n =>
    rw [hn] at hh
    simp only at hh ⊢
    split at hh
    · cases hh
    rename_i hroot
    have hr : n.isRoot = false := by simp [Node.isRoot, hroot]
    split at hh
    · rename_i c h1
      split at hh
      · rename_i hcond
        obtain ⟨hk, h2, h4⟩ := hcond
        split at hh
        · rename_i x xs h3
          injection hh with hh
          have hlf : c.isLeaf = true := by simp [Node.isLeaf, h2, Node.isComment, Node.isSentinel, h3]
          have hsk : n.isSingleKey = true := by simp [Node.isSingleKey, h1, hk, hlf]
          have hnorm : normalizeMultiline c.value c.multiline = .str s := by
            unfold normalizeMultiline
            rw [if_neg h4, h3, ← hh]
            congr 1
            have hj : ∀ (x : Str) (xs : List Str), tabStr ++ joinStr (§"\n" ++ tabStr) (x :: xs) =
                tabStr ++ x ++ xs.flatMap (fun l => §"\n" ++ tabStr ++ l) := by
              intro x xs
              induction xs generalizing x with
              | nil => simp [joinStr]
              | cons y ys ih =>
                have := ih y
                rw [joinStr]
                · simp only [List.append_assoc] at this ⊢
                  rw [this]
                  simp [List.flatMap_cons]
            have ht : tabStr = §"  " := rfl
            have := hj (pyStr x) (xs.map pyStr)
            simp only [linesOf, List.map_cons, List.append_assoc] at this ⊢
            rw [this, ht]
            simp [List.flatMap_cons, List.flatMap_map]
          rw [hsk, hr]
          simp only [Bool.not_false, Bool.and_self, if_true, h1, h4, ne_eq, not_false_eq_true, hnorm]
          cases ctx <;> rfl
        · cases hh
      · cases hh
    · cases hh

/-! ## C73 -/

/-- C73: `get_value(path, sub_vars=True)` of a text with expressions is what the YAML loader makes of the text with every
expression replaced by its value.  Here the loader takes the text itself for a string. -/
theorem C73_expressions_are_evaluated_partial (E : Env) (hl : 0 < E.recLimit) (r : Recipe) (comps : List Str) (hc : ∀ c ∈ comps, Component c)
    (hne : comps ≠ []) (segs : List Seg) (hs : Template E r.vars segs) (hx : HasExpr segs)
    (hh : textAt r.root comps = some (source r.schema segs))
    (hself : E.load (source r.schema segs) = .ok (.str (source r.schema segs)))
    (v : PyVal) (hv : Scalar v) (hload : E.load (substituted E r.schema r.vars segs) = .ok v) (d : Option PyVal) :
    r.getValue E (absPath comps) d true = .ok v :=
  getValueIn_text E r.root comps hc hne _ hh d (some r.ctx) v (parseYaml_direct E r.ctx hl segs hs hx hself v hv hload)

/-- C73: the same for a V0 text that YAML does not accept (`{{ name }}` is not a YAML scalar). -/
theorem C73_rejected_texts_are_evaluated (E : Env) (hl : 0 < E.recLimit) (r : Recipe) (hr : r.schema = .v0) (comps : List Str)
    (hc : ∀ c ∈ comps, Component c) (hne : comps ≠ []) (segs : List Seg) (hs : Template E r.vars segs) (hx : HasExpr segs)
    (hh : textAt r.root comps = some (source .v0 segs)) (e : PyErr) (hself : E.load (source .v0 segs) = .error e)
    (hmark : inStr §"RECIPE_MANAGER_SUBSTITUTION_MARKER" (source .v0 segs) = false)
    (hhid : E.load (hidden segs) = .ok (.str (hidden segs))) (hq : Unquoted (hidden segs))
    (v : PyVal) (hv : Scalar v) (hload : E.load (substituted E .v0 r.vars segs) = .ok v) (d : Option PyVal) :
    r.getValue E (absPath comps) d true = .ok v := by
  refine getValueIn_text E r.root comps hc hne _ hh d (some r.ctx) v ?_
  rw [parseYaml_hidden E _ hl segs hs.1 hx e hself hmark hhid hq]
  have := subJinja_text E r.ctx hl segs hs hx v hv (by rw [show r.ctx.schema = .v0 from hr]; exact hload)
  rwa [show r.ctx.schema = .v0 from hr] at this

/-- C73: a block text is evaluated as a whole, header included, and then read by the YAML loader. -/
theorem C73_block_texts_are_evaluated (E : Env) (r : Recipe) (comps : List Str) (hc : ∀ c ∈ comps, Component c)
    (hne : comps ≠ []) (segs : List Seg) (hs : Template E r.vars segs) (hh : blockAt r.root comps = some (source r.schema segs))
    (d : Option PyVal) : r.getValue E (absPath comps) d true = E.load (substituted E r.schema r.vars segs) :=
  (getValueIn_block E r.root comps hc hne _ hh d (some r.ctx)).trans (renderJinjaVars_segs E r.ctx segs hs)

/-- C73: without `sub_vars` the text comes back as it is written, whether or not YAML accepts it. -/
theorem C73_text_is_kept_without_substitution (E : Env) (hl : 0 < E.recLimit) (r : Recipe) (comps : List Str)
    (hc : ∀ c ∈ comps, Component c) (hne : comps ≠ []) (segs : List Seg) (hs : ∀ s ∈ segs, s.Ok) (hx : HasExpr segs)
    (hh : textAt r.root comps = some (source r.schema segs))
    (hself : E.load (source r.schema segs) = .ok (.str (source r.schema segs)) ∨
      r.schema = .v0 ∧ (∃ e, E.load (source .v0 segs) = .error e) ∧
        inStr §"RECIPE_MANAGER_SUBSTITUTION_MARKER" (source .v0 segs) = false ∧
        E.load (hidden segs) = .ok (.str (hidden segs)) ∧ Unquoted (hidden segs))
    (d : Option PyVal) : r.getValue E (absPath comps) d false = .ok (.str (source r.schema segs)) := by
  refine getValueIn_text E r.root comps hc hne _ hh d none _ ?_
  rcases hself with h | ⟨h1, ⟨e, h2⟩, h3, h4, h5⟩
  · unfold parseYaml
    simp only [h, bind, Except.bind, subJinja]
  · rw [h1, parseYaml_hidden E _ hl segs hs hx e h2 h3 h4 h5]
    rfl

/-- A V0 recipe with expressions. -/
def jinjaRecipe : Recipe := Toy.recipe
  "{% set name = \"Foo\" %}\n{% set version = \"1.10\" %}\npackage:\n  name: {{ name|lower }}\n  version: {{ version }}\nsource:\n  url: x/{{ name[0] | upper }}-{{ name }}.{{ 1 + 2 }}.gz\nabout:\n  doc: |\n    a {{ name }}\n    b\n  home: {{ home }}\n"

def urlSegs : List Seg := [.text §"x/", .hole §" " (.access §"name" (some §"0") .upper §" " §" ") §" ", .text §"-",
  .hole §" " (.access §"name" none .none [] []) §" ", .text §".", .hole §" " (.add (.plain §"1") (.plain §"2") §" " §" ") §" ", .text §".gz"]

def nameSegs : List Seg := [.hole §" " (.access §"name" none .lower [] []) §" "]
def versionSegs : List Seg := [.hole §" " (.access §"version" none .none [] []) §" "]
def homeSegs : List Seg := [.hole §" " (.access §"home" none .none [] []) §" "]
def docSegs : List Seg := [.text §"|\n  a ", .hole §" " (.access §"name" none .none [] []) §" ", .text §"\n  b"]

example : jinjaRecipe.getValue Toy.env (absPath [§"source", §"url"]) none true = .ok (.str §"x/F-Foo.3.gz") := by
  have hs : Template Toy.env jinjaRecipe.vars urlSegs := segB_sound (by decide +kernel)
  have h1 : jinjaRecipe.schema = .v0 := by decide +kernel
  have h2 : textAt jinjaRecipe.root [§"source", §"url"] = some (source .v0 urlSegs) := by decide +kernel
  have h3 : Toy.env.load (source .v0 urlSegs) = .ok (.str (source .v0 urlSegs)) := by decide +kernel
  have h4 : Toy.env.load (substituted Toy.env .v0 jinjaRecipe.vars urlSegs) = .ok (.str §"x/F-Foo.3.gz") := by decide +kernel
  rw [← h1] at h2 h3 h4
  exact C73_expressions_are_evaluated_partial Toy.env (by decide) jinjaRecipe _ (by decide) (by decide) urlSegs hs
    ⟨_, _, _, List.mem_cons_of_mem _ List.mem_cons_self⟩ h2 h3 (.str §"x/F-Foo.3.gz") trivial h4 none

example : jinjaRecipe.getValue Toy.env (absPath [§"package", §"name"]) none true = .ok (.str §"foo") := by
  have hs : Template Toy.env jinjaRecipe.vars nameSegs := segB_sound (by decide +kernel)
  exact C73_rejected_texts_are_evaluated Toy.env (by decide) jinjaRecipe (by decide +kernel) _ (by decide) (by decide) nameSegs hs
    ⟨_, _, _, List.mem_singleton.2 rfl⟩ (by decide +kernel) .yamlError (by decide +kernel) (by decide +kernel) (by decide +kernel)
    ⟨by decide, by decide, by decide⟩ (.str §"foo") trivial (by decide +kernel) none

example : jinjaRecipe.getValue Toy.env (absPath [§"about", §"doc"]) none true = .ok (.str §"a Foo\nb") := by
  have hs : Template Toy.env jinjaRecipe.vars docSegs := segB_sound (by decide +kernel)
  have h1 : jinjaRecipe.schema = .v0 := by decide +kernel
  rw [C73_block_texts_are_evaluated Toy.env jinjaRecipe _ (by decide) (by decide) docSegs hs (by rw [h1]; decide +kernel), h1]
  decide +kernel

/-- A quoted version that looks like a number comes back as a number, and `1.10` as `1.1`: the value of a variable is read as
YAML again. -/
theorem C73_a_version_becomes_a_number :
    lookupD §"version" jinjaRecipe.vars = some (.str §"1.10") ∧ textAt jinjaRecipe.root [§"package", §"version"] = some §"{{ version }}" ∧
    jinjaRecipe.getValue Toy.env §"/package/version" none true = .ok (.flt §"1.1") := by decide +kernel

/-- An expression with an undefined variable is kept; at the start of a V0 text it gets a dollar sign that is not in the recipe. -/
theorem C73_an_undefined_variable_gets_a_dollar_sign :
    lookupD §"home" jinjaRecipe.vars = none ∧ textAt jinjaRecipe.root [§"about", §"home"] = some §"{{ home }}" ∧
    jinjaRecipe.getValue Toy.env §"/about/home" none false = .ok (.str §"{{ home }}") ∧
    jinjaRecipe.getValue Toy.env §"/about/home" none true = .ok (.str §"${{ home }}") := by decide +kernel

/-- A V1 recipe: names, an index past the end, a quoted operand. -/
def jinjaV1Recipe : Recipe := Toy.recipe
  "schema_version: 1\ncontext:\n  name: Foo\n  n: 2\npackage:\n  name: ${{ name[9] }}-${{ n + 'x' }}\n"

def v1Segs : List Seg := [.hole §" " (.access §"name" (some §"9") .none [] []) §" ", .text §"-",
  .hole §" " (.add (.plain §"n") (.quoted '\'' §"x") §" " §" ") §" "]

example : jinjaV1Recipe.getValue Toy.env (absPath [§"package", §"name"]) none true = .ok (.str §"Foo-\"2x\"") := by
  have hs : Template Toy.env jinjaV1Recipe.vars v1Segs := segB_sound (by decide +kernel)
  have h1 : jinjaV1Recipe.schema = .v1 := by decide +kernel
  have h2 : textAt jinjaV1Recipe.root [§"package", §"name"] = some (source .v1 v1Segs) := by decide +kernel
  have h3 : Toy.env.load (source .v1 v1Segs) = .ok (.str (source .v1 v1Segs)) := by decide +kernel
  have h4 : Toy.env.load (substituted Toy.env .v1 jinjaV1Recipe.vars v1Segs) = .ok (.str §"Foo-\"2x\"") := by decide +kernel
  rw [← h1] at h2 h3 h4
  exact C73_expressions_are_evaluated_partial Toy.env (by decide) jinjaV1Recipe _ (by decide) (by decide) v1Segs hs
    ⟨_, _, _, List.mem_cons_self⟩ h2 h3 (.str §"Foo-\"2x\"") trivial h4 none

end Crm
