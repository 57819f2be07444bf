import Verif.Lemmas.Bump

/-!
# `bump-recipe`: the build number (C46) and the version (C48)
-/

namespace Crm
open Spec

namespace Spec

/-- The integer a YAML value stands for; in Python `True` and `False` are integers too. -/
def wholeNumber : PyVal → Option Int
  | .int n => some n
  | .bool true => some 1
  | .bool false => some 0
  | _ => none

/-- YAML writes and reads the number plainly, by itself and behind `number:`. -/
structure PlainNumber (E : Env) (n : Int) : Prop where
  value : OneLine E (pyStr (.int n)) (.int n)
  entry : E.dump (.dict [(§"number", .int n)]) = (§"number: " ++ pyStr (.int n)) ++ §"\n"
  line : OneLine E (§"number: " ++ pyStr (.int n)) (.dict [(§"number", .int n)])

/-- YAML reads the version as a text, by itself (perhaps quoted) and behind `version:`. -/
structure PlainVersion (E : Env) (t : Str) : Prop where
  newline : '\n' ∉ t
  notSchema : t ≠ §"schema_version"
  value : OneLine E (yamlText (.str t)) (.str t)
  line : ∃ text, E.dump (.dict [(§"version", .str t)]) = text ++ §"\n" ∧ OneLine E text (.dict [(§"version", .str t)])
  reads : E.load t = .ok (.str t)

/-- What the run shows the user: the file, or in a dry run what is printed. -/
def shown (args : BumpArgs) (res : BumpResult) : Option Str := if args.dryRun then res.printed else res.file

/-- The recipe the command works on. -/
def readsRecipe (E : Env) (W : BumpWorld) (r : Recipe) : Prop :=
  ∃ content, W.file = some content ∧ Recipe.ofString E (preProcessRemoveHashType W.variants content) = .ok r

end Spec

theorem wholeNumber_eq (v : PyVal) : wholeNumber v = asInt v := by
  cases v <;> first | rfl | (rename_i b; cases b <;> rfl)

/-- Setting a named key with `add`, or with `replace` when it is there, read back. -/
theorem setKey_readback {E : Env} {r r' : Recipe} {op b : Str} {init : List Str} {v w : PyVal} {text : Str}
    (hc : ∀ c ∈ init ++ [b], Component c) (hb : isDigitS b = false) (hbd : b ≠ §"-") (hbs : b ≠ §"schema_version")
    (hinit : init ≠ [])
    (hpl : endsInNumber init = false ∨ ∃ m, lookup r.root init = some m ∧ m.isCollectionElement = true)
    (hop : op = §"add" ∨ (op = §"replace" ∧ (lookup r.root (init ++ [b])).isSome = true))
    (hkey : ∀ m, lookup r.root (init ++ [b]) = some m → m.key = true)
    (hprim : v.isPrimitive = true) (hvs : v ≠ .sentinel) (hnl : ∀ s, v = .str s → '\n' ∉ s)
    (hline : OneLine E (yamlText v) w) (hw : isScalar w = true) (hwn : w ≠ .none) (hwe : w ≠ .sentinel)
    (hws : w ≠ .str §"schema_version")
    (hdump : E.dump (.dict [(b, v)]) = text ++ §"\n") (hentry : OneLine E text (.dict [(b, w)]))
    (h : r.patch E (valuePatch op (absPath (init ++ [b])) v) = (.ok true, r')) :
    r'.getValue E (absPath (init ++ [b])) = (match w with | .str s => parseYaml E s | w => .ok w) := by
  have hp : IsPatch (valuePatch op (absPath (init ++ [b])) v) op (absPath (init ++ [b])) :=
    isPatch_mk op _ v (by rcases hop with h | ⟨h, _⟩ <;> simp [h])
      (by cases init <;> simp [absPath]) hvs
  have hvl : field (valuePatch op (absPath (init ++ [b])) v) §"value" = some v := by simp [field, valuePatch, lookupD]
  cases hl : locate r.root (init ++ [b]) with
  | some pos =>
    obtain ⟨m, hm⟩ := locate_valid hl
    have hk := hkey m (by rw [← locate_lookup, hl]; exact hm)
    have := (patch_key_readback E r r' op v w (init ++ [b]) pos m (by simp) hc (by rcases hop with h | ⟨h, _⟩ <;> simp [h])
      (by simpa using hbd) (by rw [endsInNumber_concat]; exact hb) hl hm hk hprim hvs hnl hline hw hws h).2
    cases w <;> exact this
  | none =>
    have hlk : lookup r.root (init ++ [b]) = none := by rw [← locate_lookup, hl]; rfl
    have hadd : op = §"add" := by
      rcases hop with h | ⟨_, h⟩
      · exact h
      · rw [hlk] at h; cases h
    subst hadd
    cases hpar : locate r.root init with
    | none =>
      have hnum : endsInNumber init = false := by
        rcases hpl with h | ⟨m, h, _⟩
        · exact h
        · rw [← locate_lookup, hpar] at h; cases h
      have := C10_missing_parent E r _ v init b hc hp hvl hbd hpar hnum
      rw [h] at this; injection this with this; cases this
    | some pos =>
      obtain ⟨m, hm⟩ := locate_valid hpar
      have hplace : endsInNumber init = false ∨ m.isCollectionElement = true := by
        rcases hpl with h | ⟨m', h, hcol⟩
        · exact Or.inl h
        · rw [← locate_lookup, hpar] at h
          simp only [Option.bind_some, hm] at h
          injection h with h; subst h; exact Or.inr hcol
      by_cases hbare : bareValue m = true
      · exfalso
        have hst := strToStack_absPath (init ++ [b]) (by simp) hc
        obtain ⟨d, hd, hh⟩ := patch_eq' (E := E) hp (by decide) r
        have hvl' : lookupD §"value" d = some v := by rw [hd] at hvl; exact hvl
        rw [hh, call_add hst hvl', finish_outcome (by decide)] at h
        unfold patchAdd at h
        have ht := target_new (init := init) hl hpar hm hplace hb hbd
        simp only [ht, bind, Except.bind, hm, valid_none, hbare, Bool.not_true,
          Bool.not_false, if_true] at h
        injection h with h; cases h
      · have := (C10_readback E r r' _ v w init b text pos m hc hp hvl hb hbd hbs hl hpar hm hplace (by simpa using hbare)
          (locate_real hinit hpar hm) hdump hentry hw hwn hwe h).2
        cases w <;> exact this

theorem getValue_keeps {E : Env} {s : Str} {r r' : Recipe} (h : KeepsOthers s r r') {q : List Str} {b : Str}
    (hc : ∀ c ∈ b :: q, Component c) (hb : isDigitS b = false) (hne : b ≠ s) :
    r'.getValue E (absPath (b :: q)) = r.getValue E (absPath (b :: q)) :=
  getValueIn_lookup (by simp) hc (h.sections b q hb hne) _ _

theorem updateBuildNum_readback {E : Env} {r r' : Recipe} {inc : Bool} (h : updateBuildNum E r inc = .ok r')
    (hkey : ∀ m, lookup r.root [§"build", §"number"] = some m → m.key = true) :
    (∀ v, inc = true → r.containsValue §"/build/number" = .ok true → r.getValue E §"/build/number" = .ok v →
      ∃ n, wholeNumber v = some n ∧ (PlainNumber E (n + 1) → r'.getValue E §"/build/number" = .ok (.int (n + 1)))) ∧
    ((inc = false ∨ r.containsValue §"/build/number" = .ok false) → PlainNumber E 0 →
      r'.getValue E §"/build/number" = .ok (.int 0)) := by
  have hread : ∀ (op : Str) (n : Int),
      op = §"add" ∨ (op = §"replace" ∧ (lookup r.root [§"build", §"number"]).isSome = true) →
      r.patch E (valuePatch op §"/build/number" (.int n)) = (.ok true, r') → PlainNumber E n →
      r'.getValue E §"/build/number" = .ok (.int n) := by
    intro op n hop hpatch hpn
    exact setKey_readback (init := [§"build"]) (b := §"number") (v := .int n) (w := .int n) comps_build (by decide)
      (by decide) (by decide) (by simp) (Or.inl (by decide)) hop hkey rfl (by simp) (by simp) hpn.value rfl (by simp) (by simp) (by simp) hpn.entry
      hpn.line hpatch
  have hcl : r.containsValue §"/build/number" = .ok (lookup r.root [§"build", §"number"]).isSome :=
    C04_contains_iff_lookup r [§"build", §"number"] comps_build (by simp)
  unfold updateBuildNum at h
  split at h
  · cases h
  · cases h
  · obtain ⟨present, hpres, h⟩ := bind_ok.1 h
    rw [orRaise_ok] at hpres
    rw [hpres] at hcl ⊢
    injection hcl with hcl
    constructor
    · intro v hi hc hv
      injection hc with hc; subst hc
      rw [hi] at h
      simp only [Bool.and_self, if_true] at h
      obtain ⟨v', hv', h⟩ := bind_ok.1 h
      rw [orRaise_ok, hv] at hv'
      injection hv' with hv'; subst hv'
      rw [wholeNumber_eq]
      cases hn : asInt v with
      | none => rw [hn] at h; cases h
      | some n =>
        rw [hn] at h
        exact ⟨n, rfl, hread §"replace" (n + 1) (Or.inr ⟨rfl, hcl.symm⟩) (exitOnFailedPatch_ok.1 h)⟩
    · intro hor hpn
      have hand : (inc && present) = false := by
        rcases hor with h | h
        · simp [h]
        · injection h with h; simp [h]
      rw [hand] at h
      exact hread §"add" 0 (Or.inl rfl) (exitOnFailedPatch_ok.1 h) hpn

theorem bumpEdits_ok {E : Env} {sha : Str → Str} {W : BumpWorld} {args : BumpArgs} {r r' : Recipe}
    (hord : ∀ l, (W.order l).Perm l) (h : bumpEdits E sha W args r = .ok r') :
    ∃ r1, updateBuildNum E r args.buildNum = .ok r1 ∧
      ((args.target = none ∧ r' = r1) ∨ ∃ t r2, args.target = some t ∧ updateVersion E r1 t = .ok r2 ∧
        KeepsOthers §"package" r1 r2 ∧ KeepsOthers §"source" r2 r' ∧
        lookupD §"version" r'.vars = lookupD §"version" r2.vars) := by
  unfold bumpEdits at h
  obtain ⟨r1, h1, h⟩ := bind_ok.1 h
  refine ⟨r1, h1, ?_⟩
  split at h
  · rename_i ht; injection h with h; exact Or.inl ⟨ht, h.symm⟩
  · rename_i t ht
    obtain ⟨_, _, h⟩ := bind_ok.1 h
    obtain ⟨r2, h2, h⟩ := bind_ok.1 h
    obtain ⟨h3, h4⟩ := updateSha256_keeps hord h
    exact Or.inr ⟨t, r2, ht, h2, updateVersion_keeps h2, h3, h4⟩

/-- The example world with another recipe file. -/
def exBumpFile (s : Str) : BumpWorld := { exBumpWorld with file := some s }

/-! ## C46 -/

/-- C46: after a run that succeeds, what is written (or, in a dry run, printed) is the rendering of a recipe whose
`/build/number` is one more than before if the run was asked to raise the number and there was one, and 0 otherwise.
Assumed of the recipe: `/build/number`, if it is there, is a key of the mapping `build`.  The full claim also asks that
the number is 0 whenever a version is given, see `C46_both_flags_violation`. -/
theorem C46_build_number_partial (E : Env) (sha : Str → Str) (W : BumpWorld) (args : BumpArgs) (r : Recipe)
    (hord : ∀ l, (W.order l).Perm l) (hr : readsRecipe E W r)
    (hkey : ∀ m, lookup r.root [§"build", §"number"] = some m → m.key = true)
    (hok : (bumpRecipe E sha W args).stop = .exit 0) :
    ∃ r' : Recipe, shown args (bumpRecipe E sha W args) = some r'.render ∧
      (∀ v, args.buildNum = true → r.containsValue §"/build/number" = .ok true → r.getValue E §"/build/number" = .ok v →
        ∃ n, wholeNumber v = some n ∧ (PlainNumber E (n + 1) → r'.getValue E §"/build/number" = .ok (.int (n + 1)))) ∧
      ((args.buildNum = false ∨ r.containsValue §"/build/number" = .ok false) → PlainNumber E 0 →
        r'.getValue E §"/build/number" = .ok (.int 0)) := by
  obtain ⟨_, content, r0, r', hf, hp, hb, hout⟩ := (C45_success E sha W args).1 hok
  obtain ⟨content', hf', hp'⟩ := hr
  rw [hf] at hf'; injection hf' with hf'; subst hf'
  rw [hp] at hp'; injection hp' with hp'; subst hp'
  refine ⟨r', ?_, ?_⟩
  · unfold shown
    rcases hout with ⟨hd, he⟩ | ⟨hd, _, he⟩ <;> rw [he, hd] <;> rfl
  · obtain ⟨r1, h1, hrest⟩ := bumpEdits_ok hord hb
    have hread := updateBuildNum_readback h1 hkey
    have heq : r'.getValue E §"/build/number" = r1.getValue E §"/build/number" := by
      rcases hrest with ⟨_, rfl⟩ | ⟨t, r2, _, _, hk1, hk2, _⟩
      · rfl
      · have e1 := getValue_keeps (E := E) hk1 (b := §"build") (q := [§"number"]) comps_build (by decide) (by decide)
        have e2 := getValue_keeps (E := E) hk2 (b := §"build") (q := [§"number"]) comps_build (by decide) (by decide)
        exact e2.trans e1
    rw [heq]
    exact hread

/-- C46: a recipe without a `build` section, or (when the number is to be raised) with a build number that is not a whole
number, is refused with `ILLEGAL_OPERATION`. -/
theorem C46_refused (E : Env) (sha : Str → Str) (W : BumpWorld) (args : BumpArgs) (r : Recipe) (hg : goodArgs args)
    (hr : readsRecipe E W r)
    (h : r.getValue E §"/build" = .error .keyError ∨
      (args.buildNum = true ∧ (∃ v, r.getValue E §"/build" = .ok v) ∧ r.containsValue §"/build/number" = .ok true ∧
        ∃ v, r.getValue E §"/build/number" = .ok v ∧ wholeNumber v = none)) :
    bumpRecipe E sha W args = ⟨.exit 106, W.file, none⟩ := by
  obtain ⟨content, hf, hp⟩ := hr
  have hb : bumpEdits E sha W args r = .error (.exit 106) := by
    have : updateBuildNum E r args.buildNum = .error (.exit 106) := by
      unfold updateBuildNum
      rcases h with h | ⟨h1, ⟨v, h2⟩, h3, w, h4, h5⟩
      · rw [h]
      · rw [h2, h1, h3, h4]
        rw [wholeNumber_eq] at h5
        simp [bind, Except.bind, orRaise, h5]
    unfold bumpEdits
    rw [this]; rfl
  obtain ⟨g1, g2, g3⟩ := hg
  unfold bumpRecipe
  rw [if_neg (by rintro (h | h); exact g1 h; omega)]
  rw [if_neg (by rcases g3 with g | g <;> cases hh : args.target <;> simp_all), hf]
  simp only [hp, hb]

/-- The number 6 is written and read plainly, and the example recipe is as the theorem asks. -/
example : PlainNumber Toy.env 6 :=
  ⟨⟨by decide, by decide, by decide, by decide, by decide, by decide, by decide +kernel⟩, by decide +kernel,
    ⟨by decide, by decide, by decide, by decide, by decide, by decide, by decide +kernel⟩⟩
example : let r := Toy.recipe "package:\n  name: p\n  version: 1.0.1\nbuild:\n  number: 5\n"
    (lookup r.root [§"build", §"number"]).map (·.key) = some true ∧ r.getValue Toy.env §"/build/number" = .ok (.int 5) := by
  decide +kernel
example : bumpRecipe Toy.env id (exBumpFile §"package:\n  name: p\n") { buildNum := true } =
    ⟨.exit 106, some §"package:\n  name: p\n", none⟩ := by decide +kernel

/-- C46 is false when both options are given: the number is raised although the version is new. -/
theorem C46_both_flags_violation :
    bumpRecipe Toy.env (fun _ => §"d") exBumpWorld { buildNum := true, target := some §"2.0.1" } =
    ⟨.exit 0, some §"package:\n  name: p\n  version: 2.0.1\n\nsource:\n  url: http://x\n  sha256: d\n\nbuild:\n  number: 6\n",
      none⟩ := by decide +kernel

/-! ## C48 -/

/-- C48 (old format with a `version` variable): after a successful run with a target version, the text written defines
the variable with this version. -/
theorem C48_variable (E : Env) (sha : Str → Str) (W : BumpWorld) (args : BumpArgs) (r : Recipe) (t : Str) (old : PyVal)
    (hord : ∀ l, (W.order l).Perm l) (hr : readsRecipe E W r) (ht : args.target = some t) (hs : r.schema = .v0)
    (hv : r.getVariable §"version" = .ok old) (hold : old ≠ .none)
    (hok : (bumpRecipe E sha W args).stop = .exit 0) :
    ∃ (r' : Recipe) (body : List Str), shown args (bumpRecipe E sha W args) = some (joinStr §"\n" body) ∧
      §"{% set version = \"" ++ t ++ §"\" %}" ∈ body ∧ joinStr §"\n" body = r'.render ∧
      r'.getVariable §"version" = .ok (.str t) := by
  obtain ⟨_, content, r0, r', hf, hp, hb, hout⟩ := (C45_success E sha W args).1 hok
  obtain ⟨content', hf', hp'⟩ := hr
  rw [hf] at hf'; injection hf' with hf'; subst hf'
  rw [hp] at hp'; injection hp' with hp'; subst hp'
  obtain ⟨r1, h1, hrest⟩ := bumpEdits_ok hord hb
  obtain ⟨hk0, hvars⟩ := updateBuildNum_keeps h1
  rcases hrest with ⟨hn, _⟩ | ⟨t', r2, ht', h2, hk1, hk2, hver⟩
  · rw [ht] at hn; cases hn
  · rw [ht] at ht'; injection ht' with ht'; subst ht'
    have hlk : lookupD §"version" r0.vars = some old := by
      unfold Recipe.getVariable at hv
      split at hv
      · rename_i x hx; injection hv with hv; subst hv; exact hx
      · cases hv
    have hr2 : r2 = r1.setVariable §"version" (.str t) := by
      unfold updateVersion at h2
      obtain ⟨o, ho, h2⟩ := bind_ok.1 h2
      rw [orRaise_ok] at ho
      unfold Recipe.getVariable at ho
      rw [hvars, hlk] at ho
      injection ho with ho; subst ho
      rw [if_pos hold] at h2
      injection h2 with h2; exact h2.symm
    have hfin : lookupD §"version" r'.vars = some (.str t) := by
      rw [hver, hr2]; simp [Recipe.setVariable, lookupD_insertD]
    have hsch : r'.schema = .v0 := by rw [hk2.schema, hk1.schema, hk0.schema, hs]
    refine ⟨r', Recipe.renderVars r'.vars ++ renderTree (-1) none r'.root, ?_, ?_, ?_, ?_⟩
    · have : r'.render = joinStr §"\n" (Recipe.renderVars r'.vars ++ renderTree (-1) none r'.root) := by
        simp [Recipe.render, hsch]
      rw [← this]
      unfold shown
      rcases hout with ⟨hd, he⟩ | ⟨hd, _, he⟩ <;> rw [he, hd] <;> rfl
    · apply List.mem_append_left
      unfold Recipe.renderVars
      apply List.mem_append_left
      rw [List.mem_map]
      refine ⟨(§"version", .str t), ?_, by simp⟩
      have : ∀ (d : List (Str × PyVal)) (k : Str) (v : PyVal), lookupD k d = some v → (k, v) ∈ d := by
        intro d k v
        induction d with
        | nil => intro h; cases h
        | cons e es ih =>
          intro h
          simp only [lookupD] at h
          split at h
          · rename_i he; injection h with h; subst he; subst h; simp
          · exact List.mem_cons_of_mem _ (ih h)
      exact this _ _ _ hfin
    · simp [Recipe.render, hsch]
    · unfold Recipe.getVariable; rw [hfin]

/-- C48 (no `version` variable): after a successful run with a target version that YAML reads as the text it is, what is
written is the rendering of a recipe whose `/package/version` is this version. -/
theorem C48_field_partial (E : Env) (sha : Str → Str) (W : BumpWorld) (args : BumpArgs) (r : Recipe) (t : Str)
    (hord : ∀ l, (W.order l).Perm l) (hr : readsRecipe E W r) (ht : args.target = some t)
    (hv : r.containsVariable §"version" = false)
    (hkey : ∀ m, lookup r.root [§"package", §"version"] = some m → m.key = true) (hplain : PlainVersion E t)
    (hok : (bumpRecipe E sha W args).stop = .exit 0) :
    ∃ r' : Recipe, shown args (bumpRecipe E sha W args) = some r'.render ∧
      r'.getValue E §"/package/version" = .ok (.str t) := by
  obtain ⟨_, content, r0, r', hf, hp, hb, hout⟩ := (C45_success E sha W args).1 hok
  obtain ⟨content', hf', hp'⟩ := hr
  rw [hf] at hf'; injection hf' with hf'; subst hf'
  rw [hp] at hp'; injection hp' with hp'; subst hp'
  refine ⟨r', ?_, ?_⟩
  · unfold shown
    rcases hout with ⟨hd, he⟩ | ⟨hd, _, he⟩ <;> rw [he, hd] <;> rfl
  obtain ⟨r1, h1, hrest⟩ := bumpEdits_ok hord hb
  obtain ⟨hk0, hvars⟩ := updateBuildNum_keeps h1
  rcases hrest with ⟨hn, _⟩ | ⟨t', r2, ht', h2, hk1, hk2, hver⟩
  · rw [ht] at hn; cases hn
  · rw [ht] at ht'; injection ht' with ht'; subst ht'
    have hlk0 : lookup r1.root [§"package", §"version"] = lookup r0.root [§"package", §"version"] :=
      hk0.sections §"package" [§"version"] (by decide) (by decide)
    have e2 := getValue_keeps (E := E) hk2 (b := §"package") (q := [§"version"]) comps_package (by decide) (by decide)
    refine Eq.trans e2 ?_
    have hno : lookupD §"version" r1.vars = none := by
      rw [hvars]
      unfold Recipe.containsVariable at hv
      cases hx : lookupD §"version" r0.vars with
      | none => rfl
      | some x => rw [hx] at hv; cases hv
    unfold updateVersion at h2
    obtain ⟨o, ho, h2⟩ := bind_ok.1 h2
    rw [orRaise_ok] at ho
    unfold Recipe.getVariable at ho
    rw [hno] at ho
    injection ho with ho; subst ho
    rw [if_neg (by simp)] at h2
    obtain ⟨b, hb', h2⟩ := bind_ok.1 h2
    rw [orRaise_ok] at hb'
    have hcl : r1.containsValue §"/package/version" = .ok (lookup r1.root [§"package", §"version"]).isSome :=
      C04_contains_iff_lookup r1 [§"package", §"version"] comps_package (by simp)
    rw [hb'] at hcl
    injection hcl with hcl
    obtain ⟨text, hdump, hentry⟩ := hplain.line
    have := setKey_readback (E := E) (r := r1) (r' := r2) (init := [§"package"]) (b := §"version") (v := .str t)
      (w := .str t) (text := text) comps_package (by decide) (by decide) (by decide) (by simp) (Or.inl (by decide))
      (by cases b
          · exact Or.inl rfl
          · exact Or.inr ⟨rfl, hcl.symm⟩) (fun m hm => hkey m (hlk0 ▸ hm)) rfl (by simp)
      (by intro s hs; injection hs with hs; subst hs; exact hplain.newline) hplain.value rfl (by simp) (by simp)
      (by simpa using hplain.notSchema) hdump hentry (exitOnFailedPatch_ok.1 h2)
    have h3 : r2.getValue E §"/package/version" = parseYaml E t := this
    exact h3.trans (parseYaml_ok hplain.reads)

/-- A version as the theorem asks, and the example recipe. -/
example : PlainVersion Toy.env §"2.0.1" :=
  ⟨by decide, by decide, ⟨by decide, by decide, by decide, by decide, by decide, by decide, by decide +kernel⟩,
    ⟨§"version: 2.0.1", by decide +kernel,
      ⟨by decide, by decide, by decide, by decide, by decide, by decide, by decide +kernel⟩⟩, by decide +kernel⟩
example : let r := Toy.recipe "package:\n  name: p\n  version: 1.0.1\n"
    r.containsVariable §"version" = false ∧ (lookup r.root [§"package", §"version"]).map (·.key) = some true := by
  decide +kernel
example : bumpRecipe Toy.env id (exBumpFile §"{% set version = \"1\" %}\npackage:\n  version: {{ version }}\nbuild:\n  number: 5\n") { target := some §"1.10" } =
    ⟨.exit 0, some §"{% set version = \"1.10\" %}\n\npackage:\n  version: {{ version }}\n\nbuild:\n  number: 0\n", none⟩ := by
  decide +kernel

/-- C48 is false for versions that look like numbers: 1.10 becomes 1.1. -/
theorem C48_number_violation :
    bumpRecipe Toy.env id (exBumpFile §"package:\n  version: 1.0.1\nbuild:\n  number: 5\n")
      { target := some §"1.10" } =
    ⟨.exit 0, some §"package:\n  version: 1.1\n\nbuild:\n  number: 0\n", none⟩ := by decide +kernel

/-- C48 is false for new-format recipes with a `version` variable: the run succeeds and changes nothing but the build
number. -/
theorem C48_v1_violation :
    bumpRecipe Toy.env id (exBumpFile §"schema_version: 1\ncontext:\n  version: 1.0.1\npackage:\n  version: ${{ version }}\nbuild:\n  number: 0\n")
      { target := some §"2.0.1" } =
    ⟨.exit 0, some §"schema_version: 1\n\ncontext:\n  version: 1.0.1\n\npackage:\n  version: ${{ version }}\n\nbuild:\n  number: 0\n",
      none⟩ := by decide +kernel

/-- C48 is false when the `version` variable is not the one used: the run succeeds, the version stays. -/
theorem C48_unused_variable_violation :
    bumpRecipe Toy.env id (exBumpFile §"{% set version = \"1\" %}\npackage:\n  version: 1.0.1\nbuild:\n  number: 5\n") { target := some §"2.0.1" } =
    ⟨.exit 0, some §"{% set version = \"2.0.1\" %}\n\npackage:\n  version: 1.0.1\n\nbuild:\n  number: 0\n", none⟩ := by
  decide +kernel

end Crm
