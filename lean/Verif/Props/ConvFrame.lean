import Verif.Lemmas.ConvFrame
import Verif.Lemmas.NodeEdits
import Verif.Props.ConvWhole

/-!
# C97: what a conversion leaves alone
-/

namespace Crm
open Spec

theorem child_key {n : Node} {x : Str} (hx : KeyName x) : child n x = firstKey x n.children := by
  unfold child firstKey
  rw [hx.2.1, if_neg (by simp)]
  congr 1
  funext c
  rw [Bool.eq_iff_iff, pyEq_str, decide_eq_true_eq]

theorem child_element {n : Node} (i : Nat) : child n (natStr i) = elementAt i n.children := by
  unfold child elementAt
  rw [isDigitS_natStr, if_pos rfl, natOfStr_natStr]

theorem lookup_key {n : Node} {x : Str} (hx : KeyName x) (q : List Str) : lookup n (x :: q) = (firstKey x n.children).bind (lookup · q) := by
  rw [← child_key hx]; rfl

theorem stays_lookup {l : List Str} {n n' : Node} (h : Stays l n.children n'.children) {x : Str} (hx : KeyName x) (hl : x ∉ l) {q : List Str} {k : Node}
    (hk : lookup n (x :: q) = some k) : lookup n' (x :: q) = some k := by
  rw [lookup_key hx] at *
  cases hf : firstKey x n.children with
  | none => rw [hf] at hk; cases hk
  | some m => rw [hf] at hk; rw [h x hl m hf]; exact hk

theorem below_lookup {Q : List Node → List Node → Prop} {g : Str} (hg : KeyName g) {n n' : Node} (h : StaysBelow g Q n.children n'.children)
    {q : List Str} {k : Node} (hQ : ∀ m m' : Node, Q m.children m'.children → lookup m q = some k → lookup m' q = some k)
    (hk : lookup n (g :: q) = some k) : lookup n' (g :: q) = some k := by
  rw [lookup_key hg] at *
  cases hf : firstKey g n.children with
  | none => rw [hf] at hk; cases hk
  | some m =>
    rw [hf] at hk
    obtain ⟨cs, h1, h2⟩ := h m hf
    rw [h1]
    exact hQ m { m with children := cs } h2 hk

theorem kept_lookup {E : Env} {more : List Str} {n n' : Node} (h : PackageStays E more n.children n'.children) {q : List Str}
    (hq : KeptPath more q) {k : Node} (hk : lookup n q = some k) : lookup n' q = some k := by
  cases hq with
  | «section» hx h1 h2 => exact stays_lookup h.others hx (by rw [List.mem_append, not_or]; exact ⟨h1, h2⟩) hk
  | build hx h1 => exact below_lookup (by decide) h.build (fun m m' hQ => stays_lookup hQ hx h1) hk
  | requirements hx h1 => exact below_lookup (by decide) h.requirements (fun m m' hQ => stays_lookup hQ hx h1) hk
  | about hx h1 => exact below_lookup (by decide) h.about (fun m m' hQ => stays_lookup hQ hx h1) hk

/-- C97: what stays of a recipe, said with paths. -/
theorem C97_paths_kept {E : Env} {hasOutputs : Bool} {n n' : Node}
    (h : RecipeStays E (if hasOutputs then [§"package", §"recipe"] else []) n.children n'.children) {q : List Str}
    (hq : KeptInRecipe hasOutputs q) {k : Node} (hk : lookup n q = some k) : lookup n' q = some k := by
  cases hq with
  | top hq => exact kept_lookup h.top hq hk
  | output i hq =>
    refine below_lookup (by decide) h.outputs ?_ hk
    intro m m' hQ hm
    unfold lookup at *
    rw [child_element] at *
    cases he : elementAt i m.children with
    | none => rw [he] at hm; cases hm
    | some e =>
      rw [he] at hm
      obtain ⟨cs, h1, h2⟩ := hQ i e he
      rw [h1]
      exact kept_lookup h2 hq hm

theorem absent_inKey {x name : Str} {R : Step} {ks ks' : List Node} {says : List (Category × Str)} (h : InKey name R ks ks' says)
    (ha : Absent x ks) : Absent x ks' := by
  cases h with
  | absent _ => exact ha
  | present h =>
    cases h with
    | @mk _ a b _ m _ hk _ _ _ =>
      subst hk
      intro k hk
      rcases List.mem_append.1 hk with h | h
      · exact ha k (List.mem_append_left _ h)
      · rcases List.mem_cons.1 h with rfl | h
        · exact ha m (by simp)
        · exact ha k (List.mem_append_right _ (List.mem_cons_of_mem _ h))

theorem packages_stays {R : List Str → Step} {n : Nat} {a b : List Node} {says : List (Category × Str)} (h : Packages R n a b says) {l : List Str}
    (hR : ∀ b s, R [] a b s → Stays l a b) : Stays (§"outputs" :: l) a b := by
  cases h with
  | mk h1 h2 => exact ((hR _ _ h1).mono fun x hx => List.mem_cons_of_mem _ hx).trans (h2.stays.mono (by simp))

/-- The section `extra` is only changed where there is a section `extras`. -/
theorem sections_extra {E : Env} {recognised : Str → Option Str} {n : Nat} {a b : List Node} {says : List (Category × Str)}
    (h : SectionsUpgraded E recognised n a b says) (ha : Absent §"extras" a) {m : Node} (hm : firstKey §"extra" a = some m) :
    firstKey §"extra" b = some m := by
  cases h with
  | mk h1 h2 h3 h4 h5 h6 =>
    have e1 := packages_stays (l := [§"build"]) h1 fun b s h => by
      obtain ⟨⟨k1, i1, i2⟩, _⟩ := h
      cases i2 with
      | absent _ => exact i1.stays
      | moved ht _ _ _ =>
        cases ht with
        | mk hk hf _ _ _ =>
          subst hk
          exact absurd hf.named (absent_inKey i1 ha _ (by simp))
    have e2 := packages_stays (l := [§"source"]) h2 fun b s h => h.stays
    have e3 := packages_stays (l := [§"build", §"requirements"]) h3 fun b s h => by
      obtain ⟨k1, k2, i1, i2, i3⟩ := h
      exact (i1.stays.trans i2.stays).trans (i3.stays.mono (by simp))
    have e4 := packages_stays (l := [§"requirements"]) h4 fun b s h => h.stays
    have e5 := packages_stays (l := [§"about"]) h5 fun b s h => h.stays
    have e6 := packages_stays (l := [§"test", §"tests"]) h6 fun b s h => h.1.stays
    exact e6 _ (by decide) _ <| e5 _ (by decide) _ <| e4 _ (by decide) _ <| e3 _ (by decide) _ <| e2 _ (by decide) _ <| e1 _ (by decide) _ hm

theorem outputs_extra {E : Env} {n : Nat} {a b : List Node} (h : OutputsUpgraded E n a b) : Stays [§"package", §"recipe", §"outputs"] a b := by
  cases h with
  | without _ => exact Stays.refl _ _
  | «with» _ h1 h2 => exact (h1.stays.mono (by simp)).trans (h2.stays.mono (by simp))

/-- C97: after selectors and texts have been replaced, the rest of the conversion changes only the sections and fields that it knows;
everything else stays, with everything below it.  The section `extra` is only changed if there is a section `extras`. -/
theorem C97_sections_kept {E : Env} {recognised : Str → Option Str} {r : Recipe} {root : Node} {vars : List (Str × PyVal)}
    {says : List (Category × Str)} {sel sub : List NodeEdit} (h : ConversionBy E recognised r sel sub root vars says) :
    ∃ mid, TextsUpgraded E r sel sub mid ∧
      RecipeStays E (if (lookup root [§"outputs"]).isSome then [§"package", §"recipe"] else []) mid.children root.children ∧
      (lookup mid [§"extras"] = none → ∀ q k, lookup mid (§"extra" :: q) = some k → lookup root (§"extra" :: q) = some k) := by
  cases h with
  | @mk n order bad ctx old count ks ks1 ks2 ks3 ks4 ks5 says1 says3 context hone hn hks ho hs ha hi hk1 hvars hctx hput hes hk2 hne hcount
      hsec hout hold hp hord hval =>
    refine ⟨_, .mk ho hs ha hi hk1 hctx hput hes hk2.symm, ?_, ?_⟩
    rotate_left
    · intro hno q k hk
      rw [lookup_key (by decide)] at hno hk ⊢
      obtain ⟨m, hm, hkm⟩ := Option.bind_eq_some_iff.1 hk
      have hno' : Absent §"extras" ks2 := by
        refine firstKey_none.1 ?_
        cases hf : firstKey §"extras" ks2 with
        | none => rfl
        | some m => rw [show firstKey §"extras" ({ n with children := ks2 } : Node).children = some m from hf] at hno; cases hno
      have e := Ordered.stays hord _ (by simp) _ (outputs_extra hout _ (by decide) _ (sections_extra hsec hno' hm))
      rw [show firstKey §"extra" ({ n with children := ks5 } : Node).children = some m from e]
      exact hkm
    have e1 := hsec.stays
    have e3 := ordered_keeps (more := []) hord
    by_cases hab : Absent §"outputs" ks3
    · have hks : ks4 = ks3 := by
        cases hout with
        | without _ => rfl
        | «with» h _ _ => exact absurd hab h
      subst hks
      have e2 : RecipeStays E [] ks2 ks5 := e1.then (by simp) e3
      split
      · exact ⟨e2.top.weaken (by simp), e2.outputs⟩
      · exact e2
    · have e2 := hout.keeps
      have hsome : (lookup { n with children := ks5 } [§"outputs"]).isSome := by
        rw [lookup_key (by decide)]
        cases hf : firstKey §"outputs" ks3 with
        | none => exact absurd (firstKey_none.1 hf) hab
        | some m =>
          obtain ⟨cs, h1, _⟩ := e2.outputs m hf
          obtain ⟨ds, h2, _⟩ := e3.outputs _ h1
          simp [h2, lookup]
      rw [if_pos hsome]
      have e1' : RecipeStays E [§"package", §"recipe"] ks2 ks3 := ⟨e1.top.weaken (by simp), e1.outputs⟩
      exact (e1'.then (by decide) e2).then (by decide) (ordered_keeps hord)

theorem putNodes_lookup {comps : List Str} {p : Pos} : ∀ (es : List NodeEdit) (t : Node), (∀ e ∈ es, e.At t) → Independent es →
    locate t comps = some p → (∀ e ∈ es, (¬ e.pos <+: p ∧ ¬ p <+: e.pos) ∧ ∀ c ∈ comps, e.new.value = .str c → e.old.value = .str c) →
    locate (putNodes es t) comps = some p ∧ nodeAt (putNodes es t) p = nodeAt t p
  | [], t, _, _, hl, _ => ⟨hl, rfl⟩
  | e :: es, t, ha, hi, hl, haway => by
    obtain ⟨h1, h2⟩ := haway e (by simp)
    have hat := ha e (by simp)
    have hkind := hi.kind e (by simp)
    have hl' : locate (putNode e.new e.pos t) comps = some p := by
      rw [putNode_updateAt]
      exact locate_put hat.2.2.2 (by rw [hkind.1, hat.real]) hkind.2 h2 hl h1.1
    have hn' : nodeAt (putNode e.new e.pos t) p = nodeAt t p := by
      rw [putNode_updateAt]
      exact nodeAt_put hat.2.2.2 h1.1 h1.2
    have := putNodes_lookup es (putNode e.new e.pos t) (hi.rest ha) hi.tail hl' fun x hx => haway x (by simp [hx])
    rw [hn'] at this
    exact this

theorem locate_cons {n : Node} {x : Str} (hx : KeyName x) (q : List Str) :
    locate n (x :: q) = match n.children.findIdx? (fun c => decide (c.value = .str x)) with
      | none => none
      | some i => match n.children[i]? with
        | none => none
        | some c => (locate c q).map (i :: ·) := by
  simp only [locate, childIdx, hx.2.1, Bool.false_eq_true, if_false]
  rfl

theorem nodeAt_cons (n : Node) (i : Nat) (p : Pos) : nodeAt n (i :: p) = (n.children[i]?).bind (nodeAt · p) := by
  simp only [nodeAt]
  cases n.children[i]? <;> rfl

/-- Another key is written: what stood in a place stands there. -/
theorem put_locate {E : Env} {name x : Str} {v : PyVal} {n : Node} {ks ks' : List Node} (h : Put E name v ks ks') (hx : KeyName x)
    (hne : x ≠ name) {q : List Str} {p : Pos} (hl : locate { n with children := ks } (x :: q) = some p) :
    locate { n with children := ks' } (x :: q) = some p ∧ nodeAt { n with children := ks' } p = nodeAt { n with children := ks } p := by
  rw [locate_cons hx] at hl ⊢
  simp only [] at hl ⊢
  split at hl
  · cases hl
  · rename_i i hi
    split at hl
    · cases hl
    · rename_i c hc
      obtain ⟨p', hp', rfl⟩ := Option.map_eq_some_iff.1 hl
      have hlt : i < ks.length := (List.getElem?_eq_some_iff.1 hc).1
      rw [nodeAt_cons, nodeAt_cons]
      cases h with
      | @append ns hab hn =>
        rw [List.findIdx?_append, hi]
        simp only [Option.some_or]
        rw [List.getElem?_append_left hlt, hc]
        simp only [hp', Option.map_some, and_self]
      | @into a b ns m heq hf hb hn =>
        subst heq
        have hidx : (a ++ ({ m with children := ns } : Node) :: b).findIdx? (fun c => decide (c.value = .str x)) = some i := by
          rw [← hi]
          simp only [List.findIdx?_append, List.findIdx?_cons]
        have him : i ≠ a.length := by
          rintro rfl
          simp only [List.getElem?_append_right (Nat.le_refl _), Nat.sub_self, List.getElem?_cons_zero, Option.some.injEq] at hc
          have := (List.findIdx?_eq_some_iff_getElem.1 hi).2.1
          simp only [List.getElem_append_right (Nat.le_refl _), Nat.sub_self, List.getElem_cons_zero, decide_eq_true_eq] at this
          rw [hf.named] at this
          injection this with h
          exact hne h.symm
        have hget : (a ++ ({ m with children := ns } : Node) :: b)[i]? = (a ++ m :: b)[i]? := by
          by_cases h1 : i < a.length
          · rw [List.getElem?_append_left h1, List.getElem?_append_left h1]
          · rw [List.getElem?_append_right (by omega), List.getElem?_append_right (by omega)]
            obtain ⟨k, hk⟩ : ∃ k, i - a.length = k + 1 := ⟨i - a.length - 1, by omega⟩
            rw [hk, List.getElem?_cons_succ, List.getElem?_cons_succ]
        rw [hidx]
        simp only [hget, hc, hp', Option.map_some, and_self]

theorem head_locate {E : Env} {ctx : List (Str × PyVal)} {x : Str} {n : Node} {ks ks' : List Node} (h : HeadPut E ctx ks ks') (hx : KeyName x)
    (hne : x ∉ [§"context", §"schema_version"]) {q : List Str} {p : Pos} (hl : locate { n with children := ks } (x :: q) = some p) :
    locate { n with children := ks' } (x :: q) = some p ∧ nodeAt { n with children := ks' } p = nodeAt { n with children := ks } p := by
  simp only [List.mem_cons, List.not_mem_nil, or_false, not_or] at hne
  cases h with
  | without _ h => exact put_locate h hx hne.2 hl
  | «with» _ h1 h2 =>
    have a1 := put_locate h1 hx hne.1 hl
    have a2 := put_locate (n := n) h2 hx hne.2 a1.1
    exact ⟨a2.1, a2.2.trans a1.2⟩

/-- C97: replacing selectors and texts and writing the variables leaves alone what stands apart from the replaced lines and is not
one of the two keys that are written. -/
theorem C97_texts_kept {E : Env} {r : Recipe} {sel sub : List NodeEdit} {mid : Node} (h : TextsUpgraded E r sel sub mid) {x : Str} {q : List Str}
    (hx : KeyName x) (hne : x ∉ [§"context", §"schema_version"]) (haway : ∀ e ∈ sel ++ sub, e.Away r.root (x :: q)) {k : Node}
    (hk : lookup r.root (x :: q) = some k) : lookup mid (x :: q) = some k := by
  rw [← locate_lookup] at hk ⊢
  obtain ⟨p, hp, hkp⟩ := Option.bind_eq_some_iff.1 hk
  cases h with
  | @mk n mid order bad ctx ks ks1 says ho hs ha hi hk1 hctx hput hsub hmid =>
    have s1 := putNodes_lookup sel r.root ha hi hp fun e he => ⟨(haway e (by simp [he])).1 p hp, (haway e (by simp [he])).2⟩
    rw [hk1] at s1
    have s2 := head_locate hput hx hne s1.1
    have s3 := putNodes_lookup sub _ hsub.places hsub.apart s2.1
      fun e he => ⟨(haway e (by simp [he])).1 p hp, (haway e (by simp [he])).2⟩
    subst hmid
    rw [s3.1, Option.bind_some, s3.2]
    exact (s2.2.trans s1.2).trans hkp

/-- C97: what a conversion does not know it leaves alone: whatever is found below a path that is not one of the changed sections and
fields, and apart from the lines with a selector or a substitution, is found there afterwards, and has the same value. -/
theorem C97_left_alone {E : Env} {recognised : Str → Option Str} {r : Recipe} {root : Node} {vars : List (Str × PyVal)}
    {says : List (Category × Str)} {sel sub : List NodeEdit} (h : ConversionBy E recognised r sel sub root vars says) {x : Str} {q : List Str}
    {k : Node} (hx : KeyName x) (hne : x ∉ [§"context", §"schema_version"]) (hkept : KeptInRecipe (lookup root [§"outputs"]).isSome (x :: q))
    (haway : ∀ e ∈ sel ++ sub, e.Away r.root (x :: q)) (hk : lookup r.root (x :: q) = some k) :
    lookup root (x :: q) = some k ∧
      ((∀ c ∈ q, Component c) → ∀ (d : Option PyVal) (ctx : Option JinjaCtx),
        getValueIn E root (absPath (x :: q)) d ctx = getValueIn E r.root (absPath (x :: q)) d ctx) := by
  obtain ⟨mid, h1, h2, _⟩ := C97_sections_kept h
  have hl := C97_paths_kept h2 hkept (C97_texts_kept h1 hx hne haway hk)
  refine ⟨hl, fun hc d ctx => getValueIn_lookup (by simp) ?_ (hl.trans hk.symm) d ctx⟩
  intro c hcm
  rcases List.mem_cons.1 hcm with rfl | h
  · exact hx.1
  · exact hc c h

/-- C97 (in part): the same, for the conversion itself.  Conversions that `ConversionBy` does not describe are missing: the ones that fail, and
the ones that C90 lists. -/
theorem C97_conversion_leaves_alone_partial {E : Env} {W : ConvWorld} (hW : ∀ l, (W.order l).Perm l) {text : Str} {c : Conv}
    (hc : newConv E text = .ok c) {root : Node} {vars : List (Str × PyVal)} {says : List (Category × Str)} {sel sub : List NodeEdit}
    (h : ConversionBy E (findLicense W.close W.db) c.v1 sel sub root vars says) :
    ∃ c', renderToV1 E W c = (.ok (c'.v1.render, c'.msgs), c') ∧
      ∀ x q k, KeyName x → x ∉ [§"context", §"schema_version"] → (∀ y ∈ q, Component y) →
        KeptInRecipe (lookup root [§"outputs"]).isSome (x :: q) → (∀ e ∈ sel ++ sub, e.Away c.v1.root (x :: q)) →
        lookup c.v1.root (x :: q) = some k →
        lookup c'.v1.root (x :: q) = some k ∧ ∀ d, c'.v1.getValue E (absPath (x :: q)) d = c.v1.getValue E (absPath (x :: q)) d := by
  obtain ⟨c', h1, _, h2, _⟩ := C90_conversion_partial hW hc ⟨sel, sub, h⟩
  refine ⟨c', h1, ?_⟩
  intro x q k hx hne hq hkept haway hk
  obtain ⟨a, b⟩ := C97_left_alone h hx hne hkept haway hk
  rw [← h2] at a b
  exact ⟨a, fun d => b hq d none⟩

/-! ## An example: a recipe with a section that the conversion does not know, and one of which it changes a part -/

namespace FrameExample
open WholeExample

def zText : Str :=
  §"{% set v = 2 %}\npackage:\n  name: {{ v }}\napp:\n  by: me\nrequirements:\n  run_constrained:\n    - b\n  host:\n    - c\n"

def pkgZ (t : Str) : Node := kN §"package" [kN §"name" [vN (.str t)]]
def appZ : Node := kN §"app" [kN §"by" [vN (.str §"me")]]
def hostZ : Node := kN §"host" [lN (.str §"c")]
def zk : List Node := [pkgZ §"{{ v }}", appZ, kN §"requirements" [kN §"run_constrained" [lN (.str §"b")], hostZ]]
def zk1 : List Node := zk ++ [ctxW] ++ [schemaW]
def zk2 : List Node := [pkgZ §"${{ v }}", appZ, kN §"requirements" [kN §"run_constrained" [lN (.str §"b")], hostZ], ctxW, schemaW]
def zk3 : List Node := [pkgZ §"${{ v }}", appZ, kN §"requirements" [hostZ, kN §"run_constraints" [lN (.str §"b")]], ctxW, schemaW]
def zk5 : List Node := [schemaW, ctxW, pkgZ §"${{ v }}", kN §"requirements" [hostZ, kN §"run_constraints" [lN (.str §"b")]], appZ]
def subZ : List NodeEdit :=
  [⟨[§"package", §"name"], [0, 0], kN §"name" [vN (.str §"{{ v }}")], kN §"name" [vN (.str §"${{ v }}")]⟩]

theorem z_sections : SectionsUpgraded Toy.env (findLicense exWorld.close exWorld.db) 0 zk2 zk3 [] := by
  refine .mk (k1 := zk2) (k2 := zk2) (k3 := zk2) (k4 := zk3) (k5 := zk3) (s1 := []) (s2 := []) (s3 := []) (s4 := [])
    (s5 := []) (s6 := []) (.mk (s1 := []) (s2 := []) ⟨⟨_, .absent (by decide), .absent (by decide)⟩, rfl⟩ (.none rfl))
    (.mk (s1 := []) (s2 := []) (.absent (by decide)) (.none rfl))
    (.mk (s1 := []) (s2 := []) (build_top (by decide)) (.none rfl))
    (.mk (s1 := []) (s2 := []) ?_ (.none rfl))
    (.mk (s1 := []) (s2 := []) (.absent (by decide)) (.none rfl))
    (.mk (s1 := []) (s2 := []) ⟨.absent (by decide), rfl⟩ (.none rfl))
  refine .present (.mk (a := [pkgZ §"${{ v }}", appZ]) (m := kN §"requirements" [kN §"run_constrained" [lN (.str §"b")], hostZ])
    (cs := [hostZ, kN §"run_constraints" [lN (.str §"b")]])
    rfl ⟨rfl, by decide⟩ rfl ⟨.moved (ks1 := [hostZ]) (v := .list [.str §"b"]) ?_ ?_ trivial trivial, rfl⟩)
  · exact .mk (pre := []) (k := kN §"run_constrained" [lN (.str §"b")]) (post := [hostZ]) rfl ⟨rfl, by decide⟩ (by decide)
      (by decide +kernel) (by decide)
  · exact .append (ns := [kN §"run_constraints" [lN (.str §"b")]]) (by decide) (by decide +kernel)

theorem z_conversion {c : Conv} (hroot : c.v1.root = topW zk) (hv : c.v1.vars = [(§"v", .int 2)]) :
    ConversionBy Toy.env (findLicense exWorld.close exWorld.db) c.v1 [] subZ (topW zk5) [(§"v", .int 2)] [] := by
  refine .mk (n := topW []) (order := []) (bad := []) (ctx := [(§"v", .int 2)]) (old := []) (count := 0) (ks := zk) (ks1 := zk1)
    (ks2 := zk2) (ks3 := zk3) (ks4 := zk3) (ks5 := zk5) (says1 := []) (says3 := []) (context := some (.dict [(§"v", .int 2)]))
    ?_ (by decide) (by decide) ?_ .nil (by simp) (by decide) (by rw [hroot]; rfl) (by rw [hv]; decide) (by rw [hv]; exact .int .nil)
    (.with (by decide) (.append (ns := [ctxW]) (by decide) (by decide +kernel)) (.append (ns := [schemaW]) (by decide) (by decide +kernel)))
    ?_ (by decide) (by decide) (.none (by decide)) z_sections (.without (by decide)) ?_ (by simp) ?_ ?_
  · rw [hroot]; intro np hnp; revert np; decide +kernel
  · rw [hroot, show selectorsOf (topW zk) = [] by decide +kernel]
    exact ⟨by simp, by simp, by simp⟩
  · refine substitutionEdits_root (r := ⟨[], topW zk1, .v0, [], [], false⟩) rfl ?_
    refine substitutionEdits_of (by decide +kernel) (by decide) (by decide +kernel) ?_
    intro e he
    simp only [subZ, List.mem_cons, List.not_mem_nil, or_false] at he
    subst he
    exact ⟨§"{{ v }}", by decide +kernel, .value (ns := [vN (.str §"${{ v }}")]) (by decide) (by decide) (by decide +kernel) rfl⟩
  · rw [hroot, show noted (topW zk) = [] by decide +kernel]
    exact ⟨⟨by simp, by simp, by simp⟩, by simp⟩
  · exact w_ordered topLevelOrder (C32_tables_small topLevelOrder (by simp)).1 (C32_tables_small topLevelOrder (by simp)).2.2 (by decide)
      (by decide)
  · exact .present (a := [schemaW]) (m := ctxW) (b := [pkgZ §"${{ v }}", kN §"requirements" [hostZ, kN §"run_constraints" [lN (.str §"b")]], appZ])
      rfl ⟨rfl, by decide⟩ (by decide +kernel)

theorem z_away {comps : List Str} {p : Pos} (hl : locate (topW zk) comps = some p) (hp : p ≠ [0] ∧ ¬ [0, 0] <+: p ∧ p ≠ []) : ∀ e ∈ ([] ++ subZ : List NodeEdit), e.Away (topW zk) comps := by
  intro e he
  simp only [subZ, List.nil_append, List.mem_cons, List.not_mem_nil, or_false] at he
  subst he
  refine ⟨?_, fun c hc h => h⟩
  intro p' hp'
  rw [hl] at hp'
  injection hp' with hp'
  subst hp'
  refine ⟨hp.2.1, ?_⟩
  intro hpre
  match p, hpre, hp with
  | [], _, hp => exact hp.2.2 rfl
  | [a], hpre, hp => obtain ⟨rfl, _⟩ := List.cons_prefix_cons.1 hpre; exact hp.1 rfl
  | a :: b :: t, hpre, hp =>
    obtain ⟨rfl, h⟩ := List.cons_prefix_cons.1 hpre
    obtain ⟨rfl, h⟩ := List.cons_prefix_cons.1 h
    exact hp.2.1 (List.cons_prefix_cons.2 ⟨rfl, List.cons_prefix_cons.2 ⟨rfl, List.nil_prefix⟩⟩)

/-- The section `app` and the field `requirements/host` are kept, and are in another place of the text. -/
example : ∃ c c', newConv Toy.env zText = .ok c ∧ renderToV1 Toy.env exWorld c = (.ok (c'.v1.render, c'.msgs), c') ∧
    lookup c'.v1.root [§"app"] = some appZ ∧ lookup c'.v1.root [§"requirements", §"host"] = some hostZ ∧
    c'.v1.getValue Toy.env §"/app/by" none = c.v1.getValue Toy.env §"/app/by" none := by
  have hroot : (newConv Toy.env zText).map (fun c => (c.v1.root, c.v1.vars)) = .ok (topW zk, [(§"v", .int 2)]) := by decide +kernel
  cases hc : newConv Toy.env zText with
  | error e => rw [hc] at hroot; cases hroot
  | ok c =>
    rw [hc] at hroot
    injection hroot with hroot
    injection hroot with hroot hv
    obtain ⟨c', h1, h2⟩ := C97_conversion_leaves_alone_partial (W := exWorld) (fun l => .refl l) hc (z_conversion hroot hv)
    rw [hroot] at h2
    refine ⟨c, c', rfl, h1, ?_, ?_, ?_⟩
    · exact (h2 §"app" [] appZ (by decide) (by decide) (by decide) (.top (.section (by decide) (by decide) (by decide)))
        (z_away (p := [1]) (by decide) (by decide)) (by decide)).1
    · exact (h2 §"requirements" [§"host"] hostZ (by decide) (by decide) (by decide) (.top (.requirements (by decide) (by decide)))
        (z_away (p := [2, 1]) (by decide) (by decide)) (by decide)).1
    · exact (h2 §"app" [§"by"] (kN §"by" [vN (.str §"me")]) (by decide) (by decide) (by decide) (.top (.section (by decide) (by decide) (by decide)))
        (z_away (p := [1, 0]) (by decide) (by decide)) (by decide)).2 none

end FrameExample

end Crm
