import Verif.Spec.BumpNew
import Verif.Props.LayoutBump

/-!
# `bump-recipe` on recipe files of the new format (C100)
-/

namespace Crm
open Spec Doc

theorem writable_none (E : Env) : Writable E [] := ⟨by simp, by simp, by simp, by simp, by simp⟩

theorem Spec.OpenedNew.stored {E : Env} {ds : List Doc} {o : Recipe} (h : OpenedNew E ds o) : Stored E .v1 o.vars ds o :=
  ⟨h.document.1, (C31_text_is_kept_partial E [] ds o (writable_none E) h.document h.opened (fun _ => rfl)).2.1, rfl, h.format⟩

theorem entryNamed_within {R : List Doc → List Doc → Prop} {k k' : Str} {path : List Str} {ds ds' : List Doc}
    (h : Within R (k :: path) ds ds') (hk : isDigitS k = false) (hne : k ≠ k') : entryNamed k' ds = entryNamed k' ds' := by
  have hno : ∀ c cs, ((sec k c cs).node.value = .str k') = False := fun c cs => by simp [sec_node, hne]
  cases h with
  | key => simp only [entryNamed, List.find?_append, List.find?_cons, hno, decide_false]
  | element hd => rw [hk] at hd; cases hd

/-- What is done below a key other than these leaves the variables as they are. -/
theorem within_vars {E : Env} {R : List Doc → List Doc → Prop} {k : Str} {path : List Str} {ds ds' : List Doc} {o o' : Recipe}
    (h : Within R (k :: path) ds ds') (hk : isDigitS k = false) (h1 : k ≠ §"schema_version") (h2 : k ≠ §"context")
    (ho : OpenedNew E ds o) (ho' : OpenedNew E ds' o') : o'.vars = o.vars := by
  obtain ⟨_, r', e1, _, e2, _⟩ := open_same (writable_none E) ho.document ho'.document ho.opened
    ⟨entryNamed_within h hk h1, Or.inr (entryNamed_within h hk h2)⟩
  have := ho'.opened
  rw [e1] at this
  injection this with this
  rw [← this, e2]

theorem keySet_vars {E : Env} {v : PyVal} {k j : Str} {path : List Str} {ch : LineChange} {ds ds' : List Doc} {o o' : Recipe}
    (h : KeySet E v j (k :: path) ch ds ds') (hk : isDigitS k = false) (h1 : k ≠ §"schema_version") (h2 : k ≠ §"context")
    (ho : OpenedNew E ds o) (ho' : OpenedNew E ds' o') : o'.vars = o.vars := by
  cases h with
  | replaced _ hw => exact within_vars hw hk h1 h2 ho ho'
  | added _ hw => exact within_vars hw hk h1 h2 ho ho'

theorem numberBumped_vars {E : Env} {raise : Bool} {ch : LineChange} {ds ds' : List Doc} {o o' : Recipe}
    (h : NumberBumped E raise ch ds ds') (ho : OpenedNew E ds o) (ho' : OpenedNew E ds' o') : o'.vars = o.vars := by
  cases h with
  | raised _ _ _ hw => exact within_vars hw (by decide) (by decide) (by decide) ho ho'
  | reset _ hk => exact keySet_vars hk (by decide) (by decide) (by decide) ho ho'

theorem bumpedNew_step {E : Env} {sha : Str → Str} {W : BumpWorld} {args : BumpArgs} {chs : List LineChange} {ds ds' : List Doc}
    (hord : ∀ l, (W.order l).Perm l) (h : BumpedNew E sha W args chs ds ds') :
    ∃ o, OpenedNew E ds o ∧ ∀ r, Stands .v1 o.vars ds r → ∃ r', bumpEdits E sha W args r = .ok r' ∧ Stands .v1 o.vars ds' r' := by
  unfold bumpEdits
  cases h with
  | number ht ho hb hn =>
    refine ⟨_, ho, fun r hr => ?_⟩
    obtain ⟨r1, h1, h2⟩ := numberBumped_step hn hr (by rw [stands_value hr ho.stored]; exact hb)
    exact ⟨r1, by simp only [h1, bind, Except.bind, ht], h2⟩
  | version ht ho hb hn ho1 hp hno hv ho2 hh =>
    refine ⟨_, ho, fun r hr => ?_⟩
    have e1 := numberBumped_vars hn ho ho1
    have e2 := keySet_vars hv (by decide) (by decide) (by decide) ho1 ho2
    obtain ⟨r1, h1, h2⟩ := numberBumped_step hn hr (by rw [stands_value hr ho.stored]; exact hb)
    rw [← e1] at h2 ⊢
    obtain ⟨r2, h3, h4⟩ := versionBumped_byKey_step hno hv h2
    have hp' := (stands_value h2 ho1.stored §"/package/version" (some .none) true).trans hp
    rw [← e2] at h4 ⊢
    obtain ⟨ft, hn, hps, hnd, hcomp, hg, hset⟩ := hh
    obtain ⟨r3, h5, h6⟩ := hashesKeys_step hord ho2.stored h4 ft hn hps hnd hcomp hg hset
    exact ⟨r3, by simp only [h1, bind, Except.bind, ht, hp', orRaise, h3, h5], h6⟩

theorem bumpedNew_file {E : Env} {sha : Str → Str} {W : BumpWorld} {args : BumpArgs} {chs : List LineChange} {ds ds' : List Doc}
    (hord : ∀ l, (W.order l).Perm l) (h : BumpedNew E sha W args chs ds ds') :
    LinesDiffer chs (fileTextLines [] ds) (fileTextLines [] ds') := by
  cases h with
  | number _ _ _ hn => exact .cons (numberBumped_file hn) .nil
  | version _ _ _ hn _ _ _ hv _ hh =>
    refine .cons (numberBumped_file hn) (.cons (keySet_file hv (by simp)) ?_)
    obtain ⟨ft, hn, hps, hnd, hcomp, hg, hset⟩ := hh
    exact hashesBumped_file (net := W.net) (sha := sha) hord (.byKeys (vars := []) ft hn hps hnd hcomp hg hset)

theorem bumpNew_written {E : Env} {sha : Str → Str} {W : BumpWorld} {args : BumpArgs} {chs : List LineChange} {ds ds' : List Doc}
    {content : Str} (hargs : goodArgs args) (hord : ∀ l, (W.order l).Perm l) (hvar : W.variants.Perm hashTypeLines)
    (hwrite : W.writeFails = none) (hfile : W.file = some content) (hhash : NoHashType content)
    (h : BumpedNew E sha W args chs ds ds') (hok : OkL E ds')
    (hopen : ∀ o, OpenedNew E ds o → Recipe.ofString E content = .ok { o with init := content }) :
    bumpRecipe E sha W args =
      if args.dryRun then ⟨.exit 0, W.file, some (text ds')⟩ else ⟨.exit 0, some (text ds'), none⟩ := by
  obtain ⟨o, ho, hstep⟩ := bumpedNew_step hord h
  obtain ⟨r', h1, h2⟩ := hstep { o with init := content } ⟨ho.stored.stands.tree, rfl, ho.format⟩
  obtain ⟨ns, h3, h4⟩ := h2.tree
  have hren : r'.render = text ds' := by rw [shows_render h3 h4 hok, h2.schema]; rfl
  obtain ⟨g1, g2, g3⟩ := hargs
  unfold bumpRecipe
  rw [if_neg (by rintro (h | h); exact g1 h; omega), if_neg (by
    unfold asksSomething at g3
    rcases g3 with g3 | g3
    · simp [g3]
    · cases ht : args.target <;> simp_all), hfile]
  simp only [noHashType_kept hvar hhash, hopen o ho, h1, hren, hwrite]

/-- C100: for a file of the new format the run succeeds, and the file (in a dry run, what is printed) is the old text with the build
number, the version and the hashes set: each changes or adds one line, and every other line, among them those of `context`, is as it
was. -/
theorem C100_new_format_partial (E : Env) (sha : Str → Str) (W : BumpWorld) (args : BumpArgs) (chs : List LineChange)
    (ds ds' : List Doc) (hargs : goodArgs args) (hord : ∀ l, (W.order l).Perm l)
    (hvar : W.variants.Perm hashTypeLines) (hwrite : W.writeFails = none) (hfile : W.file = some (text ds))
    (hhash : NoHashType (text ds)) (h : BumpedNew E sha W args chs ds ds') (hok : OkL E ds') :
    ∃ xs ys, text ds = joinStr §"\n" xs ∧ text ds' = joinStr §"\n" ys ∧ LinesDiffer chs xs ys ∧
      bumpRecipe E sha W args =
        if args.dryRun then ⟨.exit 0, W.file, some (text ds')⟩ else ⟨.exit 0, some (text ds'), none⟩ := by
  refine ⟨fileTextLines [] ds, fileTextLines [] ds', rfl, rfl, bumpedNew_file hord h,
    bumpNew_written hargs hord hvar hwrite hfile hhash h hok fun o ho => ?_⟩
  have h1 : Recipe.ofString E (text ds) = .ok o := ho.opened
  have h2 : o.init = text ds := by
    unfold Recipe.ofString at h1
    simp only [bind, Except.bind] at h1
    repeat' split at h1
    all_goals (cases h1 <;> rfl)
  rw [h1, ← h2]

/-- C100: the same for a file of the new format in any layout of `Spec/Layout.lean`: what is written is the canonical text of the
edited document. -/
theorem C100_new_format_free_layout_partial (E : Env) (sha : Str → Str) (W : BumpWorld) (args : BumpArgs) (chs : List LineChange)
    (ds ds' : List Doc) (fs : List Str) (hargs : goodArgs args) (hord : ∀ l, (W.order l).Perm l)
    (hvar : W.variants.Perm hashTypeLines) (hwrite : W.writeFails = none) (hfile : W.file = some (fileText fs))
    (hf : FreeFile E [] ds fs) (hhash : NoHashType (fileText fs)) (h : BumpedNew E sha W args chs ds ds') (hok : OkL E ds') :
    ∃ xs ys, text ds = joinStr §"\n" xs ∧ text ds' = joinStr §"\n" ys ∧ LinesDiffer chs xs ys ∧
      bumpRecipe E sha W args =
        if args.dryRun then ⟨.exit 0, W.file, some (text ds')⟩ else ⟨.exit 0, some (text ds'), none⟩ := by
  refine ⟨fileTextLines [] ds, fileTextLines [] ds', rfl, rfl, bumpedNew_file hord h,
    bumpNew_written hargs hord hvar hwrite hfile hhash h hok fun o ho => ?_⟩
  rw [C31_layout_does_not_matter_partial E [] ds fs (writable_none E) ho.document hf, ho.opened]; rfl

/-! ## Files that meet the hypotheses -/

namespace BumpNewExample
open BumpFileExample (scalar_zero scalar_hash new_hash)

def front : List Doc := [scalar §"schema_version" §"1" (.int 1) [], block §"context" [] [scalar §"name" §"p" (.str §"p") §"# why"]]
def pkg (v : Str) : Doc :=
  block §"package" [] [scalar §"name" §"${{ name }}" (.str §"${{ name }}") [], scalar §"version" v (.str v) []]
def src (hs : List Doc) : Doc := block §"source" [] (scalar §"url" §"http://x" (.str §"http://x") [] :: hs)
def bld (n : Str) (i : Int) : Doc := block §"build" [] [scalar §"number" n (.int i) []]
def hash : Doc := scalar §"sha256" §"abc" (.str §"abc") []

def d0 : List Doc := front ++ [pkg §"1.0.0", src [], bld §"5" 5]
def d1 : List Doc := front ++ [pkg §"1.0.0", src [], bld §"0" 0]
def d2 : List Doc := front ++ [pkg §"2.0.1", src [], bld §"0" 0]
def d3 : List Doc := front ++ [pkg §"2.0.1", src [hash], bld §"0" 0]

def world : BumpWorld := { file := some (text d0), net := fun _ _ _ => exGood, order := List.reverse }
def args : BumpArgs := { target := some §"2.0.1" }

def recipe (ds : List Doc) : Recipe :=
  match Recipe.ofString Toy.env (recipeText [] ds) with
  | .ok o => o
  | .error _ => ⟨[], {}, .v0, [], [], false⟩

theorem opened {ds : List Doc} (h1 : documentB Toy.env ds = true) (h2 : (recipe ds).schema = .v1) : OpenedNew Toy.env ds (recipe ds) := by
  refine ⟨documentB_sound h1, ?_, h2⟩
  unfold recipe at h2 ⊢
  cases h : Recipe.ofString Toy.env (recipeText [] ds) with
  | ok o => rfl
  | error e => rw [h] at h2; cases h2

theorem opened0 : OpenedNew Toy.env d0 (recipe d0) := opened (by decide +kernel) (by decide +kernel)
theorem opened1 : OpenedNew Toy.env d1 (recipe d1) := opened (by decide +kernel) (by decide +kernel)
theorem opened2 : OpenedNew Toy.env d2 (recipe d2) := opened (by decide +kernel) (by decide +kernel)

theorem scalar_version : Scalar Toy.env (.str §"2.0.1") (.str §"2.0.1") :=
  ⟨rfl, by rintro s ⟨⟩; decide, ⟨by decide +kernel, by decide +kernel, by decide +kernel, by decide +kernel, by decide +kernel,
    by decide +kernel, by decide +kernel⟩, rfl, by decide⟩

theorem number : NumberBumped Toy.env false (.becomes §"number: 5" §"number: 0") d0 d1 :=
  .reset (Or.inl rfl) (.replaced (vt := §"5") (old := .int 5) (c := []) (w := .int 0) scalar_zero
    (.key (pre := d0.take 4) (post := []) (c := []) (cs := [scalar §"number" §"5" (.int 5) []])
      (cs' := [scalar §"number" §"0" (.int 0) []]) (by decide) (by simp [Fresh, d0, front, pkg, src, node])
      (.here ⟨[], [], rfl, rfl, by simp [Fresh]⟩)))

theorem version : KeySet Toy.env (.str §"2.0.1") §"version" [§"package"] (.becomes §"version: 1.0.0" §"version: 2.0.1") d1 d2 :=
  .replaced (vt := §"1.0.0") (old := .str §"1.0.0") (c := []) (w := .str §"2.0.1") scalar_version
    (.key (pre := front) (post := d1.drop 3) (c := [])
      (cs := [scalar §"name" §"${{ name }}" (.str §"${{ name }}") [], scalar §"version" §"1.0.0" (.str §"1.0.0") []])
      (cs' := [scalar §"name" §"${{ name }}" (.str §"${{ name }}") [], scalar §"version" §"2.0.1" (.str §"2.0.1") []])
      (by decide) (by simp [Fresh, front, node])
      (.here ⟨[scalar §"name" §"${{ name }}" (.str §"${{ name }}") []], [], rfl, rfl, by simp [Fresh, node]⟩))

theorem sha : KeySet Toy.env (.str §"abc") §"sha256" [§"source"] (.added §"sha256: abc") d2 d3 :=
  .added (w := .str §"abc") new_hash
    (.key (pre := d2.take 3) (post := d2.drop 4) (c := []) (cs := [scalar §"url" §"http://x" (.str §"http://x") []])
      (cs' := [scalar §"url" §"http://x" (.str §"http://x") [], hash]) (by decide) (by simp [Fresh, d2, front, pkg, node])
      (.here ⟨by simp [Fresh, node], rfl⟩))

theorem hashes : HashKeysBumped Toy.env id world.net world.order (recipe d2) [.added §"sha256: abc"] d2 d3 :=
  .intro (tbl := [(§"/source", .http §"p" §"http://x")]) (hashes := [([§"source"], §"abc")]) (by decide +kernel)
    (by
      rintro v ⟨h, _⟩
      have : hashVariables (recipe d2) = [] := by decide +kernel
      rw [this] at h; cases h)
    (by decide) (by decide) (by decide)
    (by
      intro h hh
      rcases List.mem_cons.1 hh with rfl | hh
      · exact ⟨§"p", §"http://x", by decide, by decide⟩
      · cases hh)
    (.cons sha .nil)

theorem no_version : §"version" ∉ (recipe d1).listVariables := by decide +kernel

theorem bumped : BumpedNew Toy.env id world args [.becomes §"number: 5" §"number: 0", .becomes §"version: 1.0.0" §"version: 2.0.1",
    .added §"sha256: abc"] d0 d3 :=
  .version (t := §"2.0.1") (o := recipe d0) (o1 := recipe d1) (o2 := recipe d2)
    (v := .dict [(§"number", .int 5)]) (v1 := .str §"1.0.0") rfl opened0 (by decide +kernel) number opened1 (by decide +kernel)
    no_version version opened2 hashes

theorem noHashType : NoHashType (text d0) := by
  unfold NoHashType
  decide +kernel

/-- What the theorem gives for this run. -/
example : bumpRecipe Toy.env id world args = ⟨.exit 0, some §"schema_version: 1

context:
  name: p  # why

package:
  name: ${{ name }}
  version: 2.0.1

source:
  url: http://x
  sha256: abc

build:
  number: 0
", none⟩ := by
  obtain ⟨_, _, _, _, _, h⟩ := C100_new_format_partial Toy.env id world args _ d0 d3
    ⟨by decide, by decide, Or.inr rfl⟩ (fun l => List.reverse_perm l) (.refl _) rfl rfl noHashType bumped (okLB_sound _ _ (by decide +kernel))
  rw [h]
  decide +kernel

/-! A file in another layout -/

def f0 : List Doc := [scalar §"schema_version" §"1" (.int 1) [], bld §"0" 0]
def f1 : List Doc := [scalar §"schema_version" §"1" (.int 1) [], bld §"1" 1]
def lines : List Str := [§"schema_version:   1", §"build:  ", §"", §"  number:    0 "]

theorem free : FreeFile Toy.env [] f0 lines := by
  refine ⟨⟨[], lines, ?_, ?_, rfl⟩, by simp, by decide⟩
  · repeat' first
      | exact .nil
      | refine .line (LayoutExample.oneLineB (by decide)) ?_
  · refine ⟨[], [§"schema_version:   1"], _, rfl, by simp, ⟨_, rfl, LayoutExample.entryB_sound (base := §"schema_version:   1") (gap := [])
      (body := §"schema_version:   1") (tail := []) (by decide +kernel)⟩, by simp [endsInText], ?_⟩
    refine ⟨[], [§"build:  ", §"", §"  number:    0 "], [], rfl, by simp,
      ⟨_, _, rfl, LayoutExample.entryB_sound (base := §"build:") (gap := []) (body := §"build:") (tail := §"  ") (by decide +kernel), ?_⟩,
      by simp [bld, endsInText, endsInTextL], by intro l hl; cases hl⟩
    exact ⟨[§""], [§"  number:    0 "], [], rfl, by simp [LayoutExample.blank1], ⟨_, rfl, LayoutExample.entryB_sound (base := §"number:    0")
      (gap := []) (body := §"number:    0") (tail := §" ") (by decide +kernel)⟩, by simp [endsInText], by intro l hl; cases hl⟩

def world1 : BumpWorld := { file := some (fileText lines), net := fun _ _ _ => exGood, order := id }

theorem bumped1 : BumpedNew Toy.env id world1 { buildNum := true } [.becomes §"number: 0" §"number: 1"] f0 f1 :=
  .number (o := recipe f0) (v := .dict [(§"number", .int 0)]) rfl (opened (by decide +kernel) (by decide +kernel)) (by decide +kernel)
    (.raised (vt := §"0") (v := .int 0) (c := []) (n := 0) rfl rfl LayoutBumpExample.scalar_one
      (.key (pre := f0.take 1) (post := []) (c := []) (cs := [scalar §"number" §"0" (.int 0) []])
        (cs' := [scalar §"number" §"1" (.int 1) []]) (by decide) (by simp [Fresh, f0, node]) (.here ⟨[], [], rfl, rfl, by simp [Fresh]⟩)))

theorem noHashType1 : NoHashType (fileText lines) := by
  unfold NoHashType
  decide +kernel

example : bumpRecipe Toy.env id world1 { buildNum := true } =
    ⟨.exit 0, some §"schema_version: 1\n\nbuild:\n  number: 1\n", none⟩ := by
  obtain ⟨_, _, _, _, _, h⟩ := C100_new_format_free_layout_partial Toy.env id world1 { buildNum := true } _ f0 f1 lines
    ⟨by decide, by decide, Or.inl rfl⟩ (fun l => .refl l) (.refl _) rfl rfl free noHashType1 bumped1 (okLB_sound _ _ (by decide +kernel))
  rw [h]
  decide +kernel

end BumpNewExample

end Crm
