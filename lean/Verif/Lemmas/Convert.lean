import Verif.Model.Convert

/-!
# Steps of a conversion

A relation between states that every patch, sort and message respects is respected by the whole conversion.
-/

namespace Crm
open Act

/-- The method returned (rather than raised). -/
def returned : Except PyErr α → Bool
  | .ok _ => true
  | .error _ => false

/-- The state before a method, whether it returned, and the state after it are related. -/
structure Act.Holds (R : Conv → Bool → Conv → Prop) (a : Act α) : Prop where
  after : ∀ c, R c (returned (a c).1) (a c).2

/-- A relation between states that every single step of the conversion respects. -/
structure Act.Inv (E : Env) (R : Conv → Bool → Conv → Prop) : Prop where
  refl : ∀ c b, R c b c
  trans : ∀ {a b c o}, R a true b → R b o c → R a o c
  say : ∀ cat m, Holds R (say cat m)
  patch : ∀ p, Holds R (patchAndLog E p)
  selector : ∀ path, Holds R (edit (·.removeSelector path))
  sort : ∀ path tbl, Holds R (sortKeys path tbl)
  vars : ∀ vs, Holds R (edit fun r => (.ok (), { r with vars := vs }))
  schema : Holds R (edit fun r => (.ok (), { r with schema := .v1 }))
  context : Holds R (edit (·.initVarsV1 E))

/-- A property of methods that every single step of the conversion has and that is passed on to what is made of them. -/
structure Act.Closed (E : Env) (P : {α : Type} → Act α → Prop) : Prop where
  pure : ∀ {α : Type} (a : α), P (Pure.pure a)
  ask : ∀ {α : Type} (f : Recipe → Except PyErr α), P (Act.ask f)
  bind : ∀ {α β : Type} {x : Act α} {f : α → Act β}, P x → (∀ a, P (f a)) → P (x >>= f)
  say : ∀ cat m, P (say cat m)
  patch : ∀ p, P (patchAndLog E p)
  selector : ∀ path, P (edit (·.removeSelector path))
  sort : ∀ path tbl, P (sortKeys path tbl)
  vars : ∀ vs, P (edit fun r => (.ok (), { r with vars := vs }))
  schema : P (edit fun r => (.ok (), { r with schema := .v1 }))
  context : P (edit (·.initVarsV1 E))
  result : P fun c => (.ok (c.v1.render, c.msgs), c)

namespace Act.Closed
variable {E : Env} {P : {α : Type} → Act α → Prop} (I : Closed E P)
include I

omit I in
theorem ite {b : Prop} [Decidable b] {x y : Act α} (hx : b → P x) (hy : ¬ b → P y) : P (if b then x else y) := by
  split
  · exact hx ‹_›
  · exact hy ‹_›

theorem each {f : α → Act Unit} : ∀ (xs : List α), (∀ x ∈ xs, P (f x)) → P (Act.each f xs)
  | [], _ => I.pure ()
  | x :: xs, h => I.bind (h x (by simp)) fun _ => each xs fun y hy => h y (by simp [hy])

theorem hasPath (p : Str) : P (Crm.hasPath p) := I.ask _
theorem valueAt (p : Str) (d : Option PyVal) : P (Crm.valueAt E p d) := I.ask _

end Act.Closed

/-- Close or split one goal of the form "this method has the property". -/
syntax "conv_step" ident : tactic
macro_rules
  | `(tactic| conv_step $I) => `(tactic| with_reducible first
    | exact Act.Closed.hasPath $I _ | exact Act.Closed.valueAt $I _ _ | exact Act.Closed.ask $I _ | exact Act.Closed.pure $I _
    | exact ($I).say _ _ | exact ($I).patch _ | exact ($I).selector _ | exact ($I).sort _ _ | exact ($I).vars _
    | exact ($I).schema | exact ($I).context
    | (refine Act.Closed.bind $I ?_ ?_) | (refine Act.Closed.ite ?_ ?_) | (refine Act.Closed.each $I _ ?_) | intro _ | split)

namespace Act.Closed
variable {E : Env} {P : {α : Type} → Act α → Prop} (I : Closed E P)
include I

theorem patchAddMissing (a b : Str) (v : PyVal) : P (Crm.patchAddMissing E a b v) := by
  unfold Crm.patchAddMissing
  try dsimp only
  repeat conv_step I
macro_rules | `(tactic| conv_step $I) => `(tactic| with_reducible apply Act.Closed.patchAddMissing $I)

theorem patchMoveBase (a b c : Str) : P (Crm.patchMoveBase E a b c) := by
  unfold Crm.patchMoveBase
  try dsimp only
  repeat conv_step I
macro_rules | `(tactic| conv_step $I) => `(tactic| with_reducible apply Act.Closed.patchMoveBase $I)

theorem patchMoveNew (a b c : Str) (d : Option Str) : P (Crm.patchMoveNew E a b c d) := by
  unfold Crm.patchMoveNew
  try dsimp only
  repeat conv_step I
macro_rules | `(tactic| conv_step $I) => `(tactic| with_reducible apply Act.Closed.patchMoveNew $I)

theorem patchDeprecatedField (a b : Str) : P (Crm.patchDeprecatedField E a b) := by
  unfold Crm.patchDeprecatedField
  try dsimp only
  repeat conv_step I
macro_rules | `(tactic| conv_step $I) => `(tactic| with_reducible apply Act.Closed.patchDeprecatedField $I)

theorem patchDeprecated (a : Str) (fs : List Str) : P (Crm.patchDeprecated E a fs) := by
  unfold Crm.patchDeprecated
  try dsimp only
  repeat conv_step I
macro_rules | `(tactic| conv_step $I) => `(tactic| with_reducible apply Act.Closed.patchDeprecated $I)

theorem contextLoop : ∀ (vs ctx : List (Str × PyVal)), P (Crm.contextLoop ctx vs)
  | [], ctx => I.pure ctx
  | (n, v) :: vs, ctx => by
    have ih := fun ctx => contextLoop vs ctx
    unfold Crm.contextLoop
    try dsimp only
    repeat (first | exact ih _ | conv_step I)
macro_rules | `(tactic| conv_step $I) => `(tactic| with_reducible apply Act.Closed.contextLoop $I)

theorem addContext (ctx : List (Str × PyVal)) : P (Crm.addContext E ctx) := by
  unfold Crm.addContext
  try dsimp only
  repeat conv_step I
macro_rules | `(tactic| conv_step $I) => `(tactic| with_reducible apply Act.Closed.addContext $I)

theorem upgradeSubstitution (p : Str) : P (Crm.upgradeSubstitution E p) := by
  unfold Crm.upgradeSubstitution
  try dsimp only
  repeat conv_step I
macro_rules | `(tactic| conv_step $I) => `(tactic| with_reducible apply Act.Closed.upgradeSubstitution $I)

theorem upgradeJinja (W : ConvWorld) : P (Crm.upgradeJinja E W) := by
  unfold Crm.upgradeJinja
  try dsimp only
  repeat conv_step I
macro_rules | `(tactic| conv_step $I) => `(tactic| with_reducible apply Act.Closed.upgradeJinja $I)

theorem upgradeSelector (s : Str) (i : SelInfo) : P (Crm.upgradeSelector E s i) := by
  unfold Crm.upgradeSelector
  try dsimp only
  repeat conv_step I
macro_rules | `(tactic| conv_step $I) => `(tactic| with_reducible apply Act.Closed.upgradeSelector $I)

theorem upgradeSelectors : P (Crm.upgradeSelectors E) := by
  unfold Crm.upgradeSelectors
  try dsimp only
  repeat conv_step I
macro_rules | `(tactic| conv_step $I) => `(tactic| with_reducible apply Act.Closed.upgradeSelectors $I)

theorem correctMisspellings (ps : List Str) : P (Crm.correctMisspellings E ps) := by
  unfold Crm.correctMisspellings
  try dsimp only
  repeat conv_step I
macro_rules | `(tactic| conv_step $I) => `(tactic| with_reducible apply Act.Closed.correctMisspellings $I)

theorem upgradeSource (s : Str) : P (Crm.upgradeSource E s) := by
  unfold Crm.upgradeSource
  try dsimp only
  repeat conv_step I
macro_rules | `(tactic| conv_step $I) => `(tactic| with_reducible apply Act.Closed.upgradeSource $I)

theorem upgradeSources (ps : List Str) : P (Crm.upgradeSources E ps) := by
  unfold Crm.upgradeSources
  try dsimp only
  repeat conv_step I
macro_rules | `(tactic| conv_step $I) => `(tactic| with_reducible apply Act.Closed.upgradeSources $I)

theorem scriptEnvItem (p : Str) (x : PyVal) (acc : ScriptEnv) : P (Crm.scriptEnvItem p x acc) := by
  unfold Crm.scriptEnvItem
  try dsimp only
  repeat conv_step I
macro_rules | `(tactic| conv_step $I) => `(tactic| with_reducible apply Act.Closed.scriptEnvItem $I)

theorem scriptEnvLoop (p : Str) : ∀ (xs : List PyVal) (acc : ScriptEnv), P (Crm.scriptEnvLoop p xs acc)
  | [], acc => I.pure acc
  | x :: xs, acc => by
    have ih := fun acc => scriptEnvLoop p xs acc
    unfold Crm.scriptEnvLoop
    repeat (first | exact ih _ | conv_step I)
macro_rules | `(tactic| conv_step $I) => `(tactic| with_reducible apply Act.Closed.scriptEnvLoop $I)

theorem upgradeScript (b : Str) : P (Crm.upgradeScript E b) := by
  unfold Crm.upgradeScript
  try dsimp only
  repeat conv_step I
macro_rules | `(tactic| conv_step $I) => `(tactic| with_reducible apply Act.Closed.upgradeScript $I)

theorem moveToRequirements (a b : Str) : P (Crm.moveToRequirements E a b) := by
  unfold Crm.moveToRequirements
  try dsimp only
  repeat conv_step I
macro_rules | `(tactic| conv_step $I) => `(tactic| with_reducible apply Act.Closed.moveToRequirements $I)

theorem upgradeBuild (ps : List Str) : P (Crm.upgradeBuild E ps) := by
  unfold Crm.upgradeBuild
  try dsimp only
  repeat conv_step I
macro_rules | `(tactic| conv_step $I) => `(tactic| with_reducible apply Act.Closed.upgradeBuild $I)

theorem upgradeRequirements (ps : List Str) : P (Crm.upgradeRequirements E ps) := by
  unfold Crm.upgradeRequirements
  try dsimp only
  repeat conv_step I
macro_rules | `(tactic| conv_step $I) => `(tactic| with_reducible apply Act.Closed.upgradeRequirements $I)

theorem fixLicense (W : ConvWorld) (a : Str) : P (Crm.fixLicense E W a) := by
  unfold Crm.fixLicense
  try dsimp only
  repeat conv_step I
macro_rules | `(tactic| conv_step $I) => `(tactic| with_reducible apply Act.Closed.fixLicense $I)

theorem joinSummary (a : Str) : P (Crm.joinSummary E a) := by
  unfold Crm.joinSummary
  try dsimp only
  repeat conv_step I
macro_rules | `(tactic| conv_step $I) => `(tactic| with_reducible apply Act.Closed.joinSummary $I)

theorem upgradeAbout (W : ConvWorld) (ps : List Str) : P (Crm.upgradeAbout E W ps) := by
  unfold Crm.upgradeAbout
  try dsimp only
  repeat conv_step I
macro_rules | `(tactic| conv_step $I) => `(tactic| with_reducible apply Act.Closed.upgradeAbout $I)

theorem upgradePipCheck (a b : Str) : P (Crm.upgradePipCheck E a b) := by
  unfold Crm.upgradePipCheck
  try dsimp only
  repeat conv_step I
macro_rules | `(tactic| conv_step $I) => `(tactic| with_reducible apply Act.Closed.upgradePipCheck $I)

theorem upgradeTestFiles (a : Str) : P (Crm.upgradeTestFiles E a) := by
  unfold Crm.upgradeTestFiles
  try dsimp only
  repeat conv_step I
macro_rules | `(tactic| conv_step $I) => `(tactic| with_reducible apply Act.Closed.upgradeTestFiles $I)

theorem upgradeTests (ps : List Str) : P (Crm.upgradeTests E ps) := by
  unfold Crm.upgradeTests
  try dsimp only
  repeat conv_step I
macro_rules | `(tactic| conv_step $I) => `(tactic| with_reducible apply Act.Closed.upgradeTests $I)

theorem upgradeOutput (a : Str) : P (Crm.upgradeOutput E a) := by
  unfold Crm.upgradeOutput
  try dsimp only
  repeat conv_step I
macro_rules | `(tactic| conv_step $I) => `(tactic| with_reducible apply Act.Closed.upgradeOutput $I)

theorem upgradeOutputs (ps : List Str) : P (Crm.upgradeOutputs E ps) := by
  unfold Crm.upgradeOutputs
  try dsimp only
  repeat conv_step I
macro_rules | `(tactic| conv_step $I) => `(tactic| with_reducible apply Act.Closed.upgradeOutputs $I)

theorem reportComments (old : List (Str × Str)) : P (Crm.reportComments old) := by
  unfold Crm.reportComments
  try dsimp only
  repeat conv_step I
macro_rules | `(tactic| conv_step $I) => `(tactic| with_reducible apply Act.Closed.reportComments $I)

theorem finishV1 : P (Crm.finishV1 E) := by
  unfold Crm.finishV1
  try dsimp only
  repeat conv_step I
macro_rules | `(tactic| conv_step $I) => `(tactic| with_reducible apply Act.Closed.finishV1 $I)

theorem convertSteps (W : ConvWorld) : P (Crm.convertSteps E W) := by
  unfold Crm.convertSteps
  try dsimp only
  repeat conv_step I
macro_rules | `(tactic| conv_step $I) => `(tactic| with_reducible apply Act.Closed.convertSteps $I)

theorem renderToV1 (W : ConvWorld) : P (Crm.renderToV1 E W) := by
  unfold Crm.renderToV1
  exact I.bind (I.convertSteps W) fun _ => I.result

end Act.Closed

/-- The method does the same whatever the object's own recipe is. -/
def Act.NoSelf (a : Act α) : Prop := ∀ c s, a { c with self := s } = ((a c).1, { (a c).2 with self := s })

theorem Act.noSelf (E : Env) : Closed E Act.NoSelf where
  pure _ _ _ := rfl
  ask _ _ _ := rfl
  bind {α β x f} hx hf := by
    intro c s
    show Act.bind x f _ = ((Act.bind x f c).1, { (Act.bind x f c).2 with self := s })
    unfold Act.bind
    rw [hx c s]
    cases x c with
    | mk o c' =>
      cases o with
      | error e => rfl
      | ok a => exact hf a c' s
  say _ _ _ _ := rfl
  patch p := by
    intro c s
    simp only [patchAndLog, Bind.bind, Act.bind, edit]
    rcases (c.v1.patch E p).1 with e | _ | _ <;> rfl
  selector _ _ _ := rfl
  sort _ _ _ _ := rfl
  vars _ _ _ := rfl
  schema _ _ := rfl
  context _ _ := rfl
  result _ _ := rfl

namespace Act.Inv
variable {E : Env} {R : Conv → Bool → Conv → Prop} (I : Inv E R)
include I

theorem closed : Closed E (Holds R) where
  pure _ := ⟨fun c => I.refl c _⟩
  ask _ := ⟨fun c => I.refl c _⟩
  bind {α β x f} hx hf := by
    constructor
    intro c
    have h := hx.after c
    show R c (returned (Act.bind x f c).1) (Act.bind x f c).2
    unfold Act.bind
    cases hxc : x c with
    | mk o c' =>
      rw [hxc] at h
      cases o with
      | error e => exact h
      | ok a => exact I.trans h ((hf a).after c')
  say := I.say
  patch := I.patch
  selector := I.selector
  sort := I.sort
  vars := I.vars
  schema := I.schema
  context := I.context
  result := ⟨fun c => I.refl c _⟩

theorem renderToV1 (W : ConvWorld) : Holds R (Crm.renderToV1 E W) := I.closed.renderToV1 W

end Act.Inv
end Crm
