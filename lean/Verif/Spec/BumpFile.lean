import Verif.Spec.DocEdit
import Verif.Props.BumpFields
import Verif.Props.References

/-!
# What `bump-recipe` should do to a recipe file

The file is the text of definitions and a document (`Spec/Document.lean`).  A run sets keys and variables; each changes or adds one
line.
-/

namespace Crm.Spec
open Doc

/-- What happens to the lines of a file. -/
inductive LineChange where
  /-- one line goes from `a` to `b` -/
  | becomes (a b : Str)
  /-- there is a new line `b` -/
  | added (b : Str)

/-- The lines `xs` become `ys` with the change; indentation apart. -/
def LineChange.Holds : LineChange → List Str → List Str → Prop
  | becomes a b, xs, ys => OneLineDiffers a b xs ys
  | added b, xs, ys => ∃ before margin after, xs = before ++ after ∧ ys = before ++ (margin ++ b) :: after ∧ ∀ c ∈ margin, c = ' '

/-- The changes one after the other, and nothing else. -/
inductive LinesDiffer : List LineChange → List Str → List Str → Prop
  | nil {xs} : LinesDiffer [] xs xs
  | cons {ch chs xs ys zs} : ch.Holds xs ys → LinesDiffer chs ys zs → LinesDiffer (ch :: chs) xs zs

/-- The key `k` below `path` gets the value `v`: its line changes, a comment behind the old value goes; or it is put at the end of
the section that does not have it. -/
inductive KeySet (E : Env) (v : PyVal) (k : Str) (path : List Str) : LineChange → List Doc → List Doc → Prop
  | replaced {vt old c w ds ds'} : Scalar E v w → Within (ScalarBecomes k vt old c w) path ds ds' →
      KeySet E v k path (.becomes (withComment (k ++ §": " ++ vt) c) (k ++ §": " ++ yamlText w)) ds ds'
  | added {w ds ds'} : Collection E (.dict [(k, v)]) [scalar k (yamlText w) w []] →
      Within (EndsFresh k (scalar k (yamlText w) w [])) path ds ds' →
      KeySet E v k path (.added (k ++ §": " ++ yamlText w)) ds ds'

/-- A variable gets the value `v`. -/
inductive VariableSet (v : PyVal) (k : Str) : LineChange → List (Str × PyVal) → List (Str × PyVal) → Prop
  | intro {pre old post} : VariableSet v k (.becomes (defLine k old) (defLine k v)) (pre ++ (k, old) :: post) (pre ++ (k, v) :: post)

/-- The build number: one more than it was, if this is asked for and there is one; otherwise 0. -/
inductive NumberBumped (E : Env) (raise : Bool) : LineChange → List Doc → List Doc → Prop
  | raised {vt v c n ds ds'} : raise = true → wholeNumber v = some n → Scalar E (.int (n + 1)) (.int (n + 1)) →
      Within (ScalarBecomes §"number" vt v c (.int (n + 1))) [§"build"] ds ds' →
      NumberBumped E raise (.becomes (withComment (§"number: " ++ vt) c) (§"number: " ++ yamlText (.int (n + 1)))) ds ds'
  | reset {ch ds ds'} : raise = false ∨ (∃ b, ch = .added b) → KeySet E (.int 0) §"number" [§"build"] ch ds ds' →
      NumberBumped E raise ch ds ds'

/-- The version: the variable `version` if there is one, otherwise `/package/version`. -/
inductive VersionBumped (E : Env) (t : Str) (ch : LineChange) (vars : List (Str × PyVal)) (ds : List Doc) :
    List (Str × PyVal) → List Doc → Prop
  | byVariable {vars'} : (∀ v, (§"version", v) ∈ vars → v ≠ .none) → VariableSet (.str t) §"version" ch vars vars' →
      VersionBumped E t ch vars ds vars' ds
  | byKey {ds'} : §"version" ∉ vars.map (·.1) → KeySet E (.str t) §"version" [§"package"] ch ds ds' → VersionBumped E t ch vars ds vars ds'

/-- The hashes of the sources at the given paths. -/
inductive HashesSet (E : Env) : List (List Str × Str) → List LineChange → List Doc → List Doc → Prop
  | nil {ds} : HashesSet E [] [] ds ds
  | cons {path s rest ch chs ds ds' ds''} : KeySet E (.str s) §"sha256" path ch ds ds' → HashesSet E rest chs ds' ds'' →
      HashesSet E ((path, s) :: rest) (ch :: chs) ds ds''

/-- The text of the definitions and the document is a file that is opened as `o`; it is of the old format. -/
structure Opened (E : Env) (vars : List (Str × PyVal)) (ds : List Doc) (o : Recipe) : Prop where
  definitions : Writable E vars
  document : Document E ds
  format : Fresh §"schema_version" ds
  opened : Recipe.ofString E (recipeText vars ds) = .ok o

/-- The usual names of a hash variable that the recipe has. -/
def hashVariables (o : Recipe) : List Str :=
  [§"sha256", §"hash", §"hash_val", §"hash_value"].filter fun v => decide (v ∈ o.listVariables)

/-- A single source whose hash is given by the variable `v`. -/
def hashFromVariable (o : Recipe) (tbl : List (Str × Fetcher)) (v : Str) : Prop :=
  hashVariables o = [v] ∧ (∃ name url, tbl = [(§"/source", .http name url)]) ∧ §"/source/sha256" ∈ o.getVariableReferences v

/-- `s` is the hash of what was downloaded for the source at the path, from the URL that the source has. -/
def Downloaded (sha : Str → Str) (net : Network) (tbl : List (Str × Fetcher)) (path s : Str) : Prop :=
  ∃ name url, (path, .http name url) ∈ tbl ∧ (getSha256 sha (net path url)).1 = .ok s

/-- The hashes: of the recipe `o`, with the sources `from_recipe` finds, downloads that complete in the given order.  The variable
if it is a single source with one, otherwise the key `sha256` of each source. -/
inductive HashesBumped (E : Env) (sha : Str → Str) (net : Network) (order : List Str → List Str) (o : Recipe) :
    List LineChange → List (Str × PyVal) → List Doc → List (Str × PyVal) → List Doc → Prop
  | byVariable {tbl v s ch vars vars' ds} : fetchersOf E o true = .ok tbl → hashFromVariable o tbl v →
      Downloaded sha net tbl §"/source" s → VariableSet (.str s) v ch vars vars' →
      HashesBumped E sha net order o [ch] vars ds vars' ds
  | byKeys {tbl hashes chs vars ds ds'} : fetchersOf E o true = .ok tbl → (∀ v, ¬ hashFromVariable o tbl v) →
      hashes.map (fun h => absPath h.1) = order (httpPaths tbl) → (hashes.map (·.1)).Nodup → (∀ h ∈ hashes, ∀ c ∈ h.1, Component c) →
      (∀ h ∈ hashes, Downloaded sha net tbl (absPath h.1) h.2) → HashesSet E hashes chs ds ds' →
      HashesBumped E sha net order o chs vars ds vars ds'

/-- What a run with these options makes of the definitions and the document. -/
inductive Bumped (E : Env) (sha : Str → Str) (W : BumpWorld) (args : BumpArgs) :
    List LineChange → List (Str × PyVal) → List Doc → List (Str × PyVal) → List Doc → Prop
  | number {ch vars ds ds' o v} : args.target = none → Opened E vars ds o → o.getValue E §"/build" = .ok v →
      NumberBumped E args.buildNum ch ds ds' → Bumped E sha W args [ch] vars ds vars ds'
  | version {t ch1 ch2 chs vars ds ds1 vars2 ds2 vars' ds' o o1 o2 v v1} : args.target = some t →
      Opened E vars ds o → o.getValue E §"/build" = .ok v → NumberBumped E args.buildNum ch1 ds ds1 →
      Opened E vars ds1 o1 → o1.getValue E §"/package/version" (some .none) true = .ok v1 → VersionBumped E t ch2 vars ds1 vars2 ds2 →
      Opened E vars2 ds2 o2 → HashesBumped E sha W.net W.order o2 chs vars2 ds2 vars' ds' →
      Bumped E sha W args (ch1 :: ch2 :: chs) vars ds vars' ds'

/-- The text uses none of the old ways to name the type of a hash. -/
def NoHashType (text : Str) : Prop := ∀ t ∈ hashTypeLines ++ hashKeys, ¬ t <:+: text

end Crm.Spec
