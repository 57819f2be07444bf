import Verif.Spec.BumpFile

/-!
# What `bump-recipe` should do to a recipe file of the new format

The file has no definitions: variables are keys below `context`.  The version and the hashes are those that no variable gives
(`C48_v1_violation` is about the others).
-/

namespace Crm.Spec
open Doc

/-- The text of the document is a file that is opened as `o`; it is of the new format. -/
structure OpenedNew (E : Env) (ds : List Doc) (o : Recipe) : Prop where
  document : Document E ds
  opened : Recipe.ofString E (recipeText [] ds) = .ok o
  format : o.schema = .v1

/-- The hashes: the key `sha256` of each source, in the order in which the downloads complete. -/
inductive HashKeysBumped (E : Env) (sha : Str → Str) (net : Network) (order : List Str → List Str) (o : Recipe) :
    List LineChange → List Doc → List Doc → Prop
  | intro {tbl hashes chs ds ds'} : fetchersOf E o true = .ok tbl → (∀ v, ¬ hashFromVariable o tbl v) →
      hashes.map (fun h => absPath h.1) = order (httpPaths tbl) → (hashes.map (·.1)).Nodup → (∀ h ∈ hashes, ∀ c ∈ h.1, Component c) →
      (∀ h ∈ hashes, Downloaded sha net tbl (absPath h.1) h.2) → HashesSet E hashes chs ds ds' →
      HashKeysBumped E sha net order o chs ds ds'

/-- What a run with these options makes of the document. -/
inductive BumpedNew (E : Env) (sha : Str → Str) (W : BumpWorld) (args : BumpArgs) : List LineChange → List Doc → List Doc → Prop
  | number {ch ds ds' o v} : args.target = none → OpenedNew E ds o → o.getValue E §"/build" = .ok v →
      NumberBumped E args.buildNum ch ds ds' → BumpedNew E sha W args [ch] ds ds'
  | version {t ch1 ch2 chs ds ds1 ds2 ds' o o1 o2 v v1} : args.target = some t →
      OpenedNew E ds o → o.getValue E §"/build" = .ok v → NumberBumped E args.buildNum ch1 ds ds1 →
      OpenedNew E ds1 o1 → o1.getValue E §"/package/version" (some .none) true = .ok v1 → §"version" ∉ o1.listVariables →
      KeySet E (.str t) §"version" [§"package"] ch2 ds1 ds2 → OpenedNew E ds2 o2 →
      HashKeysBumped E sha W.net W.order o2 chs ds2 ds' → BumpedNew E sha W args (ch1 :: ch2 :: chs) ds ds'

end Crm.Spec
