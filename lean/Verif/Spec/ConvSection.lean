import Verif.Spec.Convert
import Verif.Spec.Text
import Verif.Spec.Path
import Verif.Spec.Sort

/-! # Specification vocabulary: the keys of one section of a recipe, and what a conversion does to them

A section is a node of the tree; what is said here is about the list of its children. -/

namespace Crm.Spec

/-- `k` is the first child with this name: the children `pre` in front of it have other names. -/
structure First (name : Str) (pre : List Node) (k : Node) : Prop where
  named : k.value = .str name
  first : ∀ x ∈ pre, x.value ≠ .str name

/-- No child has this name. -/
def Absent (name : Str) (ks : List Node) : Prop := ∀ k ∈ ks, k.value ≠ .str name

instance (name : Str) (ks : List Node) : Decidable (Absent name ks) := by unfold Absent; infer_instance

/-- What `get_value` returns for a key, read in a recipe that consists of this key only. -/
def keyValue (E : Env) (name : Str) (k : Node) : Except PyErr PyVal :=
  getValueIn E { value := .str §"/", children := [k] } (absPath [name])

/-- The converted copy went from `c` to `c'` by nothing but this: the children of the node at `pos` are now `ks`, and the
messages `says` were given, in this order. -/
structure Became (c c' : Conv) (pos : Pos) (ks : List Node) (says : List (Category × Str)) : Prop where
  original : c'.self = c.self
  tree : ChildrenChanged (Becomes ks) pos c.v1.root c'.v1.root
  rest : c'.v1.init = c.v1.init ∧ c'.v1.schema = c.v1.schema ∧ c'.v1.vars = c.v1.vars
  messages : c'.msgs = says.foldl (fun t m => t.add m.1 m.2) c.msgs

/-- A place below which keys can be put: a key, the top of a recipe that is not empty, or an element of a list that has
keys. -/
def Host (comps : List Str) (n : Node) (ks : List Node) : Prop :=
  ((n.key = true ∨ ks ≠ []) ∧ n.value ≠ .sentinel ∧ endsInNumber comps = false) ∨
  (n.value = .sentinel ∧ n.listMember = true ∧ n.comment = [] ∧ ks ≠ [])

instance (comps : List Str) (n : Node) (ks : List Node) : Decidable (Host comps n ks) := by unfold Host; infer_instance

/-- In the converted copy, the section at `comps` is the node `n`, with these children. -/
structure Section (c : Conv) (comps : List Str) (pos : Pos) (n : Node) (ks : List Node) : Prop where
  path : ∀ x ∈ comps, Component x
  place : locate c.v1.root comps = some pos
  node : nodeAt c.v1.root pos = some { n with children := ks }
  host : Host comps n ks

/-- A name of a key: no slash in it, not a number, not `-`. -/
def KeyName (name : Str) : Prop := Component name ∧ isDigitS name = false ∧ name ≠ §"-"

instance (name : Str) : Decidable (KeyName name) := by unfold KeyName; infer_instance

/-- A value is written under a name: into the first key of that name, whose content is lost, or as a new key at the end. -/
inductive Put (E : Env) (name : Str) (v : PyVal) : List Node → List Node → Prop
  | append {ks ns : List Node} : Absent name ks → newNodes E (.dict [(name, v)]) = .ok ns → Put E name v ks (ks ++ ns)
  | into {ks a b ns : List Node} {m : Node} : ks = a ++ m :: b → First name a m → bareValue m = false →
      newNodes E v = .ok ns → Put E name v ks (a ++ { m with children := ns } :: b)

/-- The first key of this name is taken out; `v` is its value. -/
inductive Taken (E : Env) (name : Str) (v : PyVal) : List Node → List Node → Prop
  | mk {ks pre post : List Node} {k : Node} : ks = pre ++ k :: post → First name pre k → bareValue k = false →
      keyValue E name k = .ok v → v ≠ .sentinel → Taken E name v ks (pre ++ post)

/-- A key gets another name: if there is none of the old name nothing happens; otherwise it is taken out, and its value is
written under the new name.  `ok` says which lists of children the section can have on the way. -/
inductive Renamed (E : Env) (ok : List Node → Prop) (old new : Str) : List Node → List Node → Prop
  | absent {ks : List Node} : Absent old ks → Renamed E ok old new ks ks
  | moved {ks ks1 ks2 : List Node} {v : PyVal} : Taken E old v ks ks1 → Put E new v ks1 ks2 → ok ks1 → ok ks2 →
      Renamed E ok old new ks ks2

/-- Several keys get other names, one after the other. -/
inductive RenamedAll (E : Env) (ok : List Node → Prop) : List (Str × Str) → List Node → List Node → Prop
  | nil (ks : List Node) : RenamedAll E ok [] ks ks
  | cons {old new : Str} {os : List (Str × Str)} {ks ks1 ks2 : List Node} : Renamed E ok old new ks ks1 →
      RenamedAll E ok os ks1 ks2 → RenamedAll E ok ((old, new) :: os) ks ks2

/-- There is a key of this name: if not, an empty one is added at the end. -/
inductive Ensured (E : Env) (ok : List Node → Prop) (name : Str) : List Node → List Node → Prop
  | there {ks : List Node} : ¬ Absent name ks → Ensured E ok name ks ks
  | added {ks ks' : List Node} : Absent name ks → Put E name .none ks ks' → ok ks' → Ensured E ok name ks ks'

/-- A key is moved below another key of the section, which is added if it is missing. -/
inductive MovedBelow (E : Env) (ok : List Node → Prop) (old group new : Str) : List Node → List Node → Prop
  | absent {ks : List Node} : Absent old ks → MovedBelow E ok old group new ks ks
  | moved {ks ks1 a b cs : List Node} {m : Node} {v : PyVal} : ¬ Absent old ks → Ensured E ok group ks ks1 →
      Taken E old v ks1 (a ++ m :: b) → First group a m → m.key = true → Put E new v m.children cs →
      ok (a ++ m :: b) → ok (a ++ { m with children := cs } :: b) →
      MovedBelow E ok old group new ks (a ++ { m with children := cs } :: b)

/-- The children without the first of this name. -/
def without (name : Str) (ks : List Node) : List Node := ks.eraseP fun k => decide (k.value = .str name)

/-- The children that are left when these fields are taken out one after the other, and the fields that were there. -/
def dropFields : List Str → List Node → List Node × List Str
  | [], ks => (ks, [])
  | f :: fs, ks =>
    if Absent f ks then dropFields fs ks else ((dropFields fs (without f ks)).1, f :: (dropFields fs (without f ks)).2)

/-- No two keys of the section have the same name. -/
def DistinctKeys (ks : List Node) : Prop := ks.Pairwise fun a b => ∀ s, a.value = .str s → b.value ≠ .str s

instance (ks : List Node) : Decidable (DistinctKeys ks) :=
  decidable_of_iff (ks.Pairwise fun a b => ¬ ((match a.value with | .str _ => true | _ => false) = true ∧ a.value = b.value)) <| by
    unfold DistinctKeys
    constructor
    · refine fun h => h.imp fun {a b} hab s h1 h2 => hab ⟨by rw [h1], by rw [h1, h2]⟩
    · refine fun h => h.imp fun {a b} hab => ?_
      rintro ⟨h1, h2⟩
      cases hv : a.value with
      | str s => exact hab s hv (h2 ▸ hv)
      | _ => rw [hv] at h1; cases h1

/-- The warning about a field that was dropped. -/
def unsupported (comps : List Str) (f : Str) : Category × Str :=
  (.warning, §"Field at `" ++ absPath (comps ++ [f]) ++ §"` is no longer supported.")

/-- What is said about the licence of the section at `comps`, and what becomes of it: a missing one and one that nothing
resembles are reported, one that is written otherwise than in the licence list is corrected, which is reported as well.
`recognised` is the licence that the one in the recipe stands for. -/
inductive LicenceFixed (E : Env) (recognised : Str → Option Str) (comps : List Str) :
    List Node → List Node → List (Category × Str) → Prop
  | missing {ks : List Node} : Absent §"license" ks → LicenceFixed E recognised comps ks ks
      [(.warning, §"No `license` provided in `" ++ absPath comps ++ §"`")]
  | empty {ks a b : List Node} {m : Node} : ks = a ++ m :: b → First §"license" a m →
      keyValue E §"license" m = .ok .none → LicenceFixed E recognised comps ks ks
      [(.warning, §"No `license` provided in `" ++ absPath comps ++ §"`")]
  | unknown {ks a b : List Node} {m : Node} {old : Str} : ks = a ++ m :: b → First §"license" a m →
      keyValue E §"license" m = .ok (.str old) → recognised old = none → LicenceFixed E recognised comps ks ks
      [(.warning, §"Could not patch unrecognized license: `" ++ old ++ §"`")]
  | correct {ks a b : List Node} {m : Node} {old : Str} : ks = a ++ m :: b → First §"license" a m →
      keyValue E §"license" m = .ok (.str old) → recognised old = some old → LicenceFixed E recognised comps ks ks []
  | corrected {ks a b ns : List Node} {m : Node} {old new : Str} : ks = a ++ m :: b → First §"license" a m →
      bareValue m = false → keyValue E §"license" m = .ok (.str old) → recognised old = some new → old ≠ new →
      newNodes E (.str new) = .ok ns → LicenceFixed E recognised comps ks (a ++ { m with children := ns } :: b)
      [(.warning, §"Changed " ++ absPath (comps ++ [§"license"]) ++ §" from `" ++ old ++ §"` to `" ++ new ++ §"`")]

/-- A summary of several texts becomes one text, a line for each of them. -/
inductive SummaryJoined (E : Env) : List Node → List Node → Prop
  | none {ks : List Node} : Absent §"summary" ks → SummaryJoined E ks ks
  | one {ks a b : List Node} {m : Node} {v : PyVal} : ks = a ++ m :: b → First §"summary" a m →
      keyValue E §"summary" m = .ok v → (∀ xs, v ≠ .list xs) → SummaryJoined E ks ks
  | several {ks a b ns : List Node} {m : Node} {texts : List Str} : ks = a ++ m :: b → First §"summary" a m →
      bareValue m = false → keyValue E §"summary" m = .ok (.list (texts.map .str)) →
      newNodes E (.str (List.intercalate §"\n" texts)) = .ok ns → SummaryJoined E ks (a ++ { m with children := ns } :: b)

/-- What a conversion does to the `about` section. -/
structure AboutUpgraded (E : Env) (recognised : Str → Option Str) (ok : List Node → Prop) (comps : List Str)
    (ks ks' : List Node) (says : List (Category × Str)) : Prop where
  steps : ∃ ks1 ks2 ks3 s,
    RenamedAll E ok [(§"home", §"homepage"), (§"dev_url", §"repository"), (§"doc_url", §"documentation")] ks ks1 ∧
    LicenceFixed E recognised comps ks1 ks2 s ∧ SummaryJoined E ks2 ks3 ∧
    (∀ k ∈ ks3, bareValue k = false) ∧
    ks' = (dropFields [§"prelink_message", §"license_family", §"identifiers", §"tags", §"keywords", §"doc_source_url"] ks3).1 ∧
    says = s ++ (dropFields [§"prelink_message", §"license_family", §"identifiers", §"tags", §"keywords",
      §"doc_source_url"] ks3).2.map (unsupported comps)

/-- What a conversion does to a source. -/
structure SourceUpgraded (E : Env) (ok : List Node → Prop) (ks ks' : List Node) (says : List (Category × Str)) : Prop where
  says_eq : says =
    (if Absent §"svn_url" ks then [] else [(.warning, §"SVN packages are no longer supported in the V1 format")]) ++
    (if Absent §"hg_url" ks then [] else [(.warning, §"HG (Mercurial) packages are no longer supported in the V1 format")])
  steps : ∃ ks1,
    RenamedAll E ok [(§"fn", §"file_name"), (§"folder", §"target_directory"), (§"git_url", §"git"), (§"git_tag", §"tag"),
      (§"git_rev", §"rev"), (§"git_depth", §"depth")] ks ks1 ∧
    Ordered [§"url", §"sha256", §"md5", §"path", §"use_gitignore", §"git", §"branch", §"tag", §"rev", §"depth", §"lfs",
      §"target_directory", §"file_name", §"patches"] ks1 ks' ∧ ok ks'

/-- What an entry of `script_env` stands for. -/
inductive EnvEntry
  | secret (v : PyVal)
  | assign (name value : Str)
  | message (text : Str)

/-- Reading one entry of `script_env`; `path` is where it is written. -/
inductive ReadEnv (path : Str) : PyVal → EnvEntry → Prop
  | secret {s : Str} : '=' ∉ s → ReadEnv path (.str s) (.secret (.str (strip s)))
  | assign {a b : Str} : '=' ∉ a → '=' ∉ b → ReadEnv path (.str (a ++ '=' :: b)) (.assign (strip a) (strip b))
  | unreadable {a b c : Str} : ReadEnv path (.str (a ++ '=' :: b ++ '=' :: c))
      (.message (§"Could not parse `" ++ (a ++ '=' :: b ++ '=' :: c) ++ §"` found in " ++ path))
  | when {d : List (Str × PyVal)} {s : Str} : lookupD §"then" d = some (.str s) → '=' ∉ s →
      ReadEnv path (.dict d) (.secret (.dict d))
  | whenAssign {d : List (Str × PyVal)} {s : Str} : lookupD §"then" d = some (.str s) → '=' ∈ s →
      ReadEnv path (.dict d) (.message (§"Converting `" ++ pyStr (.dict d) ++ §"` found in " ++ path ++
        §" is not supported. Manually replace the selector with a `cmp()` function."))
  | noThen {d : List (Str × PyVal)} : lookupD §"then" d = none →
      ReadEnv path (.dict d) (.message (§"Could not parse dictionary `" ++ pyStr (.dict d) ++ §"` found in " ++ path))

/-- All entries. -/
inductive ReadEnvs (path : Str) : List PyVal → List EnvEntry → Prop
  | nil : ReadEnvs path [] []
  | cons {x : PyVal} {xs : List PyVal} {e : EnvEntry} {es : List EnvEntry} : ReadEnv path x e → ReadEnvs path xs es →
      ReadEnvs path (x :: xs) (e :: es)

/-- The secrets among the entries. -/
def secrets : List EnvEntry → List PyVal
  | [] => []
  | .secret v :: es => v :: secrets es
  | _ :: es => secrets es

/-- The environment: the last value given to a name counts, in the place where the name was first given. -/
def environment (d : List (Str × PyVal)) : List EnvEntry → List (Str × PyVal)
  | [] => d
  | .assign k v :: es => environment (insertD k (.str v) d) es
  | _ :: es => environment d es

/-- The error messages about entries. -/
def envMessages : List EnvEntry → List (Category × Str)
  | [] => []
  | .message t :: es => (.error, t) :: envMessages es
  | _ :: es => envMessages es

/-- The new `script`: environment, secrets and the old script, each if there is any. -/
def scriptObject (es : List EnvEntry) (script : Option PyVal) : List (Str × PyVal) :=
  (if environment [] es = [] then [] else [(§"env", .dict (environment [] es))]) ++
  (if secrets es = [] then [] else [(§"secrets", .list (secrets es))]) ++
  (match script with
    | some v => if v.truthy then [(§"content", v)] else []
    | none => [])

/-- What is written under a key of the section, if there is such a key. -/
inductive ValueOf (E : Env) (name : Str) (ks : List Node) : Option PyVal → Prop
  | absent : Absent name ks → ValueOf E name ks none
  | present {a b : List Node} {m : Node} {v : PyVal} : ks = a ++ m :: b → First name a m → keyValue E name m = .ok v →
      ValueOf E name ks (some v)

/-- `script_env` moves into `script`. -/
inductive ScriptEnvMoved (E : Env) (ok : List Node → Prop) (comps : List Str) :
    List Node → List Node → List (Category × Str) → Prop
  | absent {ks : List Node} : Absent §"script_env" ks → ScriptEnvMoved E ok comps ks ks []
  | empty {ks : List Node} {v : PyVal} : ValueOf E §"script_env" ks (some v) → v.truthy = false →
      ScriptEnvMoved E ok comps ks ks []
  | moved {ks a b : List Node} {m : Node} {xs : List PyVal} {es : List EnvEntry} {script : Option PyVal} :
      ValueOf E §"script_env" ks (some (.list xs)) → xs ≠ [] →
      ReadEnvs (absPath (comps ++ [§"script_env"])) xs es → ValueOf E §"script" ks script →
      Put E §"script" (.dict (scriptObject es script)) ks (a ++ m :: b) → ok (a ++ m :: b) → First §"script_env" a m →
      bareValue m = false → ok (a ++ b) → ScriptEnvMoved E ok comps ks (a ++ b) (envMessages es)

/-- The fields of `build` that the V1 format does not have. -/
def obsoleteInBuild : List Str :=
  [§"pre-link", §"noarch_python", §"features", §"msvc_compiler", §"requires_features", §"provides_features",
   §"preferred_env", §"preferred_env_executable_paths", §"disable_pip", §"pin_depends", §"overlinking_ignore_patterns",
   §"rpaths_patcher", §"post-link", §"pre-unlink", §"pre-link"]

/-- What a conversion does to a `build` section, after `run_exports` and `ignore_run_exports` have left it. -/
structure BuildUpgraded (E : Env) (ok : List Node → Prop) (comps : List Str) (ks ks' : List Node)
    (says : List (Category × Str)) : Prop where
  steps : ∃ k1 k2 k3 k4 k5 k6 k7 k8 k9 s,
    RenamedAll E ok [(§"merge_build_host", §"merge_build_and_host_envs"), (§"no_link", §"always_copy_files")] ks k1 ∧
    MovedBelow E ok §"entry_points" §"python" §"entry_points" k1 k2 ∧
    MovedBelow E ok §"ignore_prefix_files" §"prefix_detection" §"ignore" k2 k3 ∧
    MovedBelow E ok §"detect_binary_files_with_prefix" §"prefix_detection" §"ignore_binary_files" k3 k4 ∧
    MovedBelow E ok §"rpaths" §"dynamic_linking" §"rpaths" k4 k5 ∧
    MovedBelow E ok §"binary_relocation" §"dynamic_linking" §"binary_relocation" k5 k6 ∧
    MovedBelow E ok §"missing_dso_whitelist" §"dynamic_linking" §"missing_dso_allowlist" k6 k7 ∧
    MovedBelow E ok §"runpath_whitelist" §"dynamic_linking" §"rpath_allowlist" k7 k8 ∧
    ScriptEnvMoved E ok comps k8 k9 s ∧
    (∀ k ∈ k9, bareValue k = false) ∧
    Ordered [§"number", §"string", §"skip", §"noarch", §"script", §"merge_build_and_host_envs", §"always_include_files",
      §"always_copy_files", §"variant", §"python", §"prefix_detection", §"dynamic_linking"]
      (dropFields obsoleteInBuild k9).1 ks' ∧
    says = s ++ (dropFields obsoleteInBuild k9).2.map (unsupported comps)

end Crm.Spec
