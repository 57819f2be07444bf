import Verif.Model.Deps

/-!
# Artifact fetchers (`fetcher/*.py`)

What the network, the file system, `git` and the archive libraries do in a call of `fetch()` is an input (`HttpAttempt`,
`GitAttempt`). The temporary directory exists from construction to the end of the life of the fetcher
(`base_artifact_fetcher.py:36-39`); failures to create it are not modelled, nor is the text of messages.
-/

namespace Crm

/-! ## HTTP -/

/-- `ArtifactArchiveType`, `http_artifact_fetcher.py:24-33` (7zip is never set). -/
inductive ArchiveType where
  | zip | tarball | unknown
deriving DecidableEq, Repr

/-- What the outside does in one `HttpArtifactFetcher.fetch()`: whether the request is answered, whether the archive file
can be opened, the pieces received, whether all of them arrive and are written without an exception, and, for the archive
stored: whether it is a tar or a zip file, and the result of unpacking it. -/
structure HttpAttempt where
  answered : Bool
  opened : Bool
  chunks : List Str
  complete : Bool
  isTar : Bool
  isZip : Bool
  unpacked : Except PyErr Unit

/-- State of `HttpArtifactFetcher`: `_successfully_fetched`, `_archive_type` and the contents of the archive file. -/
structure HttpFetcher where
  fetched : Bool := false
  kind : ArchiveType := .unknown
  archive : Str := []
deriving DecidableEq

/-- The errors of unpacking that `_extract` turns into `FetchError`, `http_artifact_fetcher.py:85-88`; the model has
`.valueError` for `TarError`, `BadZipFile`, `ValueError` and `IOError`, and any other error for the rest (`RuntimeError`
for an encrypted zip file), which is passed on. -/
def unpackError : PyErr → PyErr
  | .valueError => .fetchError
  | e => e

/-- `_extract`, `http_artifact_fetcher.py:64-88`. -/
def HttpFetcher.extract (a : HttpAttempt) (f : HttpFetcher) : Except PyErr Unit × HttpFetcher :=
  if a.isTar then
    (match a.unpacked with | .ok _ => .ok () | .error e => .error (unpackError e), { f with kind := .tarball })
  else if a.isZip then
    (match a.unpacked with | .ok _ => .ok () | .error e => .error (unpackError e), { f with kind := .zip })
  else (.error .fetchError, f)

/-- `fetch`, `http_artifact_fetcher.py:90-112`. Opening the file empties it; writing stops at an empty piece. -/
def HttpFetcher.fetch (a : HttpAttempt) (f : HttpFetcher) : Except PyErr Unit × HttpFetcher :=
  if !a.answered then (.error .fetchError, f)
  else if !a.opened then (.error .fetchError, f)
  else
    let f := { f with archive := (a.chunks.takeWhile (fun c => !c.isEmpty)).flatten }
    if !a.complete then (.error .fetchError, f)
    else match f.extract a with
      | (.ok _, f) => (.ok (), { f with fetched := true })
      | (.error e, f) => (.error e, f)

/-- `_fetch_guard`, `base_artifact_fetcher.py:43-53`. -/
def fetchGuard (fetched : Bool) : Except PyErr Unit := if fetched then .ok () else .error .fetchRequired

/-- What a user can do with a fetcher. -/
inductive HttpOp where
  | fetch (a : HttpAttempt)
  | sourcePath
  | sha256
  | archiveType

/-- What an operation gives. -/
inductive HttpResult where
  | done
  | path
  | digest (d : Str)
  | type (t : ArchiveType)
deriving DecidableEq

/-- One operation, `http_artifact_fetcher.py:90-145` (`hash_file` is a function of the contents of the file). -/
def HttpFetcher.step (sha256 : Str → Str) (f : HttpFetcher) : HttpOp → Except PyErr HttpResult × HttpFetcher
  | .fetch a => match f.fetch a with
    | (.ok _, f) => (.ok .done, f)
    | (.error e, f) => (.error e, f)
  | .sourcePath => (do let _ ← fetchGuard f.fetched; .ok .path, f)
  | .sha256 => (do let _ ← fetchGuard f.fetched; .ok (.digest (sha256 f.archive)), f)
  | .archiveType => (do let _ ← fetchGuard f.fetched; .ok (.type f.kind), f)

/-- A history of operations: each with its result, and the state at the end. -/
def HttpFetcher.run (sha256 : Str → Str) : HttpFetcher → List HttpOp → List (HttpOp × Except PyErr HttpResult) × HttpFetcher
  | f, [] => ([], f)
  | f, op :: ops =>
    let (res, f) := f.step sha256 op
    let (rest, f) := run sha256 f ops
    ((op, res) :: rest, f)

/-! ## git -/

/-- `GitArtifactFetcher`: the target, `git_artifact_fetcher.py:18-27,50-57`, `_successfully_fetched`, and the temporary
directory: `none` when empty, else the commit that is checked out in it. -/
structure GitFetcher where
  remote : Bool
  branch : Option Str := none
  tag : Option Str := none
  rev : Option Str := none
  fetched : Bool := false
  work : Option Str := none

/-- What `git` does in one `fetch()`: whether the repository can be cloned, the commit its default branch is at, and the
commit each name (of a branch, tag or revision) stands for. -/
structure GitAttempt where
  cloned : Bool
  head : Str
  refs : Str → Option Str

/-- `_clone`, `git_artifact_fetcher.py:57-69`: `git clone` refuses a directory that is not empty, and `shutil.copytree`
one that exists, as the temporary directory always does. -/
def GitFetcher.clone (a : GitAttempt) (g : GitFetcher) : Except PyErr GitFetcher :=
  if g.remote then
    if g.work.isSome then .error .fetchError
    else if a.cloned then .ok { g with work := some a.head } else .error .fetchError
  else .error .fetchError

/-- `_resolve_checkout_target`, `git_artifact_fetcher.py:71-88`. -/
def GitFetcher.target (g : GitFetcher) : Option Str :=
  match g.tag with
  | some t => some t
  | none => match g.rev with
    | some r => some r
    | none => g.branch

/-- `repo.git.checkout(branch, force=True)`: without a branch GitPython runs `git checkout --force`, which stays at the
current commit. -/
def gitCheckout (a : GitAttempt) (branch : Option Str) (work : Option Str) : Option (Option Str) :=
  match branch with
  | none => some work
  | some b => match a.refs b with
    | some c => some (some c)
    | none => none

/-- `fetch`, `git_artifact_fetcher.py:90-111`. -/
def GitFetcher.fetch (a : GitAttempt) (g : GitFetcher) : Except PyErr Unit × GitFetcher :=
  match g.clone a with
  | .error e => (.error e, g)
  | .ok g =>
    if (g.target.getD []).isEmpty then (.ok (), { g with fetched := true })
    else match gitCheckout a g.branch g.work with
      | none => (.error .fetchError, g)
      | some w => (.ok (), { g with work := w, fetched := true })

/-- `get_path_to_source_code`, `git_artifact_fetcher.py:113-123`: what is in the directory. -/
def GitFetcher.sourcePath (g : GitFetcher) : Except PyErr (Option Str) := do
  let _ ← fetchGuard g.fetched
  .ok g.work

/-- Calls of `fetch()` one after the other: their results and the state at the end. -/
def GitFetcher.run : GitFetcher → List GitAttempt → List (Except PyErr Unit) × GitFetcher
  | g, [] => ([], g)
  | g, a :: as =>
    let (res, g) := g.fetch a
    let (rest, g) := run g as
    (res :: rest, g)

/-! ## Fetchers of a recipe -/

/-- A fetcher as constructed by `from_recipe`. -/
inductive Fetcher where
  | http (name url : Str)
  | git (name url : Str) (branch tag rev : Option Str)
deriving DecidableEq, Repr

/-- `optional_str`, `utils/typing.py:12-21`. -/
def optionalStr (v : PyVal) : Option Str := if v = .none then none else some (pyStr v)

/-- `_render_git_key`, `artifact_fetcher.py:19-45`. -/
def renderGitKey (schema : Schema) (key : Str) : Except PyErr Str :=
  match schema with
  | .v0 => .ok key
  | .v1 =>
    if key = §"git_url" then .ok §"git"
    else if key = §"git_branch" then .ok §"branch"
    else if key = §"git_tag" then .ok §"tag"
    else if key = §"git_rev" then .ok §"rev"
    else .error .fetchUnsupported

/-- `source.get(key)`; `AttributeError` for a value that is not a mapping. -/
def sourceGet (source : PyVal) (key : Str) : Except PyErr PyVal :=
  match source with
  | .dict d => .ok ((lookupD key d).getD .none)
  | _ => .error .attributeError

/-- The body of the loop over the sources, `artifact_fetcher.py:82-103`, for a source called `name` at `path`. -/
def sourceFetcher (schema : Schema) (name : Str) (source : PyVal) : Except PyErr (Option Fetcher) := do
  let url := optionalStr (← sourceGet source §"url")
  let gitUrl := optionalStr (← sourceGet source (← renderGitKey schema §"git_url"))
  match url, gitUrl with
  | some u, _ => .ok (some (.http name u))
  | none, some g => do
    let branch := optionalStr (← sourceGet source (← renderGitKey schema §"git_branch"))
    let tag := optionalStr (← sourceGet source (← renderGitKey schema §"git_tag"))
    let rev := optionalStr (← sourceGet source (← renderGitKey schema §"git_rev"))
    .ok (some (.git name g branch tag rev))
  | none, none => .ok none

/-- The loop over the sources, `artifact_fetcher.py:81-103`. -/
def fetchersGo (schema : Schema) (recipeName : Str) (count : Nat) (isList ignore : Bool) :
    Nat → List PyVal → List (Str × Fetcher) → Except PyErr (List (Str × Fetcher))
  | _, [], acc => .ok acc
  | i, s :: rest, acc => do
    let name := if count = 1 then recipeName else recipeName ++ §"_" ++ natStr i
    let path := if isList then §"/source/" ++ natStr i else §"/source"
    match ← sourceFetcher schema name s with
    | some f => fetchersGo schema recipeName count isList ignore (i + 1) rest (insertD path f acc)
    | none =>
      if ignore then fetchersGo schema recipeName count isList ignore (i + 1) rest acc
      else .error .fetchUnsupported

/-- `from_recipe`, `artifact_fetcher.py:48-105`. -/
def fetchersOf (E : Env) (r : Recipe) (ignore : Bool) : Except PyErr (List (Str × Fetcher)) := do
  let v ← r.getValue E §"/source" (some (.list [])) true
  let name := (← r.getRecipeName E).getD §"Unknown Recipe"
  match v with
  | .list l => fetchersGo r.schema name l.length true ignore 0 l []
  | v => fetchersGo r.schema name 1 false ignore 0 [v] []

end Crm
