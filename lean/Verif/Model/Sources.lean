import Verif.Model.Database
/-!
# Model of `xylem/sources/impl.py`, `xylem/load_url.py`, `xylem/update.py`, `xylem/lookup.py`

The server, the directory listing, the YAML parser and the file system are parameters.
-/
namespace Verif

/-! ## `load_url.py` -/

/-- What one call of `urlopen` (and, if it succeeds, reading and decoding the body) does, `load_url.py:50-70`.
`raises` is any exception other than `HTTPError`/`URLError` (malformed url, timeout while reading the headers). -/
inductive Response
  | success (body : Except Exc String)
  | httpError (code : Nat)
  | urlError (timeout : Bool)
  | raises (e : Exc)

/-- The `while True` loop of `load_url`, `load_url.py:48-70`, `i` requests having been made before: the result and the total
number of requests. `resp i` is what the `i`-th request meets. -/
def loadUrlLoop (resp : Nat → Response) : (retry i : Nat) → Except Exc String × Nat
  | retry, i =>
    match resp i with
    | .success body => (body, i + 1)
    | .httpError code =>
      if code = 503 then
        match retry with
        | 0 => (.error .downloadFailure, i + 1)
        | r + 1 => loadUrlLoop resp r (i + 1)
      else (.error .downloadFailure, i + 1)
    | .urlError timeout =>
      if timeout then
        match retry with
        | 0 => (.error .downloadFailure, i + 1)
        | r + 1 => loadUrlLoop resp r (i + 1)
      else (.error .downloadFailure, i + 1)
    | .raises e => (.error e, i + 1)

/-- `load_url`, `load_url.py:36-70`; `retry = max(retry, 0)`. -/
def loadUrl (resp : Nat → Response) (retry : Int) : Except Exc String × Nat :=
  loadUrlLoop resp (max retry 0).toNat 0

/-! ## Source list files, `sources/impl.py` -/

/-- `s.startswith(p)` (python builtin). -/
def startsWith (s p : String) : Bool := p.toList.isPrefixOf s.toList
/-- `s.endswith(p)` (python builtin). -/
def endsWith (s p : String) : Bool := p.toList.isSuffixOf s.toList

/-- The condition of `_load_sources`, `sources/impl.py:93-98`, on the joined path. -/
def isSourceFile (isfile : String → Bool) (path : String) : Bool :=
  !startsWith path "." && endsWith path ".yaml" && isfile path

/-- `load_sources_from_path`/`_load_sources`, `sources/impl.py:76-99`: the paths that get parsed, in order. -/
def loadSourcesFromPath (isfile : String → Bool) (listing : List String) (path : String) : List String :=
  (listing.map (pathJoin path)).filter (isSourceFile isfile)

/-- A dict key as a value (python builtin: iterating a dict yields its keys). -/
def PKey.toVal : PKey → PVal
  | .none => .none
  | .int i => .int i
  | .str s => .str s
  | .other n => .other n

/-- `for x in v` (python builtin): the elements, or TypeError. Simplification: the opaque values are not iterable. -/
def iterVal : PVal → Except Exc (List PVal)
  | .list l => .ok l
  | .dict d => .ok (d.map fun kv => kv.1.toVal)
  | .str s => .ok (s.toList.map fun c => .str (String.singleton c))
  | _ => .error .typeError

/-- `verify_spec_name`, `specs/impl.py:127-136`. -/
def verifySpecName : PKey → Except Exc Unit
  | .str _ => .ok ()
  | _ => .error .valueError

/-- `verify_source_description`, `sources/impl.py:164-181`; `raise_from` is called with two arguments (line 180-181), which
is a TypeError. -/
def verifySourceDescription : PVal → Except Exc Unit
  | .dict d =>
    match d with
    | [(k, _)] =>
      match verifySpecName k with
      | .ok () => .ok ()
      | .error _ => .error .typeError
    | _ => .error .valueError
  | _ => .error .valueError

/-- `for descr in descr_list: verify_source_description(descr)`, `sources/impl.py:154-155`. -/
def verifyDescrs : List PVal → Except Exc Unit
  | [] => .ok ()
  | v :: t => do verifySourceDescription v; verifyDescrs t

/-- `verify_source_description_list`, `sources/impl.py:147-161`: TypeError and ValueError become ValueError. -/
def verifySourceDescriptionList (v : PVal) : Except Exc Unit :=
  match (do let l ← iterVal v; verifyDescrs l) with
  | .ok () => .ok ()
  | .error e => if e = .typeError ∨ e = .valueError then .error .valueError else .error e

/-- `parse_source_descriptions`, `sources/impl.py:117-144`, on the outcome `parsed` of `load_yaml`: a YAML error is reported
and gives the empty list. -/
def parseSourceDescriptions (parsed : Except Exc PVal) : Except Exc PVal :=
  match parsed with
  | .error e => if e = .yamlError then .ok (.list []) else .error e
  | .ok v => do verifySourceDescriptionList v; pure v

/-- What the disk contains of sources: `sources/impl.py:49-112`. `parsed p` is the outcome of reading file `p` and of
`load_yaml`; `defaults` are the files of package data. -/
structure SourcesWorld where
  dirExists : Bool
  listing : List String
  isfile : String → Bool
  parsed : String → Except Exc PVal
  defaults : List (String × Except Exc PVal)

/-- `get_source_descriptions` / `get_default_source_descriptions`, `sources/impl.py:49-73`, `database.py:202-210`: the files
with their parse outcome, in order (the generators parse lazily). -/
def sourceFiles (w : SourcesWorld) (sourcesDir : String) : List (String × Except Exc PVal) :=
  if w.dirExists then (loadSourcesFromPath w.isfile w.listing sourcesDir).map fun p => (p, w.parsed p)
  else w.defaults

/-- The nested loops of `init_from_sources`, `database.py:211-219`, including the lazy parsing of each file. -/
def initFromFiles (plugins : List Spec) : List (String × Except Exc PVal) → Except Exc (List Source)
  | [] => .ok []
  | (file, parsed) :: rest => do
    let v ← parseSourceDescriptions parsed
    let descrs ← iterVal v
    let l ← descrs.mapM (mkSourceOfDescr plugins file)
    let r ← initFromFiles plugins rest
    pure (l ++ r)

/-- `RulesDatabase(sources_context)`, `database.py:190-220`. -/
def openDatabase (env : CacheEnv) (plugins : List Spec) (w : SourcesWorld) (sourcesDir : String) : Except Exc (List Source) := do
  let sources ← initFromFiles plugins (sourceFiles w sourcesDir)
  verifyUniqueIds env sources
  pure sources

/-! ## `SourcesContext` -/

/-- `a or b` for an optional string (python builtin): `None` and `''` are false. -/
def orDefault (a : Option String) (b : String) : String :=
  match a with
  | none => b
  | some s => if s = "" then b else s

/-- `sources_cache_dir`, `sources/impl.py:184-185`. -/
def sourcesCacheDir (cacheDir : String) : String := pathJoin cacheDir "sources"

/-- The two paths of a `SourcesContext`. -/
structure SourcesPaths where
  sourcesDir : String
  cacheDir : String
  deriving DecidableEq

/-- `SourcesContext.setup_paths`, `sources/impl.py:215-218`; the two defaults are parameters. -/
def setupPaths (defaultSources defaultCache : String) (sourcesDir cacheDir : Option String) : SourcesPaths :=
  ⟨orDefault sourcesDir defaultSources, sourcesCacheDir (orDefault cacheDir defaultCache)⟩

/-- `SourcesContext.is_default_dirs`, `sources/impl.py:233-235`. -/
def isDefaultDirs (defaultSources defaultCache : String) (p : SourcesPaths) : Bool :=
  p.sourcesDir == defaultSources && p.cacheDir == sourcesCacheDir defaultCache

/-- The directory as `ensure_cache_dir` finds it: exists before, outcome of `os.makedirs`, exists after. -/
structure DirWorld where
  before : Bool
  makedirs : Except Exc Unit
  after : Bool

/-- `SourcesContext.ensure_cache_dir`, `sources/impl.py:220-225`. -/
def ensureCacheDir (w : DirWorld) : Except Exc Unit :=
  if w.before then .ok ()
  else
    match w.makedirs with
    | .error e => .error e
    | .ok () => if w.after then .ok () else .error .osError

/-! ## API functions -/

/-- Result of the `update` API: exception or the result of the database update. -/
structure ApiUpdate where
  steps : List FsStep
  raised : Option Exc

/-- `update`, `update.py:61-86`. `outcome` is what the world does for each source. The argument `dry_run` is not used. -/
def updateApi (_dryRun : Bool) (env : CacheEnv) (plugins : List Spec) (dir : DirWorld) (w : SourcesWorld) (sourcesDir : String)
    (outcome : Source → Outcome) : ApiUpdate :=
  match ensureCacheDir dir with
  | .error e => ⟨[], some e⟩
  | .ok () =>
    match openDatabase env plugins w sourcesDir with
    | .error e => ⟨[], some e⟩
    | .ok sources =>
      let r := dbUpdate env false (sources.map fun s => (s, outcome s))
      ⟨r.steps, r.raised⟩

/-- `RulesDatabase(..)`, `load_from_cache()`, `database.lookup(..)`: the first half of `lookup`, `lookup.py:33-36`. -/
def lookupDb (uni : Char → Bool) (env : CacheEnv) (fs : FileSys) (plugins : List Spec) (w : SourcesWorld) (sourcesDir : String)
    (key : String) (c : LookupCtx) : Except Exc InstDict := do
  let sources ← openDatabase env plugins w sourcesDir
  let r := dbLoadFromCache env fs true sources
  match r.raised with
  | some e => throw e
  | none => dbLookup uni r.sources key c

/-- `lookup`, `lookup.py:24-43`: `compacted` is only assigned when `compact` is true. -/
def lookupApi (uni : Char → Bool) (env : CacheEnv) (fs : FileSys) (plugins : List Spec) (w : SourcesWorld) (sourcesDir : String)
    (key : String) (compact : Bool) (c : LookupCtx) : Except Exc PVal := do
  let installerDict ← lookupDb uni env fs plugins w sourcesDir key c
  if compact then compactInstallerDict installerDict c.dflt
  else throw .unboundLocalError

end Verif
