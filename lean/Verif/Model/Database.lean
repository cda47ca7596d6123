import Verif.Model.Expand
/-!
# Model of `xylem/sources/database.py` and of `RulesSpec`

The outside world answers through parameters: `sha1` (`hashlib.sha1(..).hexdigest()`, may raise on Python 2 for
non-ASCII text or non-text), the network (`net`: url to parsed YAML), the clock, and the outcome of writing a file.
-/
namespace Verif

/-- What lookups use of the installer context (`installers/impl.py`: `get_os_tuple`,
`get_default_installer_name`). -/
structure LookupCtx where
  os : String
  version : String
  dflt : Option String

/-- The typed view of a dict with text keys (no code counterpart; partial inverse of `dictVal`). -/
def ofDictVal {β : Type} (f : PVal → Option β) : List (PKey × PVal) → Option (Dict String β)
  | [] => some []
  | (.str k, v) :: t =>
    match f v, ofDictVal f t with
    | some b, some t => some ((k, b) :: t)
    | _, _ => none
  | _ :: _ => none
/-- Typed view of a rule (`rules_dict.py:195`). -/
def ruleOfVal : PVal → Option Rule
  | .dict d => ofDictVal some d
  | _ => none
/-- Typed view of an installer dict (`rules_dict.py:166`). -/
def instOfVal : PVal → Option InstDict
  | .dict d => ofDictVal ruleOfVal d
  | _ => none
/-- Typed view of a version dict (`rules_dict.py:140`). -/
def verOfVal : PVal → Option VerDict
  | .dict d => ofDictVal instOfVal d
  | _ => none
/-- Typed view of an os dict (`rules_dict.py:110`). -/
def osOfVal : PVal → Option OsDict
  | .dict d => ofDictVal verOfVal d
  | _ => none
/-- Typed view of a rules dict (`rules_dict.py:84`). -/
def rulesOfVal : PVal → Option Rules
  | .dict d => ofDictVal osOfVal d
  | _ => none

/-- A spec plugin, `specs/impl.py:40-125`. `loadData` gets the network as a parameter; `uniqueId` of the arguments is a value. -/
structure Spec where
  name : String
  version : Int
  uniqueId : PVal → PVal
  loadData : (PVal → Except Exc PVal) → PVal → Except Exc PVal
  verifyArguments : PVal → Except Exc Unit
  verifyData : PVal → PVal → Except Exc Unit
  lookup : PVal → String → LookupCtx → Except Exc PVal
  keys : PVal → LookupCtx → Except Exc (List String)

/-- `RulesSpec.load_data`, `specs/plugins/rules.py:291-299`; `net` is `load_url` followed by `load_yaml`. -/
def rulesLoadData (net : PVal → Except Exc PVal) (arguments : PVal) : Except Exc PVal := do
  let rules ← net arguments
  expandRules rules

/-- `RulesSpec.verify_arguments`, `specs/plugins/rules.py:301-306`. -/
def rulesVerifyArguments : PVal → Except Exc Unit
  | .str _ => .ok ()
  | _ => .error .valueError

/-- `RulesSpec.lookup`, `specs/plugins/rules.py:315-320`. Data that is not a rules dict (in practice: `None`, never loaded)
has no `.get`: AttributeError. Simplification: malformed (never verified) data raises AttributeError wherever it is malformed. -/
def rulesLookup (data : PVal) (key : String) (c : LookupCtx) : Except Exc PVal :=
  match rulesOfVal data with
  | some r => do let d ← lookupRules r key c.os c.version c.dflt; pure d.toVal
  | none => .error .attributeError

/-- `RulesSpec.keys`, `specs/plugins/rules.py:322-328`. -/
def rulesKeys (data : PVal) (c : LookupCtx) : Except Exc (List String) :=
  match rulesOfVal data with
  | some r => .ok ((r.filter fun kv => hasRuleForOs kv.2 c.os c.version).map Prod.fst)
  | none => .error .attributeError

/-- The `rules` spec plugin, `specs/plugins/rules.py:270-328`. -/
def rulesSpec (uni : Char → Bool) : Spec where
  name := "rules"
  version := 1
  uniqueId := id
  loadData := rulesLoadData
  verifyArguments := rulesVerifyArguments
  verifyData := fun data _ => verifyRulesDict uni true data
  lookup := rulesLookup
  keys := rulesKeys

/-- `os.path.join(a, b)` (python builtin, posix). -/
def pathJoin (a b : String) : String :=
  if b.toList.head? = some '/' then b
  else if a.toList = [] ∨ a.toList.getLast? = some '/' then a ++ b
  else a ++ "/" ++ b

/-- `_cache_file_path`, `database.py:44-46` (with `_id_string`, 40-41, as the parameter `sha1`). -/
def cacheFilePath (sha1 : PVal → Except Exc String) (cacheDir : String) (uid : PVal) : Except Exc String := do
  let h ← sha1 uid
  pure (pathJoin cacheDir (h ++ ".pickle"))

/-- `_create_cache_data`, `database.py:49-65`. -/
def createCacheData (xylemVersion specName : String) (specVersion : Int) (arguments origin data time : PVal) : PVal :=
  .dict [(.str "xylem_version", .str xylemVersion), (.str "spec_name", .str specName), (.str "spec_version", .int specVersion),
    (.str "arguments", arguments), (.str "origin", origin), (.str "data", data), (.str "time_data_loaded", time)]

/-- The keys every cache file must have, `database.py:70-76`. -/
def cacheDataKeys : List String :=
  ["xylem_version", "spec_name", "spec_version", "arguments", "origin", "data", "time_data_loaded"]

/-- `_verify_cache_data_structure`, `database.py:68-78`; returns the dict. -/
def verifyCacheDataStructure : PVal → Except Exc (List (PKey × PVal))
  | .dict d => if cacheDataKeys.all (fun k => dhas d (.str k)) then .ok d else .error .valueError
  | _ => .error .valueError

/-- `cache_data[k]` (python builtin). -/
def getItem (d : List (PKey × PVal)) (k : String) : Except Exc PVal :=
  match dget d (.str k) with
  | some v => .ok v
  | none => .error .keyError

/-- `_verify_cache_data_spec_name`, `database.py:81-84`. -/
def verifyCacheDataSpecName (d : List (PKey × PVal)) (specName : String) : Except Exc Unit := do
  let n ← getItem d "spec_name"
  if pyEq (.str specName) n then .ok () else .error .valueError

/-- Contents of a file as far as the cache is concerned: a pickled object, or bytes `pickle.load` rejects
(`database.py:89`). -/
inductive FileContent
  | pickled (v : PVal)
  | broken

/-- The files (path to content). -/
abbrev FileSys := String → Option FileContent

/-- `_read_cache`, `database.py:87-91`. -/
def readCache (fs : FileSys) (path : String) : Except Exc (List (PKey × PVal)) :=
  match fs path with
  | none => .error .ioError
  | some .broken => .error .unpicklingError
  | some (.pickled v) => verifyCacheDataStructure v

/-- What happens when a file is written (`database.py:94-97`): everything works; `open` fails; or
`pickle.dump` fails after `open(.., 'wb')` has truncated the file. -/
inductive WriteOutcome
  | ok
  | openFails (e : Exc)
  | dumpFails (e : Exc)

/-- One atomic change of the file system. `open(path, 'wb')` is `truncate`; completing the dump is `fill`. -/
inductive FsStep
  | truncate (path : String)
  | fill (path : String) (v : PVal)

/-- Effect of one step. -/
def FsStep.apply (fs : FileSys) : FsStep → FileSys
  | .truncate p => fun q => if q = p then some .broken else fs q
  | .fill p v => fun q => if q = p then some (.pickled v) else fs q

/-- Effect of a sequence of steps. A crash leaves the effect of a prefix. -/
def applySteps (fs : FileSys) (l : List FsStep) : FileSys := l.foldl FsStep.apply fs

/-- `_write_cache`, `database.py:94-97`: the steps done, and the exception raised (if any). -/
def writeCache (v : PVal) (path : String) : WriteOutcome → List FsStep × Option Exc
  | .ok => ([.truncate path, .fill path v], none)
  | .openFails e => ([], some e)
  | .dumpFails e => ([.truncate path], some e)

/-- A `RulesSource`, `database.py:100-110`. `data`/`time` are `None` until loaded. -/
structure Source where
  spec : Spec
  arguments : PVal
  origin : PVal
  data : PVal
  time : PVal

/-- `RulesSource.__init__`, `database.py:102-110`. -/
def mkSource (spec : Spec) (arguments origin : PVal) : Except Exc Source := do
  spec.verifyArguments arguments
  pure ⟨spec, arguments, origin, .none, .none⟩

/-- The static environment of the sources: hash, xylem version, cache dir (`database.py:40, 115-118, 138`). -/
structure CacheEnv where
  sha1 : PVal → Except Exc String
  xylemVersion : String
  cacheDir : String

/-- `RulesSource.cache_file_path`, `database.py:112-118`. -/
def Source.cachePath (env : CacheEnv) (s : Source) : Except Exc String :=
  cacheFilePath env.sha1 env.cacheDir (s.spec.uniqueId s.arguments)

/-- `RulesSource.load_from_source`, `database.py:120-124`; an exception leaves the object unchanged. -/
def Source.loadFromSource (s : Source) (net : PVal → Except Exc PVal) (now : PVal) : Except Exc Source := do
  let data ← s.spec.loadData net s.arguments
  s.spec.verifyData data s.arguments
  pure { s with data := data, time := now }

/-- `RulesSource.load_from_cache`, `database.py:126-134`; an exception leaves the object unchanged (after the checks
the four items exist). -/
def Source.loadFromCache (env : CacheEnv) (fs : FileSys) (s : Source) : Except Exc Source := do
  let path ← s.cachePath env
  let d ← readCache fs path
  verifyCacheDataSpecName d s.spec.name
  s.spec.verifyArguments s.arguments
  let data ← getItem d "data"
  s.spec.verifyData data s.arguments
  let arguments ← getItem d "arguments"
  let origin ← getItem d "origin"
  let time ← getItem d "time_data_loaded"
  pure { s with arguments := arguments, origin := origin, data := data, time := time }

/-- The object `save_to_cache` writes, `database.py:137-144`. -/
def Source.cacheData (env : CacheEnv) (s : Source) : PVal :=
  createCacheData env.xylemVersion s.spec.name s.spec.version s.arguments s.origin s.data s.time

/-- `RulesSource.save_to_cache`, `database.py:136-146`. -/
def Source.saveToCache (env : CacheEnv) (s : Source) (w : WriteOutcome) : List FsStep × Option Exc :=
  match s.cachePath env with
  | .error e => ([], some e)
  | .ok path => writeCache (s.cacheData env) path w

/-- `RulesSource.is_cache_available`, `database.py:157-161`. -/
def Source.isCacheAvailable (env : CacheEnv) (fs : FileSys) (s : Source) : Except Exc Bool := do
  let path ← s.cachePath env
  pure (fs path).isSome

/-- `RulesSource.is_cache_outdated`, `database.py:148-155`: `cache_data('spec_name')` calls a dict. -/
def Source.isCacheOutdated (env : CacheEnv) (fs : FileSys) (s : Source) : Except Exc Bool := do
  let avail ← s.isCacheAvailable env fs
  if !avail then pure true
  else
    let path ← s.cachePath env
    let _cacheData ← readCache fs path
    throw .typeError

/-- `RulesSource.clear_cache`, `database.py:163-175`: `self.cache_file_path(self.sources_context)` passes a surplus
argument, so the call raises before any file is touched. -/
def Source.clearCache (_env : CacheEnv) (_s : Source) : List FsStep × Option Exc := ([], some .typeError)

/-- `RulesSource.lookup`, `database.py:177-181`. The last case is unreachable (verified installer dicts are typed). -/
def Source.lookup (uni : Char → Bool) (s : Source) (key : String) (c : LookupCtx) : Except Exc InstDict := do
  let v ← s.spec.lookup s.data key c
  verifyInstallerDict uni false v
  match instOfVal v with
  | some d => pure d
  | none => throw .attributeError

/-- `RulesSource.keys`, `database.py:183-185`. -/
def Source.keys (s : Source) (c : LookupCtx) : Except Exc (List String) := s.spec.keys s.data c

/-! ## `RulesDatabase` -/

/-- `SourcesContext.get_spec`, `sources/impl.py:237-241`: the description's spec name is a value. -/
def getSpec (plugins : List Spec) (name : PKey) : Except Exc Spec :=
  match plugins.find? (fun s => decide (PKey.str s.name = name)) with
  | some s => .ok s
  | none => .error .unknownSpecError

/-- One description, `database.py:213-219`: `descr.items()[0]` (IndexError for `{}`, AttributeError for a non-dict; both are
excluded by the verification that precedes). -/
def mkSourceOfDescr (plugins : List Spec) (file : String) (descr : PVal) : Except Exc Source :=
  match descr with
  | .dict ((name, arguments) :: _) => do
    let spec ← getSpec plugins name
    mkSource spec arguments (.str file)
  | .dict [] => .error .indexError
  | _ => .error .attributeError

/-- The two nested loops of `init_from_sources`, `database.py:211-219`, over (file, descriptions) pairs. -/
def mkSources (plugins : List Spec) : List (String × List PVal) → Except Exc (List Source)
  | [] => .ok []
  | (file, descrs) :: rest => do
    let l ← descrs.mapM (mkSourceOfDescr plugins file)
    let r ← mkSources plugins rest
    pure (l ++ r)

/-- `verify_unique_ids`, `database.py:222-227`: `len(ids) == len(set(ids))`. -/
def verifyUniqueIds (env : CacheEnv) (sources : List Source) : Except Exc Unit := do
  let ids ← sources.mapM fun s => env.sha1 (s.spec.uniqueId s.arguments)
  if ids.length = ids.eraseDups.length then pure () else throw .runtimeError

/-- `RulesDatabase.__init__`/`init_from_sources`, `database.py:190-220`, after the source lists have been read. -/
def initDatabase (env : CacheEnv) (plugins : List Spec) (files : List (String × List PVal)) : Except Exc (List Source) := do
  let sources ← mkSources plugins files
  verifyUniqueIds env sources
  pure sources

/-- What the outside world does while one source is updated: the answers of the network, the clock, the outcome of
writing the cache file. Each source is loaded once and written at most once per update, so one record per source
covers every behaviour of the outside world. -/
structure Outcome where
  net : PVal → Except Exc PVal
  now : PVal
  write : WriteOutcome

/-- `except Exception as e: if self.raise_on_error: raise` (`database.py:233-236` and likewise below): the exception leaves the loop if
`raise_on_error` is set, or if it is no `Exception` (KeyboardInterrupt, SystemExit), which is not caught. -/
def reraises (raiseOnError : Bool) (e : Exc) : Bool := raiseOnError || !e.isException

/-- Result of a database operation: the sources after it, the file system steps done, the exception raised (if any). -/
structure DbResult where
  sources : List Source
  steps : List FsStep
  raised : Option Exc

/-- `RulesDatabase.update`, `database.py:273-308`. -/
def dbUpdate (env : CacheEnv) (raiseOnError : Bool) : List (Source × Outcome) → DbResult
  | [] => ⟨[], [], none⟩
  | (s, o) :: rest =>
    match s.loadFromSource o.net o.now with
    | .error e =>
      if reraises raiseOnError e then ⟨s :: rest.map Prod.fst, [], some e⟩
      else
        let r := dbUpdate env raiseOnError rest
        ⟨s :: r.sources, r.steps, r.raised⟩
    | .ok s' =>
      let w := s'.saveToCache env o.write
      match w.2 with
      | some e =>
        if reraises raiseOnError e then ⟨s' :: rest.map Prod.fst, w.1, some e⟩
        else
          let r := dbUpdate env raiseOnError rest
          ⟨s' :: r.sources, w.1 ++ r.steps, r.raised⟩
      | none =>
        let r := dbUpdate env raiseOnError rest
        ⟨s' :: r.sources, w.1 ++ r.steps, r.raised⟩

/-- `RulesDatabase.load_from_cache`, `database.py:229-239`. -/
def dbLoadFromCache (env : CacheEnv) (fs : FileSys) (raiseOnError : Bool) : List Source → DbResult
  | [] => ⟨[], [], none⟩
  | s :: rest =>
    match s.loadFromCache env fs with
    | .error e =>
      if reraises raiseOnError e then ⟨s :: rest, [], some e⟩
      else
        let r := dbLoadFromCache env fs raiseOnError rest
        ⟨s :: r.sources, r.steps, r.raised⟩
    | .ok s' =>
      let r := dbLoadFromCache env fs raiseOnError rest
      ⟨s' :: r.sources, r.steps, r.raised⟩

/-- `RulesDatabase.load_from_source`, `database.py:253-271`. -/
def dbLoadFromSource (raiseOnError : Bool) : List (Source × Outcome) → DbResult
  | [] => ⟨[], [], none⟩
  | (s, o) :: rest =>
    match s.loadFromSource o.net o.now with
    | .error e =>
      if reraises raiseOnError e then ⟨s :: rest.map Prod.fst, [], some e⟩
      else
        let r := dbLoadFromSource raiseOnError rest
        ⟨s :: r.sources, r.steps, r.raised⟩
    | .ok s' =>
      let r := dbLoadFromSource raiseOnError rest
      ⟨s' :: r.sources, r.steps, r.raised⟩

/-- `RulesDatabase.save_to_cache`, `database.py:241-251`. -/
def dbSaveToCache (env : CacheEnv) (raiseOnError : Bool) : List (Source × Outcome) → DbResult
  | [] => ⟨[], [], none⟩
  | (s, o) :: rest =>
    let w := s.saveToCache env o.write
    match w.2 with
    | some e =>
      if reraises raiseOnError e then ⟨s :: rest.map Prod.fst, w.1, some e⟩
      else
        let r := dbSaveToCache env raiseOnError rest
        ⟨s :: r.sources, w.1 ++ r.steps, r.raised⟩
    | none =>
      let r := dbSaveToCache env raiseOnError rest
      ⟨s :: r.sources, w.1 ++ r.steps, r.raised⟩

/-- One iteration of the loop of `RulesDatabase.lookup`, `database.py:315-317`. -/
def dbLookupStep (uni : Char → Bool) (key : String) (c : LookupCtx) (acc : InstDict) (s : Source) : Except Exc InstDict := do
  let new ← s.lookup uni key c
  mergeInstallerDict new acc none

/-- `RulesDatabase.lookup`, `database.py:310-318`. -/
def dbLookup (uni : Char → Bool) (sources : List Source) (key : String) (c : LookupCtx) : Except Exc InstDict :=
  sources.reverse.foldlM (dbLookupStep uni key c) []

/-- `RulesDatabase.keys`, `database.py:320-325`: `list(set)` (the order of a python set is arbitrary; here first occurrence). -/
def dbKeys (sources : List Source) (c : LookupCtx) : Except Exc (List String) := do
  let ls ← sources.mapM fun s => s.keys c
  pure ls.flatten.eraseDups

end Verif
