import Verif.Model.Startup
/-!
# The commands as programs: from the command line to the machine

`commands/main.py:124-156` with the commands of `commands/install.py`, `resolve.py`, `update.py` and `lookup.py` put in: the contexts and the database the
commands work with are built from the effective config, as the API functions do it (`install.py:64-73`, `resolve.py:54-63`, `update.py:76-86`,
`lookup.py:27-36`). The keys on the command line (positional arguments) are a parameter.
-/
namespace Verif
variable {σ : Type}

/-- What xylem finds when it runs: plugins (entry points), the contents of a sources directory, cached files, what the world does with a directory
and with a source on update, the hash and version used for cache files, the default directories (`config.py:66-76`), and the machine. -/
structure Surroundings (σ : Type) where
  uni : Char → Bool
  osEntries : List (EntryPoint OsPlugin)
  installerEntries : List (EntryPoint (InstallerPlugin σ))
  specEntries : List (EntryPoint Spec)
  sourcesIn : String → SourcesWorld
  files : FileSys
  dirAt : String → DirWorld
  outcome : Source → Outcome
  sha1 : PVal → Except Exc String
  xylemVersion : String
  defaultSources : String
  defaultCache : String
  machine : Machine σ

/-- `config.os_override` as it is after `process_config`, `config.py:292-296` (see `storeOverride`). The last case does not occur. -/
def overrideOf : PVal → Except Exc OverrideVal
  | .none => .ok .none
  | .str s => .ok (.text s)
  | .list [.str n, .none] => .ok (.pair n none)
  | .list [.str n, .str v] => .ok (.pair n (some v))
  | _ => .error .typeError

/-- The settings in the effective config, `installers/impl.py:256, 280-290, 401, 404-405, 426`. -/
def effectiveSettings (c : Config) : Except Exc Settings := do
  let o ← readOpt c "os_override"
  let override ← overrideOf o
  let features ← readOpt c "os_options/features"
  settingsOf c override features

/-- `ensure_installer_context(None, config)`, i.e. `InstallerContext(config)`, `installers/impl.py:433-449, 254-270`. -/
def contextFor (env : StartEnv) (w : Surroundings σ) (c : Config) : Except Exc (InstallerSetup σ) := do
  let s ← effectiveSettings c
  installerContext w.uni env.expand s w.osEntries w.installerEntries

/-- The os of the installer context, `installers/impl.py:272-290`: `ic.get_os()`. -/
def osFor (env : StartEnv) (w : Surroundings σ) (c : Config) : Except Exc OsSetup := do
  let s ← effectiveSettings c
  let oss ← loadPlugins w.uni s.disabledOs w.osEntries
  setupOs env.expand (oss.loaded.map Prod.snd) s.override s.osOptions

/-- What lookups ask the context for: `get_os_tuple` and `get_default_installer_name`, `installers/impl.py:300-324`. -/
def lookupCtxFor (env : StartEnv) (w : Surroundings σ) (c : Config) : Except Exc LookupCtx := do
  let os ← osFor env w c
  let t ← os.os.getTuple
  pure ⟨t.1, t.2, os.os.plugin.defaultInstaller⟩

/-- `config.sources_dir`, `config.cache_dir`: a text or None. -/
def dirOption (c : Config) (name : String) : Except Exc (Option String) := do
  let v ← readOpt c name
  match v with
  | .str s => pure (some s)
  | .none => pure none
  | _ => .error .typeError

/-- `SourcesContext.setup_paths`, `sources/impl.py:215-218`, for the effective config. -/
def pathsFor (w : Surroundings σ) (c : Config) : Except Exc SourcesPaths := do
  let s ← dirOption c "sources_dir"
  let k ← dirOption c "cache_dir"
  pure (setupPaths w.defaultSources w.defaultCache s k)

/-- `load_spec_plugins(config.disabled_plugins.spec)`, `sources/impl.py:212-213`, `specs/impl.py:32-37`. -/
def specsFor (w : Surroundings σ) (c : Config) : Except Exc (List Spec) := do
  let disabled ← readOpt c "disabled_plugins/spec" >>= listValue
  let l ← loadPlugins w.uni disabled w.specEntries
  pure (l.loaded.map Prod.snd)

/-- Where cached sources are, `sources/database.py:112-118`. -/
def cacheEnvFor (w : Surroundings σ) (p : SourcesPaths) : CacheEnv := ⟨w.sha1, w.xylemVersion, p.cacheDir⟩

/-- `RulesDatabase(SourcesContext(config))`, `sources/database.py:190-220`, `sources/impl.py:208-213`. -/
def sourcesFor (w : Surroundings σ) (c : Config) : Except Exc (List Source) := do
  let p ← pathsFor w c
  let specs ← specsFor w c
  openDatabase (cacheEnvFor w p) specs (w.sourcesIn p.sourcesDir) p.sourcesDir

/-- `database.load_from_cache()`, `resolve.py:59-60`: the loaded sources. -/
def loadedFor (w : Surroundings σ) (c : Config) : Except Exc (List Source) := do
  let p ← pathsFor w c
  let sources ← sourcesFor w c
  let r := dbLoadFromCache (cacheEnvFor w p) w.files true sources
  match r.raised with
  | some e => .error e
  | none => pure r.sources

/-- The database the commands use, `resolve.py:57-61`. -/
def databaseFor (env : StartEnv) (w : Surroundings σ) (c : Config) : Except Exc Database := do
  let l ← loadedFor w c
  let k ← lookupCtxFor env w c
  pure (databaseOf w.uni l k)

/-- The keys of one entry of `config.install_from`, `resolve.py:76-78`: None cannot be iterated over; None in the list is no key that could be
asked for, it is left out. -/
def keysFrom : PVal → Except Exc (List String)
  | .list l => .ok (l.filterMap fun v => match v with
    | .str s => some s
    | _ => none)
  | _ => .error .typeError

/-- One entry of `config.install_from`. Simplification: an entry for the installer None ends in TypeError here (python would report that no such
installer is loaded). -/
def installFromEntry (kv : PKey × PVal) : Except Exc (String × List String) :=
  match kv.1 with
  | .str inst => (keysFrom kv.2).map fun l => (inst, l)
  | _ => .error .typeError

/-- `config.install_from`, `resolve.py:76-84`. Simplification: an entry that cannot be used is an error before the keys are listed, not after. -/
def installFromOf (c : Config) : Except Exc (Dict String (List String)) := do
  let d ← readOpt c "install_from" >>= dictValue
  d.mapM installFromEntry

/-! ## The commands -/

/-- The arguments of `xylem install` in the namespace, `commands/install.py:57-64`. -/
def installArgsOf (ns : ArgSpace) (keys : List String) : InstallArgs where
  keys := keys
  all := switchOn ns "all"
  reinstall := switchOn ns "reinstall"
  dryRun := switchOn ns "dry_run"
  continueOnError := switchOn ns "continue_on_error"
  fixPrerequisites := switchOn ns "fix_prerequisites"

/-- The arguments of `xylem resolve` in the namespace, `commands/resolve.py:93-94, 100`. -/
def resolveArgsOf (ns : ArgSpace) (keys : List String) : ResolveArgs where
  keys := keys
  all := switchOn ns "all"
  showDefault := switchOn ns "show_default_installer"

/-- Everything the `install` API needs from the config, `install.py:64-73`, `resolve.py:54-84`. -/
structure InstallInputs (σ : Type) where
  ctx : InstallerCtx σ
  db : Database
  installFrom : Dict String (List String)

/-- The inputs in the order they are made. -/
def installInputs (env : StartEnv) (w : Surroundings σ) (c : Config) : Except Exc (InstallInputs σ) := do
  let ic ← contextFor env w c
  let db ← databaseFor env w c
  let f ← installFromOf c
  pure ⟨ic.context, db, f⟩

/-- `xylem install`: what the API does, `commands/install.py:55-64`. -/
def installRun (env : StartEnv) (w : Surroundings σ) (keys : List String) (p : Process) (ns : ArgSpace) : Prog σ InstallReport := fun s =>
  match installInputs env w p.config with
  | .error e => ⟨.error e, s, []⟩
  | .ok i => install w.machine i.ctx i.db i.installFrom (installArgsOf ns keys).opts keys (installArgsOf ns keys).all s

/-- `main` of `commands/install.py:53-77`. -/
def installFunc (env : StartEnv) (w : Surroundings σ) (text : String × ResErr → List Char) (itext : InstErr → List Char) (keys : List String) (s : σ)
    (p : Process) (ns : ArgSpace) : Run (Option Int) :=
  (interruptible p.color (do
    let r ← Run.said p.color w.machine.ansi (installRun env w keys p ns s)
    printReport p.color text itext r)).returnsNone

/-- `main` of `commands/resolve.py:87-113`. -/
def resolveFunc (env : StartEnv) (w : Surroundings σ) (text : String × ResErr → List Char) (keys : List String) (p : Process) (ns : ArgSpace) :
    Run (Option Int) :=
  (interruptible p.color (do
    let ic ← Run.lift (contextFor env w p.config)
    let os ← Run.lift (osFor env w p.config)
    let db ← Run.lift (databaseFor env w p.config)
    let f ← Run.lift (installFromOf p.config)
    let r ← Run.lift (resolve ic.context db f keys (resolveArgsOf ns keys).all)
    printResolved p.color text os.os.plugin.defaultInstaller (resolveArgsOf ns keys).showDefault r)).returnsNone

/-- `update`, `update.py:76-86`, with the effective config: the steps done on the cache directory and the exception raised, if any. -/
def updateRun (w : Surroundings σ) (p : Process) (ns : ArgSpace) : ApiUpdate :=
  match pathsFor w p.config with
  | .error e => ⟨[], some e⟩
  | .ok paths =>
    match specsFor w p.config with
    | .error e => ⟨[], some e⟩
    | .ok specs =>
      updateApi (switchOn ns "dry_run") (cacheEnvFor w paths) specs (w.dirAt paths.cacheDir) (w.sourcesIn paths.sourcesDir) paths.sourcesDir w.outcome

/-- `main` of `commands/update.py:43-49`. -/
def updateFunc (w : Surroundings σ) (p : Process) (ns : ArgSpace) : Run (Option Int) :=
  (interruptible p.color (Run.lift (updateRun w p ns).res)).returnsNone

/-- argparse: the positional arguments `xylem_key` (`nargs="+"`) of `install`, `resolve` and `lookup`: at least one. -/
def requireKeys (keys : List String) : Except Exc Unit := if keys = [] then .error (.systemExit 2) else .ok ()

/-- `main` up to the call of the command, `commands/main.py:124-141`: the variables and the namespace the command is called with, or how the program
ends before. `positional` is what argparse says to the positional arguments. -/
def reached (env : StartEnv) (desc : Desc) (fresh : Bool) (top sub : List OptSpec) (positional : Except Exc Unit) (p : Process)
    (before after : List Given) : Except Exc (Process × ArgSpace) := do
  let ns ← parseCommandLine fresh top sub before after
  positional
  let c ← (handleConfigArguments env desc (handleSwitches env ns p) ns).res
  pure ({ handleSwitches env ns p with config := c }, ns)

/-- `main`, `commands/main.py:124-156`, as `mainProgram` (`Model/Startup`) with positional arguments. -/
def mainWith (env : StartEnv) (desc : Desc) (text : Bool → Exc → List Char) (fresh : Bool) (top sub : List OptSpec) (positional : Except Exc Unit)
    (func : Process → ArgSpace → Run (Option Int)) (p : Process) (before after : List Given) : Process × Finished :=
  match parseCommandLine fresh top sub before after with
  | .error e => (p, ⟨[], uncaught e⟩)
  | .ok ns =>
    match positional with
    | .error e => (p, ⟨[], uncaught e⟩)
    | .ok () => mainParsed env desc text func p ns

/-- What a whole run of `xylem install` does to the machine: the final state, and the events (`Model/Install`). -/
structure Effect (σ : Type) where
  st : σ
  ev : List Event

/-- What the program `xylem install` does to the machine in state `s`. -/
def installEffect (env : StartEnv) (w : Surroundings σ) (desc : Desc) (fresh : Bool) (top sub : List OptSpec) (p : Process) (before after : List Given)
    (keys : List String) (s : σ) : Effect σ :=
  match reached env desc fresh top sub (requireKeys keys) p before after with
  | .error _ => ⟨s, []⟩
  | .ok r => ⟨(installRun env w keys r.1 r.2 s).st, (installRun env w keys r.1 r.2 s).ev⟩

/-- What the program `xylem update` does to the cached files. -/
def updateEffect (env : StartEnv) (w : Surroundings σ) (desc : Desc) (fresh : Bool) (top sub : List OptSpec) (p : Process) (before after : List Given) :
    List FsStep :=
  match reached env desc fresh top sub (.ok ()) p before after with
  | .error _ => []
  | .ok r => (updateRun w r.1 r.2).steps

/-- The program `xylem install`: the variables at its end, and how it ends, `commands/main.py:124-156`, `commands/install.py:53-77`. -/
def xylemInstall (env : StartEnv) (w : Surroundings σ) (desc : Desc) (text : Bool → Exc → List Char) (etext : String × ResErr → List Char)
    (itext : InstErr → List Char) (fresh : Bool) (top sub : List OptSpec) (p : Process) (before after : List Given) (keys : List String) (s : σ) :
    Process × Finished :=
  mainWith env desc text fresh top sub (requireKeys keys) (installFunc env w etext itext keys s) p before after

/-- The program `xylem update`, `commands/update.py:43-49`. -/
def xylemUpdate (env : StartEnv) (w : Surroundings σ) (desc : Desc) (text : Bool → Exc → List Char) (fresh : Bool) (top sub : List OptSpec)
    (p : Process) (before after : List Given) : Process × Finished :=
  mainWith env desc text fresh top sub (.ok ()) (updateFunc w) p before after

/-- The program `xylem resolve`, `commands/resolve.py:87-113`. -/
def xylemResolve (env : StartEnv) (w : Surroundings σ) (desc : Desc) (text : Bool → Exc → List Char) (etext : String × ResErr → List Char)
    (fresh : Bool) (top sub : List OptSpec) (p : Process) (before after : List Given) (keys : List String) : Process × Finished :=
  mainWith env desc text fresh top sub (requireKeys keys) (resolveFunc env w etext keys) p before after

end Verif
