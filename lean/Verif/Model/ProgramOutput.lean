import Verif.Model.LookupProgram
import Verif.Model.Reports
/-!
# The commands with everything they print

`Model/Program` and `Model/LookupProgram` leave out what is printed while plugins are loaded, the installer context is set up, the database is opened
and keys are resolved. Here are the same programs with these messages (`plugin_utils.py:158-184`, `installers/impl.py:283-288, 406-431`,
`sources/impl.py:63-144`, `sources/database.py:202-210`, `resolve.py:73-133`, `update.py:61-86`), in the order they are printed.

What is printed on stderr while installing (`install.py:254, 268, 296-298`, `package_manager_installer.py:39-126`) is in `Model/InstallOutput`. Not modelled:
`debug` lines. Forming a message is taken to succeed; the texts of exceptions, names of entry points and the warnings plugins print are
parameters.
-/
namespace Verif
variable {σ : Type}

/-- Texts that are not modelled: `str` renders values, `yaml` what is said about a file that is not YAML, `exc` exceptions; for the n-th entry point of a
kind of plugin its name, and what is wrong with its definition or its plugin; a python list of keys made from a set (`keys`); the warnings printed when the
options of an installer are set and when an installer resolves a rule (for the base classes see `setOptionsSaying` and `parseRuleSaying`). -/
structure Texts where
  str : PVal → List Char
  yaml : String → List Char
  exc : Exc → List Char
  entryName : String → Nat → List Char
  badDefinition : String → Nat → List Char
  badPlugin : String → Nat → List Char
  keys : List PKey → List Char
  installerWarnings : String → PVal → List (List Char)
  ruleWarnings : String → Rule → List (List Char)

/-- How messages are printed: with colours or not, verbose messages or not (`log_utils.py:27-52`, `terminal_color.py`). -/
structure Console extends Texts where
  on : Bool
  verbose : Bool

/-- `info_v(msg)`, `log_utils.py:125-134`: to stderr. -/
def infoV (c : Console) (msg : List Char) : Run Unit := if c.verbose then ⟨[.err (msg ++ ansi c.on "reset")], .ok ()⟩ else pure ()

/-- Several warnings. -/
def warnings (c : Console) : List (List Char) → Run Unit
  | [] => pure ()
  | m :: t => do
    warning c.on m
    warnings c t

/-! ## Options and rules -/

/-- `set(value.keys()) - set(options.keys())`, `installer_base.py:132, 150`, `os_base.py:96`. -/
def unknownKeys (value : Dict PKey PVal) (options : Config) : List PKey := (value.map Prod.fst).filter fun k => !(options.any fun o => k == .str o.1)

/-- The warning about unknown options of a plugin (`what`: `installer` or `os plugin`), `installer_base.py:133-137`, `os_base.py:97-101`. -/
def warnOptions (c : Console) (what name : String) (unknown : List PKey) (options : Config) : Run Unit :=
  if unknown = [] then pure ()
  else warning c.on ("ignoring the following unknown options for ".toList ++ what.toList ++ " '".toList ++ name.toList ++ "': ".toList ++ c.keys unknown ++
    " -- known options are: ".toList ++ c.keys (options.map fun o => .str o.1))

/-- The keys of a value that is a dict. -/
def dictOf : PVal → Dict PKey PVal
  | .dict d => d
  | _ => []

/-- The `options` setter, `installer_base.py:124-137`, `os_base.py:88-101`. -/
def setOptionsSaying (c : Console) (what name : String) (expand : String → String) (desc : Desc) (value : PVal) : Run Config := do
  let o ← Run.lift (setOptions expand desc value)
  warnOptions c what name (unknownKeys (dictOf value) o) o
  pure o

/-- The warning about unknown keys of a rule, `installer_base.py:151-156`. -/
def warnRule (c : Console) (name : String) (unknown : List PKey) (packages : PVal) : Run Unit :=
  if unknown = [] then pure ()
  else warning c.on ("ignoring the following unknown installer rule keys for installer '".toList ++ name.toList ++
    "' while parsing installer rule with packages ".toList ++ c.str packages ++ ": ".toList ++ c.keys unknown)

/-- `_parse_installer_rule`, `installer_base.py:142-158`. Simplification: `parsed_rule.packages` exists (rule descriptions have the item `packages`). -/
def parseRuleSaying (c : Console) (name : String) (expand : String → String) (desc : Desc) (rule : Rule) : Run Config := do
  let o ← Run.lift (parseInstallerRule expand desc rule)
  warnRule c name (unknownKeys rule.data o) ((Config.items o |> fun d => dget d (.str "packages")).getD .none)
  pure o

/-! ## Plugins -/

/-- What is printed about the n-th entry point, `plugin_utils.py:158-160, 165-166, 175-176, 180-181, 183-184`. -/
def sayLoad (c : Console) (kind group : String) (n : Nat) : LoadReport → Run Unit
  | .invalidDefinition => error c.on ("Skipping ".toList ++ kind.toList ++ " plugin. Failed to load from '".toList ++ group.toList ++
      "' entry point with name '".toList ++ c.entryName kind n ++ "':\n".toList ++ c.badDefinition kind n)
  | .disabled name => infoV c ("Skipping disabled ".toList ++ kind.toList ++ " plugin '".toList ++ c.str name ++ "'.".toList)
  | .invalidPlugin name => error c.on ("Skipping ".toList ++ kind.toList ++ " plugin '".toList ++ c.str name ++ "'. Plugin is invalid:\n".toList ++
      c.badPlugin kind n)
  | .duplicate name _ => warning c.on ("Ignoring ".toList ++ kind.toList ++ " plugin '".toList ++ c.str name ++ "' with duplicate name '".toList ++
      c.str name ++ "'".toList)
  | .loaded name obj => infoV c ("Loaded ".toList ++ kind.toList ++ " plugin '".toList ++ c.str name ++ "' with ".toList ++ kind.toList ++
      " name '".toList ++ obj.toList ++ "'.".toList)

/-- What is printed about reports, the first of them being about the n-th entry point. -/
def sayLoads (c : Console) (kind group : String) : Nat → List LoadReport → Run Unit
  | _, [] => pure ()
  | n, r :: t => do
    sayLoad c kind group n r
    sayLoads c kind group (n + 1) t

variable {α : Type}

/-- The loop of `load_plugins`, `plugin_utils.py:152-186`: after each entry point its report is printed. -/
def loadLoopSaying (c : Console) (kind group : String) (uni : Char → Bool) (disabled : List PVal) : LoadState α → List (EntryPoint α) → Run (LoadState α)
  | s, [] => pure s
  | s, ep :: t => do
    let s' ← Run.lift (loadStep uni disabled s ep)
    sayLoads c kind group s.reports.length (s'.reports.drop s.reports.length)
    loadLoopSaying c kind group uni disabled s' t

/-- `load_plugins`, `plugin_utils.py:131-187`. -/
def loadSaying (c : Console) (kind group : String) (uni : Char → Bool) (disabled : List PVal) (eps : List (EntryPoint α)) : Run (LoadState α) :=
  loadLoopSaying c kind group uni disabled ⟨[], []⟩ eps

/-! ## The installer context -/

/-- `"%s:%s" % os_tuple`, `installers/impl.py:310-317`. -/
def osText (t : OsTuple) : List Char := t.1.toList ++ ":".toList ++ t.2.toList

/-- The version of an override in a message: `%s` of None. -/
def versionText : Option String → List Char
  | some v => v.toList
  | none => "None".toList

/-- `info_v("detected OS version [%s]" % self.get_os_string())`, `installers/impl.py:287-288`: only if no version was given. -/
def sayVersion (c : Console) (version : Option String) (os : CurrentOs) : Run Unit :=
  match version with
  | some _ => pure ()
  | none => do
    let t ← Run.lift os.getTuple
    infoV c ("detected OS version [".toList ++ osText t ++ "]".toList)

/-- `setup_os` up to the options, `installers/impl.py:280-288`. -/
def chooseOsSaying (c : Console) (plugins : List OsPlugin) : OverrideVal → Run CurrentOs
  | .none => do
    let os ← Run.lift (chooseOs plugins .none)
    let t ← Run.lift os.getTuple
    infoV c ("detected OS [".toList ++ osText t ++ "]".toList)
    pure os
  | .text s => Run.lift (chooseOs plugins (.text s))
  | .pair name version => do
    infoV c ("overriding OS to [".toList ++ name.toList ++ ":".toList ++ versionText version ++ "]".toList)
    let os ← Run.lift (chooseOs plugins (.pair name version))
    sayVersion c version os
    pure os

/-- `setup_os`, `installers/impl.py:272-290`. -/
def setupOsSaying (c : Console) (expand : String → String) (plugins : List OsPlugin) (override : OverrideVal) (osOptions : PVal) : Run OsSetup := do
  let os ← chooseOsSaying c plugins override
  let o ← setOptionsSaying c "os plugin" os.plugin.name expand os.plugin.optionsDesc osOptions
  pure ⟨os, o⟩

/-- Setting the options of the installers, `installers/impl.py:400-401`. -/
def configureSaying (c : Console) (opts : Dict PKey PVal) : List (InstallerPlugin σ) → Run (List (Installer σ))
  | [] => pure []
  | p :: t => do
    let i ← Run.lift (configureOne opts p)
    warnings c (c.installerWarnings p.name (optionsFor opts p.name))
    let l ← configureSaying c opts t
    pure (i :: l)

/-- Where the names of the core installers are from, `installers/impl.py:406, 411`. -/
def coreOrigin (s : Settings) : List Char := if s.coreInstallers.isSome then "config".toList else "os plugin".toList

/-- The message about the core installers, `installers/impl.py:406-407, 411-412`. -/
def sayCore (c : Console) (s : Settings) (names : List String) : Run Unit :=
  infoV c ("setting up core installers from ".toList ++ coreOrigin s ++ ": '".toList ++ pyJoin ", ".toList (names.map String.toList) ++ "'".toList)

/-- The messages about core installers without plugin, `installers/impl.py:416-418`. -/
def sayNotFound (c : Console) : List String → Run Unit
  | [] => pure ()
  | n :: t => do
    error c.on ("ignoring core installer '".toList ++ n.toList ++ "'; according plugin was not found".toList)
    sayNotFound c t

/-- `setup_installers`, `installers/impl.py:386-431`. -/
def setupInstallersSaying (c : Console) (s : Settings) (os : OsSetup) (plugins : List (InstallerPlugin σ)) : Run (InstallerSetup σ) := do
  let tuple ← Run.lift os.os.getTuple
  let insts ← configureSaying c s.installerOptions plugins
  let names ← Run.lift (coreInstallerNames s os tuple.2)
  sayCore c s names
  sayNotFound c (names.foldl (coreStep insts) ([], [])).2
  let additional ← Run.lift (additionalInstallers s.useAdditional ((names.foldl (coreStep insts) ([], [])).1.map Prod.snd) tuple insts)
  infoV c ("Using additional installers: '".toList ++ pyJoin ", ".toList (additional.map fun i => i.1.name.toList) ++ "'".toList)
  pure ⟨insts, (names.foldl (coreStep insts) ([], [])).1, additional, (names.foldl (coreStep insts) ([], [])).2, tuple⟩

/-- `InstallerContext(config)`, `installers/impl.py:254-290, 34-39`, `os_support/impl.py:26-34`: the installers and the os. -/
def contextSaying (c : Console) (env : StartEnv) (w : Surroundings σ) (cfg : Config) : Run (InstallerSetup σ × OsSetup) := do
  let s ← Run.lift (effectiveSettings cfg)
  let oss ← loadSaying c "os" "xylem.os" w.uni s.disabledOs w.osEntries
  let os ← setupOsSaying c env.expand (oss.loaded.map Prod.snd) s.override s.osOptions
  let insts ← loadSaying c "installer" "xylem.installers" w.uni s.disabledInstallers w.installerEntries
  let r ← setupInstallersSaying c s os (insts.loaded.map Prod.snd)
  pure (r, os)

/-! ## The database -/

/-- `load_spec_plugins(config.disabled_plugins.spec)`, `sources/impl.py:212-213`, `specs/impl.py:29-37`. -/
def specsSaying (c : Console) (w : Surroundings σ) (cfg : Config) : Run (List Spec) := do
  let disabled ← Run.lift (readOpt cfg "disabled_plugins/spec" >>= listValue)
  let l ← loadSaying c "spec" "xylem.specs" w.uni disabled w.specEntries
  pure (l.loaded.map Prod.snd)

/-- `RulesDatabase(SourcesContext(config))` and `load_from_cache()`, `resolve.py:57-60`, `lookup.py:30-34`: the loaded sources (`print_info` is off). -/
def loadedSaying (c : Console) (w : Surroundings σ) (cfg : Config) : Run (List Source) := do
  let p ← Run.lift (pathsFor w cfg)
  let specs ← specsSaying c w cfg
  let sources ← openSaying c.on c.verbose c.yaml w.defaultSources w.defaultCache (cacheEnvFor w p) specs (w.sourcesIn p.sourcesDir) p
  Run.lift (loadAll w p sources)
where
  /-- `load_from_cache`, `database.py:245-271`. -/
  loadAll (w : Surroundings σ) (p : SourcesPaths) (sources : List Source) : Except Exc (List Source) :=
    match (dbLoadFromCache (cacheEnvFor w p) w.files true sources).raised with
    | some e => .error e
    | none => pure (dbLoadFromCache (cacheEnvFor w p) w.files true sources).sources

/-! ## `resolve` -/

/-- The message about a key that is to be installed from two installers, `resolve.py:77-79`. -/
def sayTwice (c : Console) (inst : String) (m : Dict String String) (k : String) : Run Unit :=
  match dget m k with
  | some other => error c.on ("ignoring 'install from ".toList ++ inst.toList ++ "' for key '".toList ++ k.toList ++
      "'; already configured to install from '".toList ++ other.toList ++ "'".toList)
  | none => pure ()

/-- The inner loop, `resolve.py:75-81`. -/
def installFromKeysSaying (c : Console) (inst : String) : Dict String String → List String → Run (Dict String String)
  | m, [] => pure m
  | m, k :: t => do
    sayTwice c inst m k
    installFromKeysSaying c inst (installFromKey inst m k) t

/-- The outer loop, `resolve.py:74-81`. -/
def installFromSaying (c : Console) : Dict String String → Dict String (List String) → Run (Dict String String)
  | m, [] => pure m
  | m, ik :: t => do
    let m' ← installFromKeysSaying c ik.1 m ik.2
    installFromSaying c m' t

/-- `info_v("found rule for key '{}' for {} installer '{}'")`, `resolve.py:114-115, 122-123, 130-131`. -/
def sayFound (c : Console) (key : String) (how : List Char) (inst : String) : Run Unit :=
  infoV c ("found rule for key '".toList ++ key.toList ++ "' for ".toList ++ how ++ " installer '".toList ++ inst.toList ++ "'".toList)

/-- The message about one additional installer, `resolve.py:129-131`. -/
def sayIfFound (c : Console) (key : String) (d : InstDict) (inst : String) : Run Unit :=
  if dhas d inst then sayFound c key "additional".toList inst else pure ()

/-- The loop over the additional installers: a message for every one with a rule, `resolve.py:128-133`. -/
def sayAdditional (c : Console) (key : String) (d : InstDict) : List (Installer σ) → Run Unit
  | [] => pure ()
  | i :: t => do
    sayIfFound c key d i.name
    sayAdditional c key d t

/-- The messages of step 4.2, `resolve.py:100-133`. -/
def sayChoice (c : Console) (ic : InstallerCtx σ) (ifm : Dict String String) (key : String) (d : InstDict) : Run Unit :=
  match dget ifm key with
  | some inst =>
    match lookupInstaller ic inst with
    | none => pure ()
    | some _ => if dhas d inst then sayFound c key "explicitly requested".toList inst else pure ()
  | none =>
    match coreLoop d ic.core with
    | some r => sayFound c key "core".toList r.1.name
    | none => sayAdditional c key d ic.additional

/-- Steps 4.2 and 4.3, `resolve.py:100-154`: the installer parses the rule, and may print warnings. -/
def resolveFoundSaying (c : Console) (ic : InstallerCtx σ) (ifm : Dict String String) (key : String) (d : InstDict) : Run KeyOutcome := do
  sayChoice c ic ifm key d
  match chooseInstaller ic ifm key d with
  | .error err => pure (.error err)
  | .ok r => do
    warnings c (c.ruleWarnings r.1.name r.2)
    Run.lift (resolveWith r.1 r.2)

/-- Step 4, `resolve.py:86-154`. -/
def resolveKeySaying (c : Console) (ic : InstallerCtx σ) (lookup : String → Except Exc InstDict) (ifm : Dict String String) (key : String) :
    Run KeyOutcome :=
  match lookup key with
  | .ok (x :: d) => resolveFoundSaying c ic ifm key (x :: d)
  | _ => Run.lift (resolveKey ic lookup ifm key)

/-- The next accumulated results and errors, `resolve.py:145-156`. -/
def Resolved.add (acc : Resolved) (key : String) : KeyOutcome → Resolved
  | .ok r => { acc with results := acc.results ++ [(key, r)] }
  | .error err => { acc with errors := acc.errors ++ [(key, err)] }

/-- The loop over the keys, `resolve.py:83-156`. -/
def resolveLoopSaying (c : Console) (ic : InstallerCtx σ) (lookup : String → Except Exc InstDict) (ifm : Dict String String) :
    Resolved → List String → Run Resolved
  | acc, [] => pure acc
  | acc, key :: t => do
    let o ← resolveKeySaying c ic lookup ifm key
    resolveLoopSaying c ic lookup ifm (acc.add key o) t

/-- `resolve`, `resolve.py:43-156`. -/
def resolveSaying (c : Console) (ic : InstallerCtx σ) (db : Database) (installFrom : Dict String (List String)) (keys : List String) (all : Bool) :
    Run Resolved := do
  let ks ← Run.lift (lookupKeys db keys all)
  let ifm ← installFromSaying c [] installFrom
  resolveLoopSaying c ic db.lookup ifm ⟨[], []⟩ ks

/-! ## The commands -/

/-- The console of a process, `log_utils.py:27-52`. -/
def Process.console (p : Process) (t : Texts) : Console := { t with on := p.color, verbose := p.verbose }

/-- The database and the entries of `install_from` (see `databaseFor`, `installFromOf`). -/
def resolveInputsSaying (c : Console) (env : StartEnv) (w : Surroundings σ) (cfg : Config) : Run (Database × Dict String (List String)) := do
  let l ← loadedSaying c w cfg
  let k ← Run.lift (lookupCtxFor env w cfg)
  let f ← Run.lift (installFromOf cfg)
  pure (databaseOf w.uni l k, f)

/-- `main` of `commands/resolve.py:87-113`. -/
def resolveFuncSaying (t : Texts) (env : StartEnv) (w : Surroundings σ) (text : String × ResErr → List Char) (keys : List String) (p : Process)
    (ns : ArgSpace) : Run (Option Int) :=
  (interruptible p.color (do
    let x ← contextSaying (p.console t) env w p.config
    let i ← resolveInputsSaying (p.console t) env w p.config
    let r ← resolveSaying (p.console t) x.1.context i.1 i.2 keys (resolveArgsOf ns keys).all
    printResolved p.color text x.2.os.plugin.defaultInstaller (resolveArgsOf ns keys).showDefault r)).returnsNone

/-- `main` of `commands/install.py:53-77`, `install.py:64-71`. The rest of `install` (`Model/Install`) has its messages as events; it resolves the keys
again here, which is without effect. -/
def installFuncSaying (t : Texts) (env : StartEnv) (w : Surroundings σ) (text : String × ResErr → List Char) (itext : InstErr → List Char)
    (keys : List String) (s : σ) (p : Process) (ns : ArgSpace) : Run (Option Int) :=
  (interruptible p.color (do
    let x ← contextSaying (p.console t) env w p.config
    let i ← resolveInputsSaying (p.console t) env w p.config
    let _ ← resolveSaying (p.console t) x.1.context i.1 i.2 keys (installArgsOf ns keys).all
    let r ← Run.said p.color w.machine.ansi
      (install w.machine x.1.context i.1 i.2 (installArgsOf ns keys).opts keys (installArgsOf ns keys).all s)
    printReport p.color text itext r)).returnsNone

/-- `main` of `commands/update.py:43-49`, `update.py:76-86`. -/
def updateFuncSaying (t : Texts) (w : Surroundings σ) (p : Process) (_ns : ArgSpace) : Run (Option Int) :=
  (interruptible p.color (do
    let paths ← Run.lift (pathsFor w p.config)
    let specs ← specsSaying (p.console t) w p.config
    updateSaying p.color p.verbose t.yaml t.str t.exc w.defaultSources w.defaultCache (cacheEnvFor w paths) specs (w.dirAt paths.cacheDir)
      (w.sourcesIn paths.sourcesDir) paths w.outcome)).returnsNone

/-- `lookup(key, compact=True, config=config, installer_context=ic)`, `lookup.py:24-43`: the database is opened for every key. -/
def lookupSaying (c : Console) (env : StartEnv) (w : Surroundings σ) (cfg : Config) (key : String) : Run PVal := do
  let l ← loadedSaying c w cfg
  let k ← Run.lift (lookupCtxFor env w cfg)
  let d ← Run.lift (dbLookup w.uni l key k)
  Run.lift (compactInstallerDict d k.dflt)

/-- The loop of `commands/lookup.py:47-54`. -/
def lookupLoopSaying (c : Console) (dump : PVal → Except Exc (List Char)) (lookup : String → Run PVal) (osString : Except Exc (List Char)) :
    List String → Run Unit
  | [] => pure ()
  | key :: t => do
    let r ← lookup key
    lookupLoop c.on dump (fun _ => .ok r) osString [key]
    lookupLoopSaying c dump lookup osString t

/-- `main` of `commands/lookup.py:42-58`. -/
def lookupFuncSaying (t : Texts) (env : StartEnv) (w : Surroundings σ) (dump : PVal → Except Exc (List Char)) (keys : List String) (p : Process)
    (_ns : ArgSpace) : Run (Option Int) :=
  (interruptible p.color (do
    let _ ← contextSaying (p.console t) env w p.config
    lookupLoopSaying (p.console t) dump (lookupSaying (p.console t) env w p.config) (osStringFor env w p.config) keys)).returnsNone

/-! ## The programs, `commands/main.py:124-156` -/

/-- The program `xylem resolve` with everything it prints. -/
def xylemResolveSaying (t : Texts) (env : StartEnv) (w : Surroundings σ) (desc : Desc) (text : Bool → Exc → List Char)
    (etext : String × ResErr → List Char) (fresh : Bool) (top sub : List OptSpec) (p : Process) (before after : List Given) (keys : List String) :
    Process × Finished :=
  mainWith env desc text fresh top sub (requireKeys keys) (resolveFuncSaying t env w etext keys) p before after

/-- The program `xylem install` with everything it prints. -/
def xylemInstallSaying (t : Texts) (env : StartEnv) (w : Surroundings σ) (desc : Desc) (text : Bool → Exc → List Char)
    (etext : String × ResErr → List Char) (itext : InstErr → List Char) (fresh : Bool) (top sub : List OptSpec) (p : Process)
    (before after : List Given) (keys : List String) (s : σ) : Process × Finished :=
  mainWith env desc text fresh top sub (requireKeys keys) (installFuncSaying t env w etext itext keys s) p before after

/-- The program `xylem lookup` with everything it prints. -/
def xylemLookupSaying (t : Texts) (env : StartEnv) (w : Surroundings σ) (desc : Desc) (text : Bool → Exc → List Char)
    (dump : PVal → Except Exc (List Char)) (fresh : Bool) (top sub : List OptSpec) (p : Process) (before after : List Given) (keys : List String) :
    Process × Finished :=
  mainWith env desc text fresh top sub (requireKeys keys) (lookupFuncSaying t env w dump keys) p before after

/-- The program `xylem update` with everything it prints. -/
def xylemUpdateSaying (t : Texts) (env : StartEnv) (w : Surroundings σ) (desc : Desc) (text : Bool → Exc → List Char) (fresh : Bool)
    (top sub : List OptSpec) (p : Process) (before after : List Given) : Process × Finished :=
  mainWith env desc text fresh top sub (.ok ()) (updateFuncSaying t w) p before after

end Verif
