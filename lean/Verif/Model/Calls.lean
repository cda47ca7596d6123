import Verif.Model.Program
/-!
# Calls of the API functions with their optional arguments

`resolve`, `install`, `lookup` and `update` take a config, contexts and (the first two) a database as optional arguments (`resolve.py:44-61`,
`install.py:52-75`, `lookup.py:24-43`, `update.py:61-86`). What is printed is left out here.
-/
namespace Verif
variable {σ : Type}

/-- A `SourcesContext`, `sources/impl.py:206-218`. -/
structure SourcesCtx where
  paths : SourcesPaths
  specs : List Spec

/-- An `InstallerContext` after `setup_installers`, `installers/impl.py:233-270`: the installers, and what lookups ask it for (see `lookupCtxFor`). -/
structure FullCtx (σ : Type) where
  setup : InstallerSetup σ
  lookup : LookupCtx

/-- What is passed for an optional argument: nothing (None), an object of the class meant, something else (which is true as a condition and has none of the
methods of that class). -/
inductive Passed (α : Type)
  | missing
  | object (a : α)
  | wrong

/-- `InstallerContext(config)`, `installers/impl.py:254-270`. -/
def newInstallerContext (env : StartEnv) (w : Surroundings σ) (c : Config) : Except Exc (FullCtx σ) := do
  let s ← contextFor env w c
  let k ← lookupCtxFor env w c
  pure ⟨s, k⟩

/-- `SourcesContext(config)`, `sources/impl.py:208-213`. -/
def newSourcesContext (w : Surroundings σ) (c : Config) : Except Exc SourcesCtx := do
  let p ← pathsFor w c
  let s ← specsFor w c
  pure ⟨p, s⟩

/-- `ensure_installer_context`, `ensure_sources_context`, `installers/impl.py:433-449`, `sources/impl.py:244-260`; `new` makes a new one. -/
def ensureContext {α : Type} (new : Except Exc α) : Passed α → Except Exc α
  | .missing => new
  | .object a => .ok a
  | .wrong => .error .valueError

/-- The text of the `ValueError`, `installers/impl.py:448-449`, `sources/impl.py:259-260`: `what` is `installer` or `sources`; the arguments are the type
names of the context that was passed and of the config. -/
def wrongContextText (what : String) (_contextType configType : List Char) : List Char :=
  "invalid ".toList ++ what.toList ++ " context of type '".toList ++ configType ++ "'".toList

/-- `RulesDatabase(sources_context)` and `load_from_cache()`, `resolve.py:59-60`, `lookup.py:35-36`. -/
def loadDatabase (w : Surroundings σ) (s : SourcesCtx) : Except Exc (List Source) := do
  let sources ← openDatabase (cacheEnvFor w s.paths) s.specs (w.sourcesIn s.paths.sourcesDir) s.paths.sourcesDir
  let r := dbLoadFromCache (cacheEnvFor w s.paths) w.files true sources
  match r.raised with
  | some e => .error e
  | none => pure r.sources

/-- The database used, `resolve.py:57-61`; an object that is no database has no method `lookup`. -/
def callDatabase (w : Surroundings σ) (c : Config) (db : Passed (List Source)) (sc : Passed SourcesCtx) (k : LookupCtx) : Except Exc Database :=
  match db with
  | .object l => .ok (databaseOf w.uni l k)
  | .wrong => .ok { lookup := fun _ => .error .attributeError, keys := .error .attributeError }
  | .missing => do
    let s ← ensureContext (newSourcesContext w c) sc
    let l ← loadDatabase w s
    pure (databaseOf w.uni l k)

/-- `resolve`, `resolve.py:44-155`; `global_` is the global config. -/
def resolveCall (env : StartEnv) (w : Surroundings σ) (desc : Desc) (global_ : Config) (cfg : ConfigArg) (db : Passed (List Source))
    (sc : Passed SourcesCtx) (ic : Passed (FullCtx σ)) (keys : List String) (all : Bool) : Except Exc Resolved := do
  let c ← ensureConfig env.expand desc global_ cfg
  let i ← ensureContext (newInstallerContext env w c) ic
  let d ← callDatabase w c db sc i.lookup
  let f ← installFromOf c
  resolve i.setup.context d f keys all

/-- What `install` makes of its arguments, `install.py:63-73`, `resolve.py:54-84`. -/
def installCallInputs (env : StartEnv) (w : Surroundings σ) (desc : Desc) (global_ : Config) (cfg : ConfigArg) (db : Passed (List Source))
    (sc : Passed SourcesCtx) (ic : Passed (FullCtx σ)) : Except Exc (InstallInputs σ) := do
  let c ← ensureConfig env.expand desc global_ cfg
  let i ← ensureContext (newInstallerContext env w c) ic
  let d ← callDatabase w c db sc i.lookup
  let f ← installFromOf c
  pure ⟨i.setup.context, d, f⟩

/-- `install`, `install.py:52-111`. -/
def installCall (env : StartEnv) (w : Surroundings σ) (desc : Desc) (global_ : Config) (cfg : ConfigArg) (db : Passed (List Source))
    (sc : Passed SourcesCtx) (ic : Passed (FullCtx σ)) (o : InstallOpts) (keys : List String) (all : Bool) : Prog σ InstallReport := fun s =>
  match installCallInputs env w desc global_ cfg db sc ic with
  | .error e => ⟨.error e, s, []⟩
  | .ok i => install w.machine i.ctx i.db i.installFrom o keys all s

/-- `config` in `lookup` and `update`, `lookup.py:30-31`, `update.py:76-77`: None is replaced; everything else is used as it is. A plain dict, like any other
object, has no attributes for the config options: AttributeError as soon as one is read. -/
def rawConfig (global_ : Config) : ConfigArg → Except Exc Config
  | .none => .ok global_
  | .configDict c => .ok c
  | .dict _ => .error .attributeError
  | .other => .error .attributeError

/-- `context or Context(config)`, `lookup.py:33-34`, `update.py:78`: an object of another class is taken as it is; `none` then. -/
def orContext {α : Type} (new : Except Exc α) : Passed α → Except Exc (Option α)
  | .missing => new.map some
  | .object a => .ok (some a)
  | .wrong => .ok none

/-- Using an object that may be of another class. -/
def usable {α : Type} : Option α → Except Exc α
  | some a => .ok a
  | none => .error .attributeError

/-- `lookup`, `lookup.py:24-43`. Simplification: an installer context of a wrong class is noticed also if there is no source. -/
def lookupCall (env : StartEnv) (w : Surroundings σ) (global_ : Config) (cfg : ConfigArg) (sc : Passed SourcesCtx) (ic : Passed (FullCtx σ))
    (key : String) (compact : Bool) : Except Exc PVal := do
  let s ← orContext (rawConfig global_ cfg >>= newSourcesContext w) sc
  let i ← orContext (rawConfig global_ cfg >>= newInstallerContext env w) ic
  let s ← usable s
  let l ← loadDatabase w s
  let i ← usable i
  let d ← dbLookup w.uni l key i.lookup
  if compact then compactInstallerDict d i.lookup.dflt else .error .unboundLocalError

/-- The sources context `update` uses, `update.py:76-79`. -/
def updateContext (w : Surroundings σ) (global_ : Config) (cfg : ConfigArg) (sc : Passed SourcesCtx) : Except Exc SourcesCtx :=
  orContext (rawConfig global_ cfg >>= newSourcesContext w) sc >>= usable

/-- `update`, `update.py:61-86`. -/
def updateCall (w : Surroundings σ) (global_ : Config) (cfg : ConfigArg) (sc : Passed SourcesCtx) (dryRun : Bool) : ApiUpdate :=
  match updateContext w global_ cfg sc with
  | .error e => ⟨[], some e⟩
  | .ok s => updateApi dryRun (cacheEnvFor w s.paths) s.specs (w.dirAt s.paths.cacheDir) (w.sourcesIn s.paths.sourcesDir) s.paths.sourcesDir w.outcome

end Verif
