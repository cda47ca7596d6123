import Verif.Model.CommandLine
import Verif.Model.Commands
/-!
# Model of the start of xylem: global switches, the effective config, `--print-config`, and messages

`commands/main.py:124-156` from the options of the command line to the call of the command, with the module level variables it changes.
-/
namespace Verif

/-- The environment of the process: environment variables `XYLEM_DEBUG`, `XYLEM_PDB` (set or not), `XYLEM_DIR`, `XYLEM_PREFIX`, the directory
of user configs, config files, and the library functions used for them. -/
structure StartEnv where
  debugVar : Bool
  pdbVar : Bool
  dirVar : Option String
  prefixVar : Option String
  home : String
  file : String → FileText
  loadYaml : String → Except Exc PVal
  dumpYaml : PVal → List Char
  expand : String → String
  ws : Char → Bool

/-- The module level variables: `_verbose`, `_debug` (`log_utils.py:28-29`), `_pdb` (`util.py:89`), whether `_ansi` holds escape sequences
(`terminal_color.py:30`), and `_config` (`config.py:147`). -/
structure Process where
  verbose : Bool
  debug : Bool
  pdb : Bool
  color : Bool
  config : Config

/-- The variables after the modules are imported, `log_utils.py:28-32, 60`, `util.py:89`, `config.py:147`, `terminal_color.py:94` (not on
Windows). -/
def Process.imported (env : StartEnv) (dflt : Config) : Process :=
  { verbose := false, debug := env.debugVar, pdb := false, color := true, config := dflt }

/-- `args.debug` and the like: the switch is on. -/
def switchOn (ns : ArgSpace) (dest : String) : Bool :=
  match dget ns dest with
  | some (.flag b) => b
  | _ => false

/-- `args.prefix` and `args.config_dir`: the text, or None. -/
def textArg (ns : ArgSpace) (dest : String) : Option String :=
  match dget ns dest with
  | some (.cmd (.one s)) => some s
  | _ => none

/-- The global arguments in the namespace. -/
def globalArgs (ns : ArgSpace) : GlobalArgs :=
  { configDir := textArg ns "config_dir", prefix_ := textArg ns "prefix", noUserConfig := switchOn ns "no_user_config" }

/-- `handle_global_arguments`, `arguments.py:99-112`, without its last line. -/
def handleSwitches (env : StartEnv) (ns : ArgSpace) (p : Process) : Process :=
  { p with
    debug := switchOn ns "debug" || env.debugVar
    pdb := switchOn ns "pdb" || env.pdbVar
    verbose := if switchOn ns "verbose" then true else p.verbose
    color := if switchOn ns "no_color" then false else p.color }

/-- The directory `process_config` chooses, `config.py:273-281, 283-291`: `user_sources` is looked at only if needed. -/
def chosenDir (c : Config) (a : GlobalArgs) (given user system : String) : Except Exc String :=
  if a.configDir.getD "" ≠ "" then .ok given
  else do
    let u ← readOpt c "user_sources"
    pure (if pyTruthy u then user else system)

/-- `if config.cache_dir is None: config.cache_dir = ..`, `config.py:272, 282`. -/
def fillDir (c : Config) (name : String) (dir : Except Exc String) : Except Exc Config := do
  let v ← readOpt c name
  if v.isNone then do
    let d ← dir
    writeOpt c name (.str d)
  else pure c

/-- A text as a value. -/
def textVal (t : List Char) : PVal := .str (String.ofList t)

/-- `config.os_override = (name, version)` and the features, `config.py:293-296`. Simplification: the pair is a list of two values here. -/
def storeOverride (c : Config) (o : List Char × Option (List Char) × Option (List (List Char))) : Except Exc Config := do
  let c ← writeOpt c "os_override" (.list [textVal o.1, (o.2.1.map textVal).getD .none])
  match o.2.2 with
  | none => pure c
  | some fs => writeOpt c "os_options/features" (.list (fs.map textVal))

/-- The last part of `process_config`, `config.py:292-296`. Something that is not a text cannot be searched for `'&'`. -/
def processOverride (ws : Char → Bool) (c : Config) : Except Exc Config := do
  let v ← readOpt c "os_override"
  match v with
  | .none => pure c
  | .str s => storeOverride c (parseOsOverride ws s.toList)
  | _ => .error .typeError

/-- `process_config`, `config.py:260-296`, on a config dict. -/
def processConfigDict (env : StartEnv) (a : GlobalArgs) (c : Config) : Except Exc Config := do
  let c ← fillDir c "cache_dir" (chosenDir c a (userCacheDir (a.configDir.getD "")) (userCacheDir (userConfigDir env.home "xylem"))
    (systemCacheDir (a.prefix_.getD "/") "xylem"))
  let c ← fillDir c "sources_dir" (chosenDir c a (sourcesDirOf (a.configDir.getD "")) (sourcesDirOf (userConfigDir env.home "xylem"))
    (sourcesDirOf (systemConfigDir (a.prefix_.getD "/") "xylem")))
  processOverride env.ws c

/-- The config dict as the YAML library sees it (`dump_yaml`, `yaml_utils.py:49-82`, knows config dicts). -/
def Config.items (c : Config) : Dict PKey PVal := c.map fun kv => (.str kv.1, kv.2.toVal)

/-- `handle_global_config_arguments_post`, `config_utils.py:1024-1026`. -/
def printConfig (env : StartEnv) (p : Process) (ns : ArgSpace) (c : Config) : Run Unit :=
  if switchOn ns "print_config" then (info p.color (env.dumpYaml (.dict c.items))).bind fun _ => Run.lift (.error (.systemExit 0))
  else pure ()

/-- The effective config, `load_config` and `process_config` in `handle_config_arguments`, `config.py:227-229`, after the last line of
`handle_global_arguments`, `arguments.py:112`. The file name of the description is `config.yaml`, `config.py:84`. -/
def effectiveConfig (env : StartEnv) (desc : Desc) (ns : ArgSpace) : Except Exc Config := do
  let a := handleGlobalConfigArguments env.expand env.dirVar env.prefixVar (globalArgs ns)
  let c ← loadConfig env.loadYaml env.expand env.file env.home "xylem" "config.yaml" a (argsOf ns) desc
  processConfigDict env a c

/-- `handle_config_arguments`, `config.py:218-231`: the config that is set. -/
def handleConfigArguments (env : StartEnv) (desc : Desc) (p : Process) (ns : ArgSpace) : Run Config := do
  let c ← Run.lift (effectiveConfig env desc ns)
  printConfig env p ns c
  pure c

/-- The rest of `main` once the command line is parsed, `commands/main.py:136-156`: the variables and the finished process. `func` is the command,
which sees the variables and its arguments; `text` is as in `mainTry`. -/
def mainParsed (env : StartEnv) (desc : Desc) (text : Bool → Exc → List Char) (func : Process → ArgSpace → Run (Option Int)) (p : Process)
    (ns : ArgSpace) : Process × Finished :=
  let p := handleSwitches env ns p
  match handleConfigArguments env desc p ns with
  | ⟨lines, .error e⟩ => (p, ⟨lines, uncaught e⟩)
  | ⟨lines, .ok c⟩ =>
    let p := { p with config := c }
    let r := mainTry p.color p.debug text (func p ns)
    (p, ⟨lines ++ r.lines, r.ending⟩)

/-- `main`, `commands/main.py:124-156`, for a command whose parser has the options `sub`; the top level parser has the options `top`. What
argparse prints when it ends the program is left out. -/
def mainProgram (env : StartEnv) (desc : Desc) (text : Bool → Exc → List Char) (fresh : Bool) (top sub : List OptSpec)
    (func : Process → ArgSpace → Run (Option Int)) (p : Process) (before after : List Given) : Process × Finished :=
  match parseCommandLine fresh top sub before after with
  | .error e => (p, ⟨[], uncaught e⟩)
  | .ok ns => mainParsed env desc text func p ns

/-! ## Messages -/

/-- The functions of `log_utils.py` that print messages. -/
inductive LogFn
  | debug | info | infoV | warning | error
  deriving DecidableEq

/-- `debug`, `info`, `info_v`, `warning`, `error` (without `exit`), `log_utils.py:63-134`, with the default file. -/
def logCall (p : Process) (f : LogFn) (msg : List Char) : List Line :=
  match f with
  | .debug => if p.debug then [.err (ansi p.color "greenf" ++ msg ++ ansi p.color "reset")] else []
  | .info => [.out (msg ++ ansi p.color "reset")]
  | .infoV => if p.verbose then [.err (msg ++ ansi p.color "reset")] else []
  | .warning => [.err (ansi p.color "yellowf" ++ msg ++ ansi p.color "reset")]
  | .error => [.err (ansi p.color "redf" ++ ansi p.color "boldon" ++ msg ++ ansi p.color "reset")]

/-- Changing the variables: `enable_debug`, `enable_verbose`, `log_utils.py:35-50`, `enable_ANSI_colors`, `disable_ANSI_colors`,
`terminal_color.py:39-91, 94-103`. -/
inductive LogSwitch
  | enableDebug (b : Bool)
  | enableVerbose (b : Bool)
  | colors (b : Bool)

/-- Their effect. -/
def LogSwitch.apply (p : Process) : LogSwitch → Process
  | .enableDebug b => { p with debug := b }
  | .enableVerbose b => { p with verbose := b }
  | .colors b => { p with color := b }

end Verif
