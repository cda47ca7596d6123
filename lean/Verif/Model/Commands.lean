import Verif.Model.Install
import Verif.Model.Sources
import Verif.Model.Setup
/-! # Model of `xylem/commands/*.py`, `xylem/log_utils.py` and `indent` of `xylem/util.py`

Not modelled: argparse (whatever it does before a command runs is the parameter `setup`), the texts of exceptions (parameter `text`),
python tracebacks, the debugger, and messages printed by the API functions themselves. -/
namespace Verif

/-! ## Console output -/

/-- One thing written to the console: a line printed to stdout, a line printed to stderr, or text written to stdout without newline. -/
inductive Line
  | out (text : List Char)
  | err (text : List Char)
  | raw (text : List Char)
  deriving DecidableEq, Repr

/-- `ansi(key)`, `terminal_color.py:33-36`, with colours on (39-80) or off (83-91). Only used for keys in the table (`ansi_known` in
`Props/Commands`), so KeyError does not occur. -/
def ansi (on : Bool) (key : String) : List Char := ((if on then ansiOn else ansiOff) key.toList).getD []

/-- A piece of code that prints: the lines printed, in order, and how it ended. -/
structure Run (α : Type) where
  lines : List Line
  res : Except Exc α

/-- Sequencing: an exception ends the run, keeping what was printed. -/
def Run.bind {α β : Type} (r : Run α) (f : α → Run β) : Run β :=
  match r.res with
  | .error e => ⟨r.lines, .error e⟩
  | .ok a => ⟨r.lines ++ (f a).lines, (f a).res⟩

instance : Monad Run where
  pure a := ⟨[], .ok a⟩
  bind := Run.bind

/-- Code that prints nothing. -/
def Run.lift {α : Type} (x : Except Exc α) : Run α := ⟨[], x⟩

/-- `info(msg)`, `log_utils.py:80-91`. -/
def info (on : Bool) (msg : List Char) : Run Unit := ⟨[.out (msg ++ ansi on "reset")], .ok ()⟩

/-- `error(msg)`, `log_utils.py:109-122` (`exit` is not given anywhere). -/
def error (on : Bool) (msg : List Char) : Run Unit := ⟨[.err (ansi on "redf" ++ ansi on "boldon" ++ msg ++ ansi on "reset")], .ok ()⟩

/-- `text.split('\n')` (python builtin), never empty. -/
def splitLines : List Char → List (List Char)
  | [] => [[]]
  | c :: t =>
    if c = '\n' then [] :: splitLines t
    else
      match splitLines t with
      | [] => [[c]]
      | l :: ls => (c :: l) :: ls

/-- `indent`, `util.py:193-196`. -/
def indent (text : List Char) (width : Nat) (excludeFirst : Bool) : List Char :=
  (if excludeFirst then [] else List.replicate width ' ') ++ pyJoin ('\n' :: List.replicate width ' ') (splitLines text)

/-! ## How the process ends: `commands/main.py` -/

/-- `isinstance(e, XylemError)`: the classes deriving from XylemError (`exception.py:40-49` and the subclasses in `load_url.py:31`,
`config_utils.py:131-153`, `specs/plugins/rules.py:335`, `installers/impl.py:42-54`, `plugin_utils.py:33`, `install.py:42`,
`resolve.py:38`, `sources/impl.py:192`, `os_support/impl.py:37,46`). -/
def Exc.isXylemError : Exc → Bool
  | .xylemError | .xylemInternalError | .downloadFailure | .configValueError | .configDescriptionError | .specParsingError
  | .installerError | .invalidRuleError | .installerPrerequisiteError | .invalidPluginError | .installError | .resolutionError
  | .unknownSpecError | .unsupportedOSError | .unsupportedOSVersionError => true
  | _ => false

/-- How the python process ends: `sys.exit(code)` or an exception that nobody catches. -/
inductive Ending
  | exit (code : Int)
  | traceback (e : Exc)
  deriving DecidableEq

/-- The exit status the parent process sees (python and POSIX: the code modulo 256; 1 for an uncaught exception). -/
def Ending.status : Ending → Int
  | .exit c => c % 256
  | .traceback _ => 1

/-- A finished process: what it printed and how it ended. -/
structure Finished where
  lines : List Line
  ending : Ending

/-- An exception that reaches the interpreter: SystemExit ends the process with its code, any other with a traceback (python). -/
def uncaught : Exc → Ending
  | .systemExit c => .exit c
  | e => .traceback e

/-- The `try` statement of `main` and the two lines after it, `commands/main.py:140-156`. `result` is what the command returned (`None` or
a number); `text tb e` is `exc_to_str(e, tb=tb, chain=True)`. Simplification: `print_exc` (`util.py:102-112`) prints without highlighting. -/
def mainTry (on debug : Bool) (text : Bool → Exc → List Char) (func : Run (Option Int)) : Finished :=
  match func.res with
  | .ok result => ⟨func.lines ++ [.raw (ansi on "reset")], .exit (result.getD 0)⟩
  | .error e =>
    if e.isXylemError then
      if debug || e == .xylemInternalError then ⟨func.lines ++ [.err (text true e)], .exit 1⟩
      else ⟨func.lines ++ (error on (text false e)).lines, .exit 1⟩
    else if e == .keyboardInterrupt || e == .eofError then ⟨func.lines ++ (info on []).lines, .exit 1⟩
    else ⟨func.lines, uncaught e⟩

/-- `main`, `commands/main.py:124-156`: creating the parsers, parsing and reading the configuration (`setup`, lines 125-137) are not in the
`try` statement. -/
def mainProcess (on debug : Bool) (text : Bool → Exc → List Char) (setup : Except Exc (Run (Option Int))) : Finished :=
  match setup with
  | .error e => ⟨[], uncaught e⟩
  | .ok func => mainTry on debug text func

/-- `except (KeyboardInterrupt, EOFError): info(''); sys.exit(1)` of the commands (`commands/resolve.py:111-113`, `install.py:75-77`,
`lookup.py:55-58`, `update.py:47-49`). -/
def interruptible (on : Bool) (r : Run Unit) : Run Unit :=
  match r.res with
  | .error .keyboardInterrupt => ⟨r.lines ++ (info on []).lines, .error (.systemExit 1)⟩
  | .error .eofError => ⟨r.lines ++ (info on []).lines, .error (.systemExit 1)⟩
  | _ => r

/-- The commands return `None`. -/
def Run.returnsNone (r : Run Unit) : Run (Option Int) := r.bind fun _ => ⟨[], .ok none⟩

/-! ## `xylem resolve` -/

variable {σ : Type}

/-- The errors of `resolve` and `install` joined, `commands/resolve.py:96-97`, `install.py:67-72`. -/
def joinErrors (texts : List (List Char)) : List Char := pyJoin ['\n'] (texts.map fun t => indent t 2 true)

/-- `', '.join(map(to_str, resolutions))`, `commands/resolve.py:104`. -/
def resolutionString (rs : List Resolution) : Except Exc (List Char) := do
  let ts ← rs.mapM Resolution.str
  pure (pyJoin [',', ' '] ts)

/-- `installer_string`, `commands/resolve.py:99-103`. -/
def installerString (dflt : Option String) (showDefault : Bool) (inst : String) : List Char :=
  if some inst ≠ dflt ∨ showDefault = true then inst.toList ++ [':', ' '] else []

/-- The loop body, `commands/resolve.py:99-108`. -/
def printResult (on : Bool) (dflt : Option String) (showDefault : Bool) (r : String × (String × List Resolution)) : Run Unit := do
  let s ← Run.lift (resolutionString r.2.2)
  info on (ansi on "cyanf" ++ r.1.toList ++ ansi on "reset" ++ " --> ".toList ++ (ansi on "bluef" ++ installerString dflt showDefault r.2.1) ++
    (ansi on "yellowf" ++ s))

/-- The loop, `commands/resolve.py:98-108`. -/
def printResults (on : Bool) (dflt : Option String) (showDefault : Bool) : List (String × (String × List Resolution)) → Run Unit
  | [] => pure ()
  | r :: t => do printResult on dflt showDefault r; printResults on dflt showDefault t

/-- `resolve` of the API with its own database: load, then resolve, `resolve.py:51-156`. -/
def resolveApi (ic : InstallerCtx σ) (db : Except Exc Database) (installFrom : Dict String (List String)) (keys : List String) (all : Bool) :
    Except Exc Resolved := do
  let d ← db
  resolve ic d installFrom keys all

/-- `if errors: error(..)`, `commands/resolve.py:95-97`, `install.py:65-72`, for the texts of the errors. -/
def reportErrors (on : Bool) (texts : List (List Char)) : Run Unit := if texts = [] then pure () else error on (joinErrors texts)

/-- `if errors: sys.exit(1)`, `commands/resolve.py:109-110`, `install.py:73-74`. -/
def exitIf (failed : Bool) : Run Unit := if failed then Run.lift (.error (.systemExit 1)) else pure ()

/-- The output, `commands/resolve.py:95-110`. `text` is `exc_to_str` of the error reported for a key. -/
def printResolved (on : Bool) (text : String × ResErr → List Char) (dflt : Option String) (showDefault : Bool) (r : Resolved) : Run Unit := do
  reportErrors on (r.errors.map text)
  printResults on dflt showDefault r.results
  exitIf (r.errors ≠ [])

/-- Arguments of `xylem resolve`, `commands/resolve.py:51-72`. -/
structure ResolveArgs where
  keys : List String
  all : Bool
  showDefault : Bool

/-- `main` of `commands/resolve.py:87-113`: `ctx` is the result of `InstallerContext(config)`, `dflt` of `get_default_installer_name()`,
`db` of loading the database from the cache. -/
def resolveCommand (on : Bool) (text : String × ResErr → List Char) (ctx : Except Exc (InstallerCtx σ)) (dflt : Except Exc (Option String))
    (db : Except Exc Database) (installFrom : Dict String (List String)) (a : ResolveArgs) : Run Unit :=
  interruptible on (do
    let ic ← Run.lift ctx
    let d ← Run.lift dflt
    let r ← Run.lift (resolveApi ic db installFrom a.keys a.all)
    printResolved on text d a.showDefault r)

/-! ## `xylem install` -/

/-- Arguments of `xylem install`, `commands/install.py:38-46`. -/
structure InstallArgs where
  keys : List String
  all : Bool
  reinstall : Bool
  dryRun : Bool
  continueOnError : Bool
  fixPrerequisites : Bool

/-- The options passed to the API, `commands/install.py:57-64`; `interactive` keeps its default `True` (`install.py:54`). -/
def InstallArgs.opts (a : InstallArgs) : InstallOpts :=
  { interactive := true, reinstall := a.reinstall, simulate := a.dryRun, continueOnError := a.continueOnError,
    fixPrerequisites := a.fixPrerequisites }

/-- `install` of the API with its own context and database, `install.py:52-111`. -/
def installApi (m : Machine σ) (ctx : Except Exc (InstallerCtx σ)) (db : Except Exc Database) (installFrom : Dict String (List String))
    (o : InstallOpts) (keys : List String) (all : Bool) : Prog σ InstallReport := do
  let ic ← Prog.lift ctx
  let d ← Prog.lift db
  install m ic d installFrom o keys all

/-- `commands/install.py:65-74`. -/
def printReport (on : Bool) (text : String × ResErr → List Char) (itext : InstErr → List Char) (r : InstallReport) : Run Unit := do
  reportErrors on (r.resolveErrors.map text)
  reportErrors on (r.installErrors.map itext)
  exitIf (r.resolveErrors ≠ [] ∨ r.installErrors ≠ [])

/-- What `install.py` prints on stdout around an event: the heading and the commands of a simulation (`install.py:259, 261`), the announcement
of a command (`install.py:266`). The messages of `info_v` (`install.py:254, 268, 296, 298`, only with `--verbose`) are in `Model/InstallOutput`. -/
def eventLines (on : Bool) (table : AnsiTable) : Event → List Line
  | .heading n => [.out ("# [".toList ++ n.toList ++ "] installation commands:".toList)]
  | .shown _ c =>
    match joinCmd c with
    | .ok l => (info on ("  ".toList ++ l)).lines
    | .error _ => []
  | .exec _ c _ =>
    match announce table c with
    | .ok l => (info on l).lines
    | .error _ => []
  | _ => []

/-- A call of the `install` API as code that prints. -/
def Run.said {α : Type} (on : Bool) (table : AnsiTable) (out : Out σ α) : Run α := ⟨out.ev.flatMap (eventLines on table), out.res⟩

/-- `main` of `commands/install.py:53-77`, started in machine state `s`. -/
def installCommand (on : Bool) (text : String × ResErr → List Char) (itext : InstErr → List Char) (m : Machine σ)
    (ctx : Except Exc (InstallerCtx σ)) (db : Except Exc Database) (installFrom : Dict String (List String)) (a : InstallArgs) (s : σ) :
    Run Unit :=
  interruptible on (do
    let r ← Run.said on m.ansi (installApi m ctx db installFrom a.opts a.keys a.all s)
    printReport on text itext r)

/-! ## `xylem update` and `xylem lookup` -/

/-- The exception of the `update` API, if any, as a result. -/
def ApiUpdate.res (r : ApiUpdate) : Except Exc Unit :=
  match r.raised with
  | some e => .error e
  | none => .ok ()

/-- `main` of `commands/update.py:43-49`. -/
def updateCommand (on dryRun : Bool) (env : CacheEnv) (plugins : List Spec) (dir : DirWorld) (w : SourcesWorld) (sourcesDir : String)
    (outcome : Source → Outcome) : Run Unit :=
  interruptible on (Run.lift (updateApi dryRun env plugins dir w sourcesDir outcome).res)

/-- `s[:-1]` (python builtin). -/
def dropLast (s : List Char) : List Char := s.take (s.length - 1)

/-- The loop of `commands/lookup.py:48-54`; `lookup` is the API with `compact=True`, `osString` is `ic.get_os_string()`, `dump` is
`dump_yaml`. -/
def lookupLoop (on : Bool) (dump : PVal → Except Exc (List Char)) (lookup : String → Except Exc PVal) (osString : Except Exc (List Char)) :
    List String → Run Unit
  | [] => pure ()
  | key :: t => do
    let v ← Run.lift (lookup key)
    let os ← Run.lift osString
    let d ← Run.lift (dump v)
    info on ("Rules for '".toList ++ (ansi on "cyanf" ++ key.toList ++ ansi on "reset") ++ "' on '".toList ++
      (ansi on "cyanf" ++ os ++ ansi on "reset") ++ "':\n".toList ++ (ansi on "yellowf" ++ dropLast d))
    lookupLoop on dump lookup osString t

/-- `main` of `commands/lookup.py:42-58`: `ctx` is the result of `InstallerContext(config)`. -/
def lookupCommand (on : Bool) (dump : PVal → Except Exc (List Char)) (lookup : InstallerCtx σ → String → Except Exc PVal)
    (osString : InstallerCtx σ → Except Exc (List Char)) (ctx : Except Exc (InstallerCtx σ)) (keys : List String) : Run Unit :=
  interruptible on (do
    let ic ← Run.lift ctx
    lookupLoop on dump (lookup ic) (osString ic) keys)

/-! ## `xylem _compact_rules_file` -/

/-- A text file: `none` if it does not exist. -/
abbrev TextFile := Option (List Char)

/-- One atomic change of the rules file: `open(filepath, 'wb')` truncates it, then text is appended. -/
inductive TextStep
  | truncate
  | append (text : List Char)
  deriving DecidableEq

/-- Effect of one step. -/
def TextStep.apply : TextFile → TextStep → TextFile
  | _, .truncate => some []
  | f, .append t => some (f.getD [] ++ t)

/-- Effect of a sequence of steps; a crash leaves the effect of a prefix. -/
def applyText (f : TextFile) (l : List TextStep) : TextFile := l.foldl TextStep.apply f

/-- What the world does when the file is written: opening may fail; the text reaches the file in the given pieces; `stops` is the exception
raised by writing or closing, if any. -/
structure TextWrite where
  opens : Except Exc Unit
  pieces : List Char → List (List Char)
  stops : Option Exc

/-- The YAML library: `load_yaml` and `dump_yaml` (`yaml_utils.py:28-82`). -/
structure Yaml where
  load : List Char → Except Exc PVal
  dump : PVal → Except Exc (List Char)

/-- Reading the file, `commands/_compact_rules_file.py:63-64`; reading an existing file works, bytes that are no UTF-8 are not modelled. -/
def readText (f : TextFile) : Except Exc (List Char) :=
  match f with
  | some t => .ok t
  | none => .error .ioError

/-- Lines 63-67 and 70-74 of `commands/_compact_rules_file.py`: the new text. `dflts` is the result of
`OSSupport().get_default_installer_names()`. The last case is unreachable (verified rules are typed). -/
def compactedText (uni : Char → Bool) (y : Yaml) (dflts : Except Exc (Dict String (Option String))) (f : TextFile) : Except Exc (List Char) := do
  let data ← readText f
  let parsed ← y.load data
  let v ← loadRulesData uni parsed
  let d ← dflts
  match rulesOfVal v with
  | some r => do
    let c ← compactRules r d
    y.dump c
  | none => throw .attributeError

/-- Lines 75-77 of `commands/_compact_rules_file.py`: the steps done on the file and the exception raised (if any). -/
def writeText (w : TextWrite) (text : List Char) : List TextStep × Except Exc Unit :=
  match w.opens with
  | .error e => ([], .error e)
  | .ok () =>
    (.truncate :: (w.pieces text).map .append,
      match w.stops with
      | some e => .error e
      | none => .ok ())

/-- What the command did: console output, steps on the file. -/
structure CompactRun where
  run : Run Unit
  steps : List TextStep

/-- `except (KeyboardInterrupt, EOFError): sys.exit(1)`, `commands/_compact_rules_file.py:80-81`. -/
def quietInterrupt (r : Run Unit) : Run Unit :=
  match r.res with
  | .error .keyboardInterrupt => ⟨r.lines, .error (.systemExit 1)⟩
  | .error .eofError => ⟨r.lines, .error (.systemExit 1)⟩
  | _ => r

/-- `main` of `commands/_compact_rules_file.py:56-81`. -/
def compactCommand (on write : Bool) (uni : Char → Bool) (y : Yaml) (dflts : Except Exc (Dict String (Option String))) (w : TextWrite)
    (f : TextFile) : CompactRun :=
  match compactedText uni y dflts f with
  | .error e => ⟨quietInterrupt ⟨[], .error e⟩, []⟩
  | .ok text =>
    if write then ⟨quietInterrupt ⟨[], (writeText w text).2⟩, (writeText w text).1⟩
    else ⟨quietInterrupt (info on text), []⟩

/-! ## Command plugins and parsers, `commands/main.py:46-105` -/

/-- A command definition, `commands/main.py:66-77`: the parts used. `prepare` is everything `create_command_parser` does with it (missing
keys, `prepare_arguments`, `prepare_config`, adding the common arguments), which may raise. -/
structure CmdDef where
  title : String
  prepare : Except Exc Unit
  main : Run (Option Int)

/-- An entry point of the group `xylem.commands`: its name and what loading gives: an exception, something that is no dict, a definition. -/
structure CmdEntry where
  name : String
  load : Except Exc (Option CmdDef)

/-- `list_commands`, `commands/main.py:46-50`. -/
def listCommands (entries : List CmdEntry) : List String := entries.map (·.name)

/-- `load_command_definition`, `commands/main.py:53-63`: the first entry point of that name; the message is dropped. -/
def loadCommandDefinition : List CmdEntry → String → Except Exc (Option CmdDef)
  | [], _ => .ok none
  | e :: t, name => if e.name = name then e.load else loadCommandDefinition t name

/-- The first loop of `create_subparsers`, `commands/main.py:90-98`: `cmds` (names left) and `defis`. -/
def definitionsLoop (entries : List CmdEntry) : List String → List CmdDef → List String → Except Exc (List String × List CmdDef)
  | cmds, defis, [] => .ok (cmds, defis)
  | cmds, defis, c :: t =>
    match loadCommandDefinition entries c with
    | .error e => .error e
    | .ok none => definitionsLoop entries (cmds.erase c) defis t
    | .ok (some d) => definitionsLoop entries cmds (defis ++ [d]) t

/-- The second loop, `commands/main.py:111-112`: the parsers by title; a later one of the same title replaces an earlier one (argparse). -/
def addParsers : Dict String CmdDef → List CmdDef → Except Exc (Dict String CmdDef)
  | ps, [] => .ok ps
  | ps, d :: t =>
    match d.prepare with
    | .error e => .error e
    | .ok () => addParsers (dset ps d.title d) t

/-- What `create_subparsers` leaves behind: the parsers, and the commands shown in the help. -/
structure Parsers where
  byTitle : Dict String CmdDef
  shown : List String

/-- `create_subparsers`, `commands/main.py:89-112`. -/
def createSubparsers (entries : List CmdEntry) : Except Exc Parsers := do
  let r ← definitionsLoop entries (listCommands entries) [] (listCommands entries)
  if r.2 = [] ∨ r.1 = [] then pure ⟨[], []⟩
  else do
    let ps ← addParsers [] r.2
    pure ⟨ps, r.1.filter fun c => !startsWith c "_"⟩

/-- `command_handle_args(None, definition)`, `commands/main.py:80-87`: `create_command_parser` has no return statement, so `parser` is
`None` and `parser.parse_args` raises AttributeError. -/
def commandHandleNoArgs (d : CmdDef) : Except Exc Unit :=
  match d.prepare with
  | .error e => .error e
  | .ok () => .error .attributeError

/-- `main()` of a command module called without arguments, as by the console script `xylem-update` (`setup.py:65`,
`commands/update.py:43-44`): nobody catches exceptions here. -/
def standaloneMain (d : CmdDef) : Finished :=
  match commandHandleNoArgs d with
  | .error e => ⟨[], uncaught e⟩
  | .ok () =>
    match d.main.res with
    | .error e => ⟨d.main.lines, uncaught e⟩
    | .ok r => ⟨d.main.lines, .exit (r.getD 0)⟩

end Verif
