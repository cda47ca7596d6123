import Verif.Model.Argv
import Verif.Model.InstallOutput
/-!
# The program xylem, from the words of the command line

`main(sysargs)`, `commands/main.py:124-156`, with the commands of `setup.py:65-71`.
-/
namespace Verif
variable {σ : Type}

/-- The commands of `setup.py:65-71`. -/
def commandNames : List String := ["update", "resolve", "lookup", "install", "_compact_rules_file"]

/-- What `_compact_rules_file` needs: YAML, the default installers (see `compactedText`), the files, and what happens when one is written. -/
structure CompactWorld where
  yaml : Yaml
  dflts : Except Exc (Dict String (Option String))
  file : String → TextFile
  write : TextWrite

/-- `main` of `commands/_compact_rules_file.py:56-81`; the argument is a path as typed. The parser makes sure that there is exactly one. -/
def compactOn (k : CompactWorld) (uni : Char → Bool) (keys : List String) (p : Process) (ns : ArgSpace) : CompactRun :=
  compactCommand p.color (switchOn ns "write") uni k.yaml k.dflts k.write (k.file (keys.headD ""))

/-- Everything the commands need from outside. -/
structure Outside (σ : Type) where
  texts : Texts
  voice : Console → Voice σ
  env : StartEnv
  world : Surroundings σ
  text : Bool → Exc → List Char
  etext : String × ResErr → List Char
  itext : InstErr → List Char
  dump : PVal → Except Exc (List Char)
  compact : CompactWorld

/-- `args.func`, set by `parser.set_defaults(func=command_defi['main'])`, `commands/main.py:72`, for the commands of xylem. -/
def commandFunc (o : Outside σ) (s : σ) (keys : List String) : String → Process → ArgSpace → Run (Option Int)
  | "install" => installFuncTelling o.texts o.voice o.env o.world o.etext o.itext keys s
  | "resolve" => resolveFuncSaying o.texts o.env o.world o.etext keys
  | "lookup" => lookupFuncSaying o.texts o.env o.world o.dump keys
  | "update" => updateFuncSaying o.texts o.world
  | _ => fun p ns => (compactOn o.compact o.world.uni keys p ns).run.returnsNone

/-- The parsers and what they make of the words, `commands/main.py:124-136`. -/
def parseXylem (fresh : Bool) (desc : Desc) (words : List String) : Except Exc (CommandParser × ArgSpace × List String) := do
  let top ← mkParser [] desc
  let cmds ← builtinCommands desc commandNames
  parseArgv fresh top cmds words

/-- The program `xylem`, `commands/main.py:124-156`: the variables at its end, and how it ends. -/
def xylemMain (o : Outside σ) (desc : Desc) (fresh : Bool) (p : Process) (words : List String) (s : σ) : Process × Finished :=
  match parseXylem fresh desc words with
  | .error e => (p, ⟨[], uncaught e⟩)
  | .ok r => mainParsed o.env desc o.text (commandFunc o s r.2.2 r.1.name) p r.2.1

/-- What a run of xylem does: the state of the machine and the events (`xylem install`), the steps on the cached files (`xylem update`), the steps on
rules files (`xylem _compact_rules_file`), with the path as typed. -/
structure Done (σ : Type) where
  effect : Effect σ
  cache : List FsStep
  rules : List (String × List TextStep)

/-- Nothing. -/
def Done.nothing (s : σ) : Done σ := ⟨⟨s, []⟩, [], []⟩

/-- What the command does, once it is called. -/
def commandDone (o : Outside σ) (s : σ) (keys : List String) (p : Process) (ns : ArgSpace) : String → Done σ
  | "install" => ⟨⟨(installRun o.env o.world keys p ns s).st, (installRun o.env o.world keys p ns s).ev⟩, [], []⟩
  | "update" => ⟨⟨s, []⟩, (updateRun o.world p ns).steps, []⟩
  | "_compact_rules_file" => ⟨⟨s, []⟩, [], keys.map fun k => (k, (compactOn o.compact o.world.uni keys p ns).steps)⟩
  | _ => .nothing s

/-- What a run of xylem does. -/
def xylemDone (o : Outside σ) (desc : Desc) (fresh : Bool) (p : Process) (words : List String) (s : σ) : Done σ :=
  match parseXylem fresh desc words with
  | .error _ => .nothing s
  | .ok r =>
    match (handleConfigArguments o.env desc (handleSwitches o.env r.2.1 p) r.2.1).res with
    | .error _ => .nothing s
    | .ok c => commandDone o s r.2.2 { handleSwitches o.env r.2.1 p with config := c } r.2.1 r.1.name

end Verif
