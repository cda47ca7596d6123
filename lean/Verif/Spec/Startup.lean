import Verif.Model.Startup
import Verif.Spec.CommandLine
import Verif.Spec.Config
/-! # Specification vocabulary for the start of xylem -/
namespace Verif

/-- A text option that may be unset. -/
def optText : Option String → PVal
  | none => .none
  | some s => .str s

/-- The os override in the effective config: unset, or name and version. -/
def overridePair : Option (List Char × Option (List Char)) → PVal
  | none => .none
  | some (n, none) => .list [textVal n, .none]
  | some (n, some v) => .list [textVal n, textVal v]

/-- No config option is given on the command line. -/
def NothingGiven (desc : Desc) (args : String → Option CmdVal) : Prop :=
  ∀ n i, desc.Has n i → i.commandLine = true → args (String.ofList (underscorify i.argument.toList)) = some .none

/-- The config printed by `--print-config` is the only config file, in a directory given with `--xylem-dir`, no other config option is given, and
the YAML library reads what it wrote. -/
structure PrintedAsFile (env : StartEnv) (c : Config) (env' : StartEnv) (ns' : ArgSpace) : Prop where
  sameExpand : env'.expand = env.expand
  sameDump : env'.dumpYaml = env.dumpYaml
  readsBack : env'.loadYaml (String.ofList (env.dumpYaml (.dict c.items))) = .ok (.dict c.items)
  dirGiven : ∃ d, textArg ns' "config_dir" = some d ∧
    env'.file (pathJoin (env.expand d) "config.yaml") = .text (String.ofList (env.dumpYaml (.dict c.items)))
  nothingElse : NothingGiven xylemDescription (argsOf ns')

/-- The switch is given on the command line. -/
def GivenSwitch (flags : List String) (l : List Given) : Prop := ∃ g ∈ l, g.flag ∈ flags

/-- The text of a line. -/
def Line.text : Line → List Char
  | .out t => t
  | .err t => t
  | .raw t => t

end Verif
