import Verif.Model.Config
/-!
# Model of the command line: `add_arguments`, `xylem/arguments.py`, `create_command_parser`, and what python's argparse does with options

argparse (python standard library) is modelled as far as options are concerned: registration of options, matching of option strings
(in full or as unambiguous abbreviation), the actions `store`, `append`, `store_true` and those that end the program, default values, and
the hand-over of the namespace to the parser of a command. Left out: help texts. `Model/Argv` has the words:
which of them are options, values and positional arguments, and combined short options.
-/
namespace Verif

/-- argparse actions: `store` (default), `append`, `store_true`, and help/version, which print and exit (`PagerHelpAction`, `arguments.py:41-58`, and
the action `version` of argparse; what they print is left out). -/
inductive OptAction
  | store | append | storeTrue | quit
  deriving DecidableEq

/-- An option known to an argparse parser: its option strings, the attribute its value is kept in, its action. -/
structure OptSpec where
  flags : List String
  dest : String
  action : OptAction
  deriving DecidableEq

/-- `argparse.ArgumentError` (conflicting option strings) while a parser is being built. -/
def argumentError : Exc := .other 0

/-- `_get_optional_kwargs` of argparse: the attribute for an option string without explicit `dest`: leading dashes are removed, other dashes
become underscores. -/
def argparseDest (flag : String) : String := String.ofList (pyReplace (flag.toList.dropWhile (fun c => c == '-')) ['-'] ['_'])

/-- `add_argument` of argparse: ValueError if no attribute name is left, ArgumentError if an option string is taken. -/
def addArgument (opts : List OptSpec) (o : OptSpec) : Except Exc (List OptSpec) :=
  if o.dest = "" then .error .valueError
  else if o.flags.any (fun f => opts.any (fun p => p.flags.contains f)) then .error argumentError
  else .ok (opts ++ [o])

/-- `command_line_multiple`, `config_utils.py:489-496, 612-613, 690-691`. -/
def CType.multiple : CType → Bool
  | .list _ => true
  | .dict _ _ => true
  | .mergingDict _ _ => true
  | _ => false

/-- `ConfigItem.add_argument`, `config_utils.py:815-825`. -/
def ConfigItem.option (i : ConfigItem) : OptSpec :=
  { flags := ["--" ++ i.argument], dest := argparseDest ("--" ++ i.argument),
    action := if i.type.multiple then .append else .store }

/-- `ConfigDescription.add_arguments`, `config_utils.py:902-929`: the options it adds, in order. -/
def Desc.options (d : Desc) : List OptSpec := (d.itemlist.filter ConfigItem.commandLine).map ConfigItem.option

/-- `add_global_arguments`, `arguments.py:83-95`, with `add_global_config_arguments`, `config_utils.py:942-959` for the tool `xylem`. -/
def globalOptions : List OptSpec :=
  [ { flags := ["-h", "--help"], dest := "help", action := .quit },
    { flags := ["--version"], dest := "version", action := .quit },
    { flags := ["-v", "--verbose"], dest := "verbose", action := .storeTrue },
    { flags := ["-d", "--debug"], dest := "debug", action := .storeTrue },
    { flags := ["--pdb"], dest := "pdb", action := .storeTrue },
    { flags := ["--no-color"], dest := "no_color", action := .storeTrue },
    { flags := ["--print-config"], dest := "print_config", action := .storeTrue },
    { flags := ["--no-user-config"], dest := "no_user_config", action := .storeTrue },
    { flags := ["--prefix"], dest := "prefix", action := .store },
    { flags := ["--xylem-dir"], dest := "config_dir", action := .store } ]

/-- The options of the builtin commands (`prepare_arguments` of `commands/resolve.py:51-72`, `install.py:38-46`, `lookup.py:34-35` (positional argument only),
`update.py:32-36`, `_compact_rules_file.py:44-49`). -/
def commandOptions : String → List OptSpec
  | "resolve" => [⟨["--all"], "all", .storeTrue⟩, ⟨["--show-default-installer"], "show_default_installer", .storeTrue⟩]
  | "install" => [⟨["--all"], "all", .storeTrue⟩, ⟨["--reinstall"], "reinstall", .storeTrue⟩, ⟨["--dry-run"], "dry_run", .storeTrue⟩,
      ⟨["--continue-on-error"], "continue_on_error", .storeTrue⟩, ⟨["--fix-prerequisites"], "fix_prerequisites", .storeTrue⟩]
  | "update" => [⟨["-n", "--dry-run"], "dry_run", .storeTrue⟩]
  | "_compact_rules_file" => [⟨["-w", "--write"], "write", .storeTrue⟩]
  | _ => []

/-- `create_command_parser`, `commands/main.py:65-75`, and the top level parser (`extra` empty), `commands/main.py:130-131`: the options of the
parser, or the exception building it raises. -/
def mkParser (extra : List OptSpec) (desc : Desc) : Except Exc (List OptSpec) :=
  (extra ++ desc.options ++ globalOptions).foldlM addArgument []

/-- A value in an argparse namespace. -/
inductive ArgVal
  | cmd (v : CmdVal)
  | flag (b : Bool)

/-- The attributes of an argparse namespace. -/
abbrev ArgSpace := Dict String ArgVal

/-- An option as written on the command line, `--flag value` (or `--flag=value`), or `--flag`. -/
structure Given where
  flag : String
  value : Option String

/-- All option strings with their options. -/
def flagTable (opts : List OptSpec) : List (String × OptSpec) := opts.flatMap fun o => o.flags.map fun f => (f, o)

/-- The option strings `f` abbreviates: only long option strings can be abbreviated. -/
def abbreviated (opts : List OptSpec) (f : String) : List (String × OptSpec) :=
  if "--".toList.isPrefixOf f.toList then (flagTable opts).filter fun g => f.toList.isPrefixOf g.1.toList else []

/-- `_parse_optional` of argparse: the option meant by an option string; exit status 2 for unknown and ambiguous ones. -/
def findOption (opts : List OptSpec) (f : String) : Except Exc OptSpec :=
  match opts.find? fun o => o.flags.contains f with
  | some o => .ok o
  | none =>
    match abbreviated opts f with
    | [(_, o)] => .ok o
    | _ => .error (.systemExit 2)

/-- `_copy.copy(_ensure_value(namespace, self.dest, []))` of argparse's `append`; a text or a flag has no `append`. -/
def listSoFar (ns : ArgSpace) (dest : String) : Except Exc (List String) :=
  match dget ns dest with
  | none => .ok []
  | some (.cmd .none) => .ok []
  | some (.cmd (.many l)) => .ok l
  | _ => .error .attributeError

/-- The action of an option, applied to its value; a missing or superfluous value is a usage error. -/
def runAction (o : OptSpec) (value : Option String) (ns : ArgSpace) : Except Exc ArgSpace :=
  match o.action, value with
  | .store, some v => .ok (dset ns o.dest (.cmd (.one v)))
  | .append, some v => (listSoFar ns o.dest).map fun l => dset ns o.dest (.cmd (.many (l ++ [v])))
  | .storeTrue, none => .ok (dset ns o.dest (.flag true))
  | .quit, none => .error (.systemExit 0)
  | _, _ => .error (.systemExit 2)

/-- One option of the command line. -/
def takeGiven (opts : List OptSpec) (ns : ArgSpace) (g : Given) : Except Exc ArgSpace := do
  let o ← findOption opts g.flag
  runAction o g.value ns

/-- The default of one option is stored unless the namespace has a value. Help and version have none. -/
def addDefault (ns : ArgSpace) (o : OptSpec) : ArgSpace :=
  if dhas ns o.dest then ns
  else
    match o.action with
    | .quit => ns
    | .storeTrue => dset ns o.dest (.flag false)
    | _ => dset ns o.dest (.cmd .none)

/-- `parse_known_args` of argparse: defaults first, then the options in order. -/
def parseInto (opts : List OptSpec) (ns : ArgSpace) (l : List Given) : Except Exc ArgSpace := l.foldlM (takeGiven opts) (opts.foldl addDefault ns)

/-- `parser.parse_args` of a parser with sub parsers: options before the name of the command are read by the top level parser, the others by
the parser of the command. `fresh`: argparse since python 2.7.9 (and 3.4.3) lets the parser of the command start with an empty namespace and
copies all attributes afterwards; before that, both parsers worked on one namespace. -/
def parseCommandLine (fresh : Bool) (top sub : List OptSpec) (before after : List Given) : Except Exc ArgSpace := do
  let ns ← parseInto top [] before
  if fresh then do
    let ns' ← parseInto sub [] after
    pure (dupdate ns ns')
  else parseInto sub ns after

/-- `args_dict[..]` of `config_from_args`, `config_utils.py:1155, 1159-1160`. Simplification: the value of a flag counts as missing. -/
def argsOf (ns : ArgSpace) (dest : String) : Option CmdVal :=
  match dget ns dest with
  | some (.cmd v) => some v
  | _ => none

end Verif
