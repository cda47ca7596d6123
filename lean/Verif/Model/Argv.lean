import Verif.Model.CommandLine
/-!
# The words of the command line: what argparse makes of `sys.argv`

`parser.parse_args(sysargs)`, `commands/main.py:136`, for the parsers built in `commands/main.py:65-75, 87-110, 124-134`. This is `parse_args`,
`_parse_known_args`, `_parse_optional`, `_get_option_tuples` and `_get_values` of argparse (python standard library, 2.7), word by word: which words are
options, values, the command, keys; combined short options; `--option=value`; the separator `--`. `Model/CommandLine` has what an option does. Left out:
the texts argparse prints; the attributes `xylem_key`, `rules_file`, `cmd` and `func` are not kept in the namespace but returned beside it; options that
look like negative numbers (xylem has none).
-/
namespace Verif

/-- The positional arguments of a parser: none; one word (`nargs=None`); at least one word (`nargs="+"`); the command (`add_subparsers`). -/
inductive Positionals
  | none | one | many | command
  deriving DecidableEq

/-- What a word is: `A` (an argument), `-` (the separator `--`), `O` with the option meant, the option string, and the value attached to it, or `O` for an
unknown option (`option_string_indices`, `arg_strings_pattern` of argparse). -/
inductive WordKind
  | arg
  | dashes
  | opt (o : OptSpec) (flag : String) (value : Option (List Char))
  | unknown

/-- `arg_string.split('=', 1)` (python builtin), if there is a `=`. -/
def cutEq : List Char → Option (List Char × List Char)
  | [] => none
  | c :: t => if c = '=' then some ([], t) else (cutEq t).map fun r => (c :: r.1, r.2)

/-- `arg_string in self._option_string_actions` of argparse. -/
def exactly (opts : List OptSpec) (f : String) : Option OptSpec := opts.find? fun o => o.flags.contains f

/-- Whether the text starts with `.` and continues with at least one digit, and only digits. -/
def fraction : List Char → Bool
  | '.' :: r => !r.isEmpty && r.all Char.isDigit
  | _ => false

/-- `_negative_number_matcher` of argparse, `^-\d+$|^-\d*\.\d+$`. Simplification: no newline at the end. -/
def negativeNumber : List Char → Bool
  | '-' :: t => (!t.isEmpty && t.all Char.isDigit) || fraction (t.dropWhile Char.isDigit)
  | _ => false

/-- `_get_option_tuples` of argparse for a word with one dash. -/
def shortMatch (w : List Char) (g : String × OptSpec) : Option (String × OptSpec × Option (List Char)) :=
  if g.1.toList = w.take 2 then some (g.1, g.2, some (w.drop 2))
  else if w.isPrefixOf g.1.toList then some (g.1, g.2, none)
  else none

/-- The part of a word before the first `=`, and the part after it, if there is one. -/
def cutWord (w : List Char) : List Char × Option (List Char) :=
  match cutEq w with
  | some r => (r.1, some r.2)
  | none => (w, none)

/-- `_get_option_tuples` of argparse: the options a word may abbreviate, with the value attached. -/
def matching (opts : List OptSpec) (w : List Char) : List (String × OptSpec × Option (List Char)) :=
  if "--".toList.isPrefixOf w then
    ((flagTable opts).filter fun g => (cutWord w).1.isPrefixOf g.1.toList).map fun g => (g.1, g.2, (cutWord w).2)
  else (flagTable opts).filterMap (shortMatch w)

/-- The last cases of `_parse_optional` of argparse: no option matches, one does, or several do. -/
def guessed (w : List Char) : List (String × OptSpec × Option (List Char)) → Except Exc WordKind
  | [] => if negativeNumber w then .ok .arg else if w.contains ' ' then .ok .arg else .ok .unknown
  | [m] => .ok (.opt m.2.1 m.1 m.2.2)
  | _ => .error (.systemExit 2)

/-- `if '=' in arg_string` of `_parse_optional` of argparse: `--option=value` with the option written in full. -/
def withEq (opts : List OptSpec) (w : List Char) : Option WordKind :=
  match cutEq w with
  | none => none
  | some r => (exactly opts (String.ofList r.1)).map fun o => .opt o (String.ofList r.1) (some r.2)

/-- `_parse_optional` of argparse. -/
def classify (opts : List OptSpec) (w : String) : Except Exc WordKind :=
  if w.toList.head? ≠ some '-' then .ok .arg
  else
    match exactly opts w with
    | some o => .ok (.opt o w none)
    | none =>
      if w.toList = ['-'] then .ok .arg
      else
        match withEq opts w.toList with
        | some k => .ok k
        | none => guessed w.toList (matching opts w.toList)

/-- The first loop of `_parse_known_args` of argparse: all words are classified; behind `--`, all are arguments. -/
def classifyAll (opts : List OptSpec) : List String → Except Exc (List (String × WordKind))
  | [] => .ok []
  | w :: ws =>
    if w = "--" then .ok ((w, .dashes) :: ws.map fun v => (v, .arg))
    else do
      let k ← classify opts w
      let ks ← classifyAll opts ws
      pure ((w, k) :: ks)

/-- `nargs` of an option: one value or none. -/
def OptAction.takesValue : OptAction → Bool
  | .store => true
  | .append => true
  | _ => false

/-- `option_string[1] not in chars` of argparse. -/
def isShort (flag : String) : Bool :=
  match flag.toList with
  | _ :: c :: _ => c != '-'
  | _ => false

/-- The loop of `consume_optional` of argparse for a word with something attached (`explicit_arg`): it is the value of the option, or further short options.
The result: options without value that are to be applied first, the last option, and the value attached to it. -/
def unbundle (opts : List OptSpec) (o : OptSpec) (short : Bool) : List Char → Except Exc (List OptSpec × OptSpec × Option (List Char))
  | [] =>
    if o.action.takesValue then .ok ([], o, some [])
    else if short then .error .indexError
    else .error (.systemExit 2)
  | c :: e =>
    if o.action.takesValue then .ok ([], o, some (c :: e))
    else if short then
      match exactly opts (String.ofList ['-', c]) with
      | none => .error (.systemExit 2)
      | some o' =>
        if e = [] then .ok ([o], o', none)
        else (unbundle opts o' true e).map fun r => (o :: r.1, r.2)
    else .error (.systemExit 2)

/-- `consume_optional` of argparse: the options a word stands for. -/
def optionsOf (opts : List OptSpec) (o : OptSpec) (flag : String) : Option (List Char) → Except Exc (List OptSpec × OptSpec × Option (List Char))
  | none => .ok ([], o, none)
  | some e => unbundle opts o (isShort flag) e

/-- The end of `consume_optional` of argparse: the actions are applied. -/
def applyAll (ns : ArgSpace) (pre : List OptSpec) (o : OptSpec) (v : Option String) : Except Exc ArgSpace := do
  let ns ← pre.foldlM (fun ns o => runAction o none ns) ns
  runAction o v ns

/-- Where a parser is with its positional argument: before it, behind a word of it, or it is complete. -/
inductive Phase
  | before | within | after
  deriving DecidableEq

/-- What a parser has read so far: the namespace, the words of the positional argument, words it has no use for (`extras`), where it is, and (for
the parser with commands) the name of the command with all words behind it. -/
structure Reading where
  ns : ArgSpace
  keys : List String
  extras : List String
  phase : Phase
  rest : List String

/-- `consume_positionals` of argparse, for one word. -/
def Reading.word (p : Positionals) (r : Reading) (w : String) : Reading :=
  match p, r.phase with
  | .many, .before => { r with keys := r.keys ++ [w], phase := .within }
  | .many, .within => { r with keys := r.keys ++ [w] }
  | .one, .before => { r with keys := r.keys ++ [w], phase := .within }
  | _, _ => { r with extras := r.extras ++ [w], phase := .after }

/-- `consume_positionals` of argparse (patterns `-*A[A-]*` and `-*A-*`) and `_get_values`, for `--`. If no word follows, the positional argument is missing. -/
def Reading.separator (p : Positionals) (r : Reading) : Reading :=
  match p, r.phase with
  | .many, .before => r
  | .many, .within => r
  | .one, .before => r
  | .one, .within => r
  | _, _ => { r with extras := r.extras ++ ["--"], phase := .after }

/-- An option ends the words of a positional argument. -/
def Phase.cut : Phase → Phase
  | .before => .before
  | _ => .after

/-- An option has been read. -/
def Reading.opted (r : Reading) (ns : ArgSpace) : Reading := { r with ns := ns, phase := r.phase.cut }

/-- An unknown option has been read. -/
def Reading.extra (r : Reading) (w : String) : Reading := { r with extras := r.extras ++ [w], phase := r.phase.cut }

/-- The second loop of `_parse_known_args` of argparse, with `consume_optional` and `consume_positionals`. The command takes all words that follow
(pattern `-*A[-AO]*`); `--` in front of it is no command. -/
def readWords (opts : List OptSpec) (p : Positionals) : List (String × WordKind) → Reading → Except Exc Reading
  | [], r => .ok r
  | (w, .unknown) :: ks, r => readWords opts p ks (r.extra w)
  | (w, .arg) :: ks, r =>
    if p = .command then .ok { r with rest := w :: ks.map Prod.fst } else readWords opts p ks (r.word p w)
  | (_, .dashes) :: ks, r =>
    if p = .command then .error (.systemExit 2) else readWords opts p ks (r.separator p)
  | (_, .opt o f v) :: ks, r =>
    match optionsOf opts o f v with
    | .error e => .error e
    | .ok (pre, o', some x) =>
      match applyAll r.ns pre o' (some (String.ofList x)) with
      | .error e => .error e
      | .ok ns => readWords opts p ks (r.opted ns)
    | .ok (pre, o', none) =>
      if o'.action.takesValue then
        match ks with
        | (x, .arg) :: ks' =>
          match applyAll r.ns pre o' (some x) with
          | .error e => .error e
          | .ok ns => readWords opts p ks' (r.opted ns)
        | _ => .error (.systemExit 2)
      else
        match applyAll r.ns pre o' none with
        | .error e => .error e
        | .ok ns => readWords opts p ks (r.opted ns)

/-- `too few arguments` at the end of `_parse_known_args` of argparse. -/
def Reading.complete (p : Positionals) (r : Reading) : Bool :=
  match p with
  | .none => true
  | .command => !r.rest.isEmpty
  | _ => !r.keys.isEmpty

/-- `parse_known_args` of argparse: defaults first, then the words. -/
def readAll (opts : List OptSpec) (p : Positionals) (ns : ArgSpace) (words : List String) : Except Exc Reading := do
  let ks ← classifyAll opts words
  let r ← readWords opts p ks ⟨opts.foldl addDefault ns, [], [], .before, []⟩
  if r.complete p then pure r else .error (.systemExit 2)

/-- A command with its parser. -/
structure CommandParser where
  name : String
  opts : List OptSpec
  positionals : Positionals

/-- `_SubParsersAction.__call__` of argparse, and the check of `parse_args` that there is a use for all words. `fresh` is as in `parseCommandLine`. -/
def callCommand (fresh : Bool) (cmds : List CommandParser) (t : Reading) : List String → Except Exc (CommandParser × ArgSpace × List String)
  | [] => .error (.systemExit 2)
  | c :: ws =>
    match cmds.find? fun k => k.name == c with
    | none => .error (.systemExit 2)
    | some k => do
      let s ← readAll k.opts k.positionals (if fresh then [] else t.ns) ws
      if t.extras = [] ∧ s.extras = [] then pure (k, if fresh then dupdate t.ns s.ns else s.ns, s.keys) else .error (.systemExit 2)

/-- `parser.parse_args(sysargs)`, `commands/main.py:136`: the command, its namespace, and the words of its positional argument. -/
def parseArgv (fresh : Bool) (top : List OptSpec) (cmds : List CommandParser) (words : List String) :
    Except Exc (CommandParser × ArgSpace × List String) := do
  let t ← readAll top .command [] words
  callCommand fresh cmds t t.rest

/-- The positional arguments of the builtin commands, `commands/resolve.py:61`, `install.py:40`, `lookup.py:35`, `_compact_rules_file.py:46`,
`update.py:32-36`. -/
def commandPositionals : String → Positionals
  | "resolve" => .many
  | "install" => .many
  | "lookup" => .many
  | "_compact_rules_file" => .one
  | _ => .none

/-- `create_command_parser` for a builtin command, `commands/main.py:65-75`. -/
def builtinCommand (desc : Desc) (name : String) : Except Exc CommandParser :=
  (mkParser (commandOptions name) desc).map fun opts => ⟨name, opts, commandPositionals name⟩

/-- `create_subparsers`, `commands/main.py:87-110`, for commands given by name. -/
def builtinCommands (desc : Desc) (names : List String) : Except Exc (List CommandParser) := names.mapM (builtinCommand desc)

end Verif
