import Verif.Model.ProgramOutput
import Verif.Spec.Resolve
/-! # Specification vocabulary for the messages of setting up -/
namespace Verif
variable {σ : Type}

/-- A message: a problem, which is always shown, or chat, which is shown if verbose. Both go to stderr. -/
inductive Note
  | problem (text : List Char)
  | chat (text : List Char)

/-- What is shown of messages (colours off). -/
def shownNotes (verbose : Bool) : List Note → List Line
  | [] => []
  | .problem t :: l => .err t :: shownNotes verbose l
  | .chat t :: l => if verbose then .err t :: shownNotes verbose l else shownNotes verbose l

/-- Text from pieces. -/
def words (l : List (List Char)) : List Char := l.flatten

/-- A text in quotes. -/
def quoted (t : List Char) : List Char := words ["'".toList, t, "'".toList]

/-- What there is to say about an entry point for plugins of a kind. -/
def pluginNote (c : Texts) (kind group : String) (n : Nat) : LoadReport → Note
  | .loaded name obj => .chat (words ["Loaded ".toList, kind.toList, " plugin ".toList, quoted (c.str name), " with ".toList, kind.toList, " name ".toList,
      quoted obj.toList, ".".toList])
  | .disabled name => .chat (words ["Skipping disabled ".toList, kind.toList, " plugin ".toList, quoted (c.str name), ".".toList])
  | .invalidDefinition => .problem (words ["Skipping ".toList, kind.toList, " plugin. Failed to load from ".toList, quoted group.toList,
      " entry point with name ".toList, quoted (c.entryName kind n), ":\n".toList, c.badDefinition kind n])
  | .invalidPlugin name => .problem (words ["Skipping ".toList, kind.toList, " plugin ".toList, quoted (c.str name), ". Plugin is invalid:\n".toList,
      c.badPlugin kind n])
  | .duplicate name _ => .problem (words ["Ignoring ".toList, kind.toList, " plugin ".toList, quoted (c.str name), " with duplicate name ".toList,
      quoted (c.str name)])

/-- One message per entry point, in order. -/
def pluginNotes (c : Texts) (kind group : String) (reports : List LoadReport) : List Note := reports.zipIdx.map fun r => pluginNote c kind group r.2 r.1

/-- What there is to say about the os: whether it was detected or overridden. -/
def osNotes (override : OverrideVal) (os : OsTuple) : List Note :=
  match override with
  | .none => [.chat (words ["detected OS [".toList, os.1.toList, ":".toList, os.2.toList, "]".toList])]
  | .pair n (some v) => [.chat (words ["overriding OS to [".toList, n.toList, ":".toList, v.toList, "]".toList])]
  | .pair n none => [.chat (words ["overriding OS to [".toList, n.toList, ":None]".toList]),
      .chat (words ["detected OS version [".toList, os.1.toList, ":".toList, os.2.toList, "]".toList])]
  | .text _ => []

/-- The keys given that no option has. -/
def unknownOf (given : PVal) (known : Config) : List PKey :=
  match given with
  | .dict d => (d.map Prod.fst).filter fun k => decide (k ∉ known.map fun o => PKey.str o.1)
  | _ => []

/-- What there is to say about options that are not known. -/
def optionNotes (c : Texts) (what name : String) (given : PVal) (known : Config) : List Note :=
  match unknownOf given known with
  | [] => []
  | k :: l => [.problem (words ["ignoring the following unknown options for ".toList, what.toList, " ".toList, quoted name.toList, ": ".toList, c.keys (k :: l),
      " -- known options are: ".toList, c.keys (known.map fun o => .str o.1)])]

/-- What there is to say about the installers: where the names of the core installers come from and which they are, the names without installer, and
the additional installers. -/
def installerNotes (fromConfig : Bool) (names missing additional : List String) : List Note :=
  [.chat (words ["setting up core installers from ".toList, if fromConfig then "config".toList else "os plugin".toList, ": ".toList,
      quoted (pyJoin ", ".toList (names.map String.toList))])] ++
  missing.map (fun n => .problem (words ["ignoring core installer ".toList, quoted n.toList, "; according plugin was not found".toList])) ++
  [.chat (words ["Using additional installers: ".toList, quoted (pyJoin ", ".toList (additional.map String.toList))])]

/-- What there is to say about a pair of an installer and a key if an earlier one has its key. -/
def ignoredNote (earlier : List (String × String)) (q : String × String) : List Note :=
  match earlier.find? fun e => e.2 == q.2 with
  | some e => [.problem (words ["ignoring 'install from ".toList, q.1.toList, "' for key ".toList, quoted q.2.toList,
      "; already configured to install from ".toList, quoted e.1.toList])]
  | none => []

/-- What there is to say about `install_from`, as pairs of an installer and a key: a pair is ignored if an earlier one has its key; `earlier` are the pairs
before. -/
def installFromNotes (earlier : List (String × String)) : List (String × String) → List Note
  | [] => []
  | q :: t => ignoredNote earlier q ++ installFromNotes (earlier ++ [q]) t

/-- The pairs of installer and key in `install_from`, in order. -/
def installFromPairs (d : Dict String (List String)) : List (String × String) := d.flatMap fun e => e.2.map fun k => (e.1, k)

/-- The message that a rule was found. -/
def foundText (key : String) (how : String) (inst : String) : List Char :=
  words ["found rule for key ".toList, quoted key.toList, " for ".toList, how.toList, " installer ".toList, quoted inst.toList]

/-- What there is to say about the choice of an installer for a key: `requested` is the installer `install_from` asks for, `loaded`, `core` and
`additional` are names of installers, `withRule` the names of installers the key has rules for. -/
def foundNotes (requested : Option String) (loaded core additional withRule : List String) (key : String) : List Note :=
  match requested with
  | some i => if i ∈ loaded ∧ i ∈ withRule then [.chat (foundText key "explicitly requested" i)] else []
  | none =>
    match core.find? fun i => i ∈ withRule with
    | some i => [.chat (foundText key "core" i)]
    | none => (additional.filter fun i => i ∈ withRule).map fun i => .chat (foundText key "additional" i)

/-- The installer the first pair with this key asks for. -/
def requestedFrom (pairs : List (String × String)) (key : String) : Option String := (pairs.find? fun e => e.2 == key).map Prod.fst

/-- What is said when a key is resolved whose rules are `d`: about the choice, then the warnings of the chosen installer about its rule. -/
def KeyNotes (c : Texts) (ic : InstallerCtx σ) (f : Dict String (List String)) (key : String) (d : InstDict) (notes : List Note) : Prop :=
  ∃ warned : List (List Char),
    notes = foundNotes (requestedFrom (installFromPairs f) key) (ic.plugins.map (·.name)) (ic.core.map (·.name)) (ic.additional.map (·.name))
      (d.map Prod.fst) key ++ warned.map .problem ∧
    ((∃ i rule, Chosen ic f key d i rule ∧ warned = c.ruleWarnings i.name rule) ∨ ((∀ i rule, ¬ Chosen ic f key d i rule) ∧ warned = []))

/-- What is said about a key: nothing if looking it up fails. -/
def SaidOf (c : Texts) (ic : InstallerCtx σ) (f : Dict String (List String)) (lookup : String → Except Exc InstDict) (key : String) (notes : List Note) : Prop :=
  (∃ d, lookup key = .ok d ∧ KeyNotes c ic f key d notes) ∨ ((∃ e, lookup key = .error e) ∧ notes = [])

end Verif
