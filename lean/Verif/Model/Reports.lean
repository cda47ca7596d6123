import Verif.Model.Commands
/-! # What opening the database and updating it print: `xylem/sources/impl.py`, `xylem/sources/database.py`

Not modelled: `debug` lines; the texts of exceptions and python's rendering of values that are not text are parameters. -/
namespace Verif

/-! ## Opening the database -/

/-- `warning(msg)`, `log_utils.py:94-106`. -/
def warning (on : Bool) (msg : List Char) : Run Unit := ⟨[.err (ansi on "yellowf" ++ msg ++ ansi on "reset")], .ok ()⟩

/-- `if is_verbose(): info(msg)`, `sources/impl.py:71-72`, `database.py:208-209`. -/
def infoIf (on verbose : Bool) (msg : List Char) : Run Unit := if verbose then info on msg else pure ()

/-- The warning that default sources are used, `database.py:205-207`. -/
def warnDefault (on : Bool) (defaultSources defaultCache : String) (p : SourcesPaths) : Run Unit :=
  if isDefaultDirs defaultSources defaultCache p then pure ()
  else warning on ("no source files found in source dir '".toList ++ p.sourcesDir.toList ++ "'; using default sources".toList)

/-- The choice between the sources dir and the default sources, `database.py:202-210`, `sources/impl.py:63-73`. -/
def chooseSaying (on verbose : Bool) (defaultSources defaultCache : String) (p : SourcesPaths) (w : SourcesWorld) : Run Unit :=
  if w.dirExists then infoIf on verbose ("Loading source urls from '".toList ++ p.sourcesDir.toList ++ "'".toList)
  else do
    warnDefault on defaultSources defaultCache p
    infoIf on verbose "Loading default source urls".toList

/-- `parse_source_descriptions`, `sources/impl.py:117-144`, with the message about invalid YAML; `ytext` is what follows the name of the file. -/
def parseSaying (on : Bool) (ytext : String → List Char) (file : String) (parsed : Except Exc PVal) : Run PVal :=
  match parsed with
  | .error e =>
    if e = .yamlError then do
      error on ("Invalid YAML in source list file '".toList ++ file.toList ++ "'".toList ++ ytext file)
      pure (.list [])
    else Run.lift (.error e)
  | .ok v => Run.lift (parseSourceDescriptions (.ok v))

/-- The nested loops of `init_from_sources`, `database.py:211-219`, with what is printed while the files are parsed. -/
def initSaying (on : Bool) (ytext : String → List Char) (plugins : List Spec) : List (String × Except Exc PVal) → Run (List Source)
  | [] => pure []
  | (file, parsed) :: rest => do
    let v ← parseSaying on ytext file parsed
    let descrs ← Run.lift (iterVal v)
    let l ← Run.lift (descrs.mapM (mkSourceOfDescr plugins file))
    let r ← initSaying on ytext plugins rest
    pure (l ++ r)

/-- `RulesDatabase(sources_context)`, `database.py:190-220`, with its messages. -/
def openSaying (on verbose : Bool) (ytext : String → List Char) (defaultSources defaultCache : String) (env : CacheEnv) (plugins : List Spec)
    (w : SourcesWorld) (p : SourcesPaths) : Run (List Source) := do
  chooseSaying on verbose defaultSources defaultCache p w
  let sources ← initSaying on ytext plugins (sourceFiles w p.sourcesDir)
  Run.lift (verifyUniqueIds env sources)
  pure sources

/-! ## `RulesDatabase.update` -/

/-- What `RulesDatabase.update` does that can be seen from outside: the two progress messages, changes of the file system, and the messages about
sources that could not be loaded or saved. -/
inductive UpdateEvent
  | processing (origin : PVal)
  | loading (name : String) (arguments : PVal)
  | step (f : FsStep)
  | notLoaded (id : PVal) (e : Exc)
  | notSaved (id : PVal) (e : Exc)

/-- An update: its events, the sources after it, the exception raised (if any). -/
structure UpdateTrace where
  events : List UpdateEvent
  sources : List Source
  raised : Option Exc

/-- `source.origin not in origins` (a python set), `database.py:283`: lists and dicts cannot be looked up in a set. -/
def originSeen (seen : List PVal) : PVal → Except Exc Bool
  | .list _ => .error .typeError
  | .dict _ => .error .typeError
  | v => .ok (seen.any (pyEq v))

/-- The progress messages for one source, `database.py:283-289`, and the set of origins afterwards. -/
def announceSource (printInfo : Bool) (seen : List PVal) (s : Source) : Except Exc (List UpdateEvent × List PVal) := do
  let known ← originSeen seen s.origin
  let head := if known then [] else [UpdateEvent.processing s.origin]
  pure (if printInfo then head ++ [.loading s.spec.name s.arguments] else [], if known then seen else s.origin :: seen)

/-- Loading and saving one source, `database.py:290-308`: the events, the source afterwards, the exception that leaves the loop. -/
def refreshSource (env : CacheEnv) (raiseOnError : Bool) (s : Source) (o : Outcome) : List UpdateEvent × Source × Option Exc :=
  match s.loadFromSource o.net o.now with
  | .error e =>
    if reraises raiseOnError e then ([], s, some e)
    else ([.notLoaded (s.spec.uniqueId s.arguments) e], s, none)
  | .ok s' =>
    let w := s'.saveToCache env o.write
    match w.2 with
    | some e =>
      if reraises raiseOnError e then (w.1.map .step, s', some e)
      else (w.1.map .step ++ [.notSaved (s'.spec.uniqueId s'.arguments) e], s', none)
    | none => (w.1.map .step, s', none)

/-- `RulesDatabase.update`, `database.py:273-308`, with its messages; `seen` is the set `origins`. The forming of messages is taken to succeed (see
`dbUpdateSaying` for when it does not). -/
def updateTelling (env : CacheEnv) (printInfo raiseOnError : Bool) (seen : List PVal) : List (Source × Outcome) → UpdateTrace
  | [] => ⟨[], [], none⟩
  | (s, o) :: rest =>
    match announceSource printInfo seen s with
    | .error e => ⟨[], s :: rest.map Prod.fst, some e⟩
    | .ok a =>
      let r := refreshSource env raiseOnError s o
      match r.2.2 with
      | some e => ⟨a.1 ++ r.1, r.2.1 :: rest.map Prod.fst, some e⟩
      | none =>
        let t := updateTelling env printInfo raiseOnError a.2 rest
        ⟨a.1 ++ r.1 ++ t.events, r.2.1 :: t.sources, t.raised⟩

/-- The lines of an event, `database.py:286-289, 297-298, 307-308`; `str` renders values, `text` exceptions. -/
def UpdateEvent.lines (on : Bool) (str : PVal → List Char) (text : Exc → List Char) : UpdateEvent → List Line
  | .processing origin => (info on ("Processing '".toList ++ str origin ++ "'...".toList)).lines
  | .loading name arguments => (info on ("Loading: ".toList ++ name.toList ++ " : ".toList ++ str arguments)).lines
  | .step _ => []
  | .notLoaded id e => (error on ("Failed to load source '".toList ++ str id ++ "':\n".toList ++ text e)).lines
  | .notSaved id e => (error on ("Failed to save source '".toList ++ str id ++ "' to cache:\n".toList ++ text e)).lines

/-- The trace as code that prints. -/
def UpdateTrace.run (on : Bool) (str : PVal → List Char) (text : Exc → List Char) (t : UpdateTrace) : Run Unit :=
  ⟨t.events.flatMap (UpdateEvent.lines on str text), match t.raised with
    | some e => .error e
    | none => .ok ()⟩

/-- `update`, `update.py:61-86`, with what it prints. -/
def updateSaying (on verbose : Bool) (ytext : String → List Char) (str : PVal → List Char) (text : Exc → List Char)
    (defaultSources defaultCache : String) (env : CacheEnv) (plugins : List Spec) (dir : DirWorld) (w : SourcesWorld) (p : SourcesPaths)
    (outcome : Source → Outcome) : Run Unit := do
  Run.lift (ensureCacheDir dir)
  let sources ← openSaying on verbose ytext defaultSources defaultCache env plugins w p
  UpdateTrace.run on str text (updateTelling env true false [] (sources.map fun s => (s, outcome s)))

/-- `main` of `commands/update.py:43-49`, with what it prints. -/
def updateCommandSaying (on verbose : Bool) (ytext : String → List Char) (str : PVal → List Char) (text : Exc → List Char)
    (defaultSources defaultCache : String) (env : CacheEnv) (plugins : List Spec) (dir : DirWorld) (w : SourcesWorld) (p : SourcesPaths)
    (outcome : Source → Outcome) : Run Unit :=
  interruptible on (updateSaying on verbose ytext str text defaultSources defaultCache env plugins dir w p outcome)

end Verif
