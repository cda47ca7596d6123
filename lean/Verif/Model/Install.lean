import Verif.Model.Resolve
import Verif.Model.Text
/-!
# Model of `xylem/install.py`

A program runs from a machine state to a result (or exception), a final state, and the list of observable events. Installer methods
only transform the state; events are recorded by the code of `install.py` itself.
-/
namespace Verif

/-- What `install.py` does, in order: asking an installer for commands (`install.py:237`), running a command (`install.py:267`), asking
an installer if an item is installed (`install.py:279`), filtering (`install.py:180`), checking prerequisites (`install.py:148, 164`);
each with its outcome. When simulating: the heading and the commands shown (`install.py:259, 261`). -/
inductive Event
  | plan (inst : String) (items : List Resolution) (outcome : Except Exc (List Cmd))
  | exec (inst : String) (cmd : Cmd) (outcome : Except Exc Int)
  | probe (inst : String) (item : Resolution) (outcome : Except Exc Bool)
  | filter (inst : String) (items : List Resolution) (outcome : Except Exc (List Resolution))
  | general (inst : String) (fix : Bool) (outcome : Except Exc Unit)
  | prereq (inst : String) (items : List Resolution) (fix : Bool) (outcome : Except Exc Unit)
  | heading (inst : String)
  | shown (inst : String) (cmd : Cmd)

/-- Outcome of a program. -/
structure Out (σ α : Type) where
  res : Except Exc α
  st : σ
  ev : List Event

/-- A program (python code with effects). -/
abbrev Prog (σ α : Type) := σ → Out σ α

namespace Prog
variable {σ α β : Type}

/-- Return a value. -/
def ret (a : α) : Prog σ α := fun s => ⟨.ok a, s, []⟩
/-- Raise an exception. -/
def raise (e : Exc) : Prog σ α := fun s => ⟨.error e, s, []⟩
/-- Sequencing (python statements): an exception ends the program. -/
def andThen (p : Prog σ α) (f : α → Prog σ β) : Prog σ β := fun s =>
  match (p s).res with
  | .error e => ⟨.error e, (p s).st, (p s).ev⟩
  | .ok a => ⟨(f a (p s).st).res, (f a (p s).st).st, (p s).ev ++ (f a (p s).st).ev⟩
/-- An expression without effect. -/
def lift (x : Except Exc α) : Prog σ α := fun s => ⟨x, s, []⟩
/-- A call whose outcome is recorded and given to the continuation (to model `try`/`except` around it). -/
def attempt (f : σ → Except Exc α × σ) (mk : Except Exc α → Event) : Prog σ (Except Exc α) := fun s =>
  ⟨.ok (f s).1, (f s).2, [mk (f s).1]⟩

/-- Printing something on stdout. -/
def emit (e : Event) : Prog σ Unit := fun s => ⟨.ok (), s, [e]⟩

instance : Monad (Prog σ) where
  pure := ret
  bind := andThen
end Prog

/-- Reported installation errors (`InstallError`s), `install.py:182, 241, 270, 280, 284`. -/
inductive InstErr
  | commandFailed (inst : String) (cmd : Cmd) (code : Int)
  | notDetected (inst : String) (item : Resolution)
  | checkFailed (inst : String) (item : Resolution) (e : Exc)
  | filterFailed (inst : String) (e : Exc)

/-- Options of an installation, `install.py:52-58`. -/
structure InstallOpts where
  interactive : Bool := true
  reinstall : Bool := false
  simulate : Bool := false
  continueOnError : Bool := false
  fixPrerequisites : Bool := false

/-- The machine: running a command (`subprocess.call`, which raises e.g. OSError if the program does not exist), the colour table, and
the order in which python iterates over a dict built by `_map_resolutions` (`install.py:159`; any permutation in python 2.7). -/
structure Machine (σ : Type) where
  call : Cmd → σ → Except Exc Int × σ
  ansi : AnsiTable
  dictOrder : Dict String (List Resolution) → List (String × List Resolution) := id

/-- `_installer_names`, `install.py:114-115`. -/
def installerNames (resolved : List (String × List Resolution)) : List String := removeDuplicates (resolved.map Prod.fst)

/-- One step of `_map_resolutions`, `install.py:120-123`. -/
def mapResolutionsStep (m : Dict String (List Resolution)) (p : String × List Resolution) : Dict String (List Resolution) :=
  dset m p.1 ((dget m p.1).getD [] ++ p.2)

/-- `_map_resolutions`, `install.py:118-124`. -/
def mapResolutions (resolved : List (String × List Resolution)) : Dict String (List Resolution) :=
  resolved.foldl mapResolutionsStep []

/-- `squashed[-1][1].extend(resolutions)`, `install.py:134`; an empty list is not reached. -/
def extendLast : List (String × List Resolution) → List Resolution → List (String × List Resolution)
  | [], _ => []
  | [(n, l)], rs => [(n, l ++ rs)]
  | x :: y :: t, rs => x :: extendLast (y :: t) rs

/-- The loop of `_squash_resolutions`, `install.py:130-134`: `squashed` and `previous_installer_name`. -/
def squashGo : List (String × List Resolution) → Option String → List (String × List Resolution) → List (String × List Resolution)
  | squashed, _, [] => squashed
  | squashed, prev, (n, rs) :: t =>
    if prev = some n then squashGo (extendLast squashed rs) prev t
    else squashGo (extendLast (squashed ++ [(n, [])]) rs) (some n) t

/-- `_squash_resolutions`, `install.py:127-135`. -/
def squashResolutions (resolved : List (String × List Resolution)) : List (String × List Resolution) := squashGo [] none resolved

variable {σ : Type}

/-- `installer_context.lookup_installer(..)` and the check for `None`, `install.py:144-147` (and 160-163, 175-178, 230-233). -/
def requireInstaller (ic : InstallerCtx σ) (name : String) : Except Exc (Installer σ) :=
  match lookupInstaller ic name with
  | some i => .ok i
  | none => .error .xylemInternalError

/-- The loop of `check_general_prerequisites`, `install.py:143-151`. -/
def checkGeneralLoop (ic : InstallerCtx σ) (os : OsTuple) (fix interactive : Bool) : List String → Prog σ Unit
  | [] => Prog.ret ()
  | name :: t => do
    let inst ← Prog.lift (requireInstaller ic name)
    let r ← Prog.attempt (inst.checkGeneral os fix interactive) (.general name fix)
    Prog.lift r
    checkGeneralLoop ic os fix interactive t

/-- `check_general_prerequisites`, `install.py:138-151`. -/
def checkGeneralPrerequisites (ic : InstallerCtx σ) (names : List String) (fix interactive : Bool) : Prog σ Unit := do
  let os ← Prog.lift ic.osTuple
  checkGeneralLoop ic os fix interactive names

/-- The loop of `check_install_prerequisites`, `install.py:159-168`. -/
def checkInstallLoop (ic : InstallerCtx σ) (os : OsTuple) (fix interactive : Bool) : List (String × List Resolution) → Prog σ Unit
  | [] => Prog.ret ()
  | (name, rs) :: t => do
    let inst ← Prog.lift (requireInstaller ic name)
    let r ← Prog.attempt (inst.checkInstall rs os fix interactive) (.prereq name rs fix)
    Prog.lift r
    checkInstallLoop ic os fix interactive t

/-- `check_install_prerequisites`, `install.py:154-168`; `m` in iteration order. -/
def checkInstallPrerequisites (ic : InstallerCtx σ) (m : List (String × List Resolution)) (fix interactive : Bool) : Prog σ Unit := do
  let os ← Prog.lift ic.osTuple
  checkInstallLoop ic os fix interactive m

/-- `except InstallerError .. except Exception: raise_from(XylemInternalError ..)`, `install.py:186-190, 246-251, 288-292`: the exception
that leaves the second clause. -/
def unexpected (e : Exc) : Exc := if e.isException then .xylemInternalError else e

/-- The loop of `filter_uninstalled`, `install.py:174-194`. -/
def filterLoop (ic : InstallerCtx σ) : List (String × List Resolution) → List InstErr → List (String × List Resolution) →
    Prog σ (List (String × List Resolution) × List InstErr)
  | uninstalled, errors, [] => Prog.ret (uninstalled, errors)
  | uninstalled, errors, (name, rs) :: t => do
    let inst ← Prog.lift (requireInstaller ic name)
    let r ← Prog.attempt (inst.filterUninstalled rs) (.filter name rs)
    match r with
    | .ok rs' => filterLoop ic (if rs' = [] then uninstalled else uninstalled ++ [(name, rs')]) errors t
    | .error e =>
      if e.isInstallerError then
        filterLoop ic (if rs = [] then uninstalled else uninstalled ++ [(name, rs)]) (errors ++ [.filterFailed name e]) t
      else Prog.raise (unexpected e)

/-- `filter_uninstalled`, `install.py:171-194`. -/
def filterUninstalled (ic : InstallerCtx σ) (resolved : List (String × List Resolution)) :
    Prog σ (List (String × List Resolution) × List InstErr) := filterLoop ic [] [] resolved

/-- The words of a command as texts, for `' '.join(cmd)` (python builtin): TypeError if one is not text. -/
def cmdWords : Cmd → Except Exc (List (List Char))
  | [] => .ok []
  | some w :: t => do let r ← cmdWords t; pure (w.toList :: r)
  | none :: _ => .error .typeError

/-- `' '.join(cmd)` (python builtin). -/
def joinCmd (cmd : Cmd) : Except Exc (List Char) := do
  let ws ← cmdWords cmd
  pure (pyJoin [' '] ws)

/-- `fmt("@!executing command: %s@|" % ' '.join(cmd))`, `install.py:266`. -/
def announce (ansi : AnsiTable) (cmd : Cmd) : Except Exc (List Char) := do
  let line ← joinCmd cmd
  fmt ansi ("@!executing command: ".toList ++ line ++ "@|".toList)

/-- Decimal text of an exit code, `install.py:268`. -/
def codeText (code : Int) : List Char := (toString code).toList

/-- Step 2 of `install_resolutions`, `install.py:264-274`. The flag tells that the function returns the errors here. -/
def runCommands (m : Machine σ) (inst : String) (cont : Bool) : List InstErr → List Cmd → Prog σ (List InstErr × Bool)
  | errors, [] => Prog.ret (errors, false)
  | errors, cmd :: t => do
    let _ ← Prog.lift (announce m.ansi cmd)
    let r ← Prog.attempt (m.call cmd) (.exec inst cmd)
    let code ← Prog.lift r
    let _ ← Prog.lift (fmt m.ansi ("@!command return code: ".toList ++ codeText code ++ "@|".toList))
    if code ≠ 0 then
      if cont then runCommands m inst cont (errors ++ [.commandFailed inst cmd code]) t
      else Prog.ret (errors ++ [.commandFailed inst cmd code], true)
    else runCommands m inst cont errors t

/-- Step 3 of `install_resolutions`, `install.py:276-292`. -/
def verifyItems (inst : Installer σ) (name : String) : List InstErr → List Resolution → Prog σ (List InstErr)
  | errors, [] => Prog.ret errors
  | errors, item :: t => do
    let r ← Prog.attempt (inst.isInstalled item) (.probe name item)
    match r with
    | .ok true => verifyItems inst name errors t
    | .ok false => verifyItems inst name (errors ++ [.notDetected name item]) t
    | .error e =>
      if e.isInstallerError then verifyItems inst name (errors ++ [.checkFailed name item e]) t
      else Prog.raise (unexpected e)

/-- The loop of step 1 of `install_resolutions`, `install.py:260-261`. -/
def showCommands (inst : String) : List Cmd → Prog σ Unit
  | [] => Prog.ret ()
  | cmd :: t => do
    let _ ← Prog.lift (joinCmd cmd)
    Prog.emit (.shown inst cmd)
    showCommands inst t

/-- `install_resolutions`, `install.py:223-299`. If composing the commands raises an InstallerError the local variable `commands` is not
bound when it is read in line 253. -/
def installResolutions (m : Machine σ) (ic : InstallerCtx σ) (o : InstallOpts) (name : String) (rs : List Resolution) :
    Prog σ (List InstErr) := do
  let inst ← Prog.lift (requireInstaller ic name)
  let c ← Prog.attempt (inst.getInstallCommands rs o.interactive o.reinstall) (.plan name rs)
  match c with
  | .error e => Prog.raise (if e.isInstallerError then .unboundLocalError else unexpected e)
  | .ok commands =>
    if commands = [] then Prog.ret []
    else if o.simulate then do
      Prog.emit (.heading name)
      showCommands name commands
      Prog.ret []
    else do
      let r ← runCommands m name o.continueOnError [] commands
      if r.2 then Prog.ret r.1
      else verifyItems inst name r.1 rs

/-- The loop of `install_resolved`, `install.py:207-220`. -/
def installLoop (m : Machine σ) (ic : InstallerCtx σ) (o : InstallOpts) : List InstErr → List (String × List Resolution) →
    Prog σ (List InstErr)
  | all, [] => Prog.ret all
  | all, (name, rs) :: t => do
    let errors ← installResolutions m ic o name rs
    if errors.length ≠ 0 ∧ o.continueOnError = false then Prog.ret errors
    else installLoop m ic o (all ++ errors) t

/-- `install_resolved`, `install.py:197-220`. -/
def installResolved (m : Machine σ) (ic : InstallerCtx σ) (o : InstallOpts) (resolved : List (String × List Resolution)) :
    Prog σ (List InstErr) := installLoop m ic o [] (squashResolutions resolved)

/-- What `install` returns, `install.py:111`: resolve errors and install errors. -/
structure InstallReport where
  resolveErrors : List (String × ResErr)
  installErrors : List InstErr

/-- Steps 5 and 6 of `install`, `install.py:97-111`. -/
def installPlanned (m : Machine σ) (ic : InstallerCtx σ) (o : InstallOpts) (resolveErrors : List (String × ResErr))
    (resolved : List (String × List Resolution)) : Prog σ InstallReport := do
  checkInstallPrerequisites ic (m.dictOrder (mapResolutions resolved)) o.fixPrerequisites o.interactive
  let errs ← installResolved m ic o resolved
  Prog.ret ⟨resolveErrors, errs⟩

/-- Steps 3 to 6 of `install`, `install.py:77-111`. With `reinstall` the local variable `uninstalled_errors` is not bound when it is read
in line 94. -/
def installAfterResolve (m : Machine σ) (ic : InstallerCtx σ) (o : InstallOpts) (r : Resolved) : Prog σ InstallReport := do
  let resolved := squashResolutions (r.results.map Prod.snd)
  checkGeneralPrerequisites ic (installerNames resolved) o.fixPrerequisites o.interactive
  if o.reinstall then Prog.raise .unboundLocalError
  else do
    let f ← filterUninstalled ic resolved
    if f.2.length ≠ 0 ∧ o.continueOnError = false then Prog.ret ⟨r.errors, []⟩
    else installPlanned m ic o r.errors f.1

/-- `install`, `install.py:52-111`, for a given installer context and loaded database. -/
def install (m : Machine σ) (ic : InstallerCtx σ) (db : Database) (installFrom : Dict String (List String)) (o : InstallOpts)
    (xylemKeys : List String) (allKeys : Bool) : Prog σ InstallReport := do
  let r ← Prog.lift (resolve ic db installFrom xylemKeys allKeys)
  if r.errors.length ≠ 0 ∧ o.continueOnError = false then Prog.ret ⟨r.errors, []⟩
  else installAfterResolve m ic o r

end Verif
