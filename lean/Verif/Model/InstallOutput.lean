import Verif.Model.ProgramOutput
import Verif.Model.Installers
/-!
# Installing with everything it prints

`Model/Install` has what `install.py` does and what it prints on stdout. Here is the same code with the messages that go to stderr: those printed only if
verbose (`install.py:254, 268, 296-298`) and those of the checks of package managers (`package_manager_installer.py:35-126`).

Of the methods of installers only the checks of prerequisites print something (the other methods of the base classes and of the shipped plugins print
nothing); for plugins in general what they print is a parameter.
-/
namespace Verif
variable {σ α β : Type}

/-- What is printed on stderr: by `install.py` the return code of a command (line 268), or how the installation with one installer ended (lines 254, 296,
298), by an installer a line. -/
inductive Remark
  | returned (text : List Char)
  | nothing (inst : String)
  | failed (inst : String)
  | success (inst : String)
  | line (l : Line)

/-- Something done (`Model/Install`) or said. -/
inductive LogItem
  | did (e : Event)
  | said (r : Remark)

/-- Outcome of a program that also says things. -/
structure Told (σ α : Type) where
  res : Except Exc α
  st : σ
  log : List LogItem

/-- A program that also says things. -/
abbrev Tale (σ α : Type) := σ → Told σ α

/-- The outcome, with something done or said before. -/
def Told.after (log : List LogItem) : Told σ α → Told σ α
  | ⟨r, s, l⟩ => ⟨r, s, log ++ l⟩

namespace Tale

/-- Return a value. -/
def ret (a : α) : Tale σ α := fun s => ⟨.ok a, s, []⟩
/-- Sequencing (python statements): an exception ends the program. -/
def andThen (p : Tale σ α) (f : α → Tale σ β) : Tale σ β := fun s =>
  match p s with
  | ⟨.error e, st, log⟩ => ⟨.error e, st, log⟩
  | ⟨.ok a, st, log⟩ => (f a st).after log
/-- A program that says nothing. -/
def quiet (p : Prog σ α) : Tale σ α := fun s => ⟨(p s).res, (p s).st, (p s).ev.map .did⟩
/-- Something said. -/
def say (r : Remark) : Tale σ Unit := fun s => ⟨.ok (), s, [.said r]⟩
/-- Something said if verbose (`info_v`, `log_utils.py:125-134`). -/
def sayV (c : Console) (r : Remark) : Tale σ Unit := if c.verbose then say r else ret ()
/-- Lines printed. -/
def print (ls : List Line) : Tale σ Unit := fun s => ⟨.ok (), s, ls.map fun l => .said (.line l)⟩
/-- A call whose outcome is given to the continuation (to model `try`/`except` around it). -/
def attempt (f : σ → Except Exc α × σ) : Tale σ (Except Exc α) := fun s => ⟨.ok (f s).1, (f s).2, []⟩
/-- A call. -/
def call (f : σ → Except Exc α × σ) : Tale σ α := fun s => ⟨(f s).1, (f s).2, []⟩

instance : Monad (Tale σ) where
  pure := ret
  bind := andThen
end Tale

/-! ## `install.py` -/

/-- What the checks of installers print, by the name of the installer, the arguments and the state they are called in. -/
structure Voice (σ : Type) where
  general : String → OsTuple → (fix interactive : Bool) → σ → List Line
  prereq : String → List Resolution → OsTuple → (fix interactive : Bool) → σ → List Line

/-- Step 2 of `install_resolutions`, `install.py:264-274`. -/
def runCommandsTelling (c : Console) (m : Machine σ) (inst : String) (cont : Bool) : List InstErr → List Cmd → Tale σ (List InstErr × Bool)
  | errors, [] => Tale.ret (errors, false)
  | errors, cmd :: t => do
    let _ ← Tale.quiet (Prog.lift (announce m.ansi cmd))
    let r ← Tale.quiet (Prog.attempt (m.call cmd) (.exec inst cmd))
    let code ← Tale.quiet (Prog.lift r)
    let text ← Tale.quiet (Prog.lift (fmt m.ansi ("@!command return code: ".toList ++ codeText code ++ "@|".toList)))
    Tale.sayV c (.returned text)
    if code ≠ 0 then
      if cont then runCommandsTelling c m inst cont (errors ++ [.commandFailed inst cmd code]) t
      else Tale.ret (errors ++ [.commandFailed inst cmd code], true)
    else runCommandsTelling c m inst cont errors t

/-- How the installation with one installer ended, `install.py:294-298`. -/
def summary (name : String) (errors : List InstErr) : Remark := if errors.length ≠ 0 then .failed name else .success name

/-- Steps 3 and 4 of `install_resolutions`, `install.py:276-299`. -/
def verifyTelling (c : Console) (inst : Installer σ) (name : String) (errors : List InstErr) (rs : List Resolution) : Tale σ (List InstErr) := do
  let errors ← Tale.quiet (verifyItems inst name errors rs)
  Tale.sayV c (summary name errors)
  Tale.ret errors

/-- `install_resolutions` once there are commands, `install.py:253-299`. -/
def performTelling (c : Console) (m : Machine σ) (o : InstallOpts) (inst : Installer σ) (name : String) (rs : List Resolution) (commands : List Cmd) :
    Tale σ (List InstErr) :=
  if commands = [] then do
    Tale.sayV c (.nothing name)
    Tale.ret []
  else if o.simulate then do
    Tale.quiet (Prog.emit (.heading name))
    Tale.quiet (showCommands name commands)
    Tale.ret []
  else do
    let r ← runCommandsTelling c m name o.continueOnError [] commands
    if r.2 then Tale.ret r.1
    else verifyTelling c inst name r.1 rs

/-- `install_resolutions`, `install.py:223-299`. -/
def installResolutionsTelling (c : Console) (m : Machine σ) (ic : InstallerCtx σ) (o : InstallOpts) (name : String) (rs : List Resolution) :
    Tale σ (List InstErr) := do
  let inst ← Tale.quiet (Prog.lift (requireInstaller ic name))
  let r ← Tale.quiet (Prog.attempt (inst.getInstallCommands rs o.interactive o.reinstall) (.plan name rs))
  match r with
  | .error e => Tale.quiet (Prog.raise (if e.isInstallerError then .unboundLocalError else unexpected e))
  | .ok commands => performTelling c m o inst name rs commands

/-- The loop of `install_resolved`, `install.py:207-220`. -/
def installLoopTelling (c : Console) (m : Machine σ) (ic : InstallerCtx σ) (o : InstallOpts) : List InstErr → List (String × List Resolution) →
    Tale σ (List InstErr)
  | all, [] => Tale.ret all
  | all, (name, rs) :: t => do
    let errors ← installResolutionsTelling c m ic o name rs
    if errors.length ≠ 0 ∧ o.continueOnError = false then Tale.ret errors
    else installLoopTelling c m ic o (all ++ errors) t

/-- `install_resolved`, `install.py:197-220`. -/
def installResolvedTelling (c : Console) (m : Machine σ) (ic : InstallerCtx σ) (o : InstallOpts) (resolved : List (String × List Resolution)) :
    Tale σ (List InstErr) := installLoopTelling c m ic o [] (squashResolutions resolved)

/-- A check of an installer: it prints while it runs. -/
def checkTelling (said : σ → List Line) (f : σ → Except Exc Unit × σ) (mk : Except Exc Unit → Event) : Tale σ Unit := fun s =>
  ⟨(f s).1, (f s).2, ((said s).map fun l => .said (.line l)) ++ [.did (mk (f s).1)]⟩

/-- The loop of `check_general_prerequisites`, `install.py:143-151`. -/
def checkGeneralLoopTelling (v : Voice σ) (ic : InstallerCtx σ) (os : OsTuple) (fix interactive : Bool) : List String → Tale σ Unit
  | [] => Tale.ret ()
  | name :: t => do
    let inst ← Tale.quiet (Prog.lift (requireInstaller ic name))
    checkTelling (v.general name os fix interactive) (inst.checkGeneral os fix interactive) (.general name fix)
    checkGeneralLoopTelling v ic os fix interactive t

/-- `check_general_prerequisites`, `install.py:138-151`. -/
def checkGeneralTelling (v : Voice σ) (ic : InstallerCtx σ) (names : List String) (fix interactive : Bool) : Tale σ Unit := do
  let os ← Tale.quiet (Prog.lift ic.osTuple)
  checkGeneralLoopTelling v ic os fix interactive names

/-- The loop of `check_install_prerequisites`, `install.py:159-168`. -/
def checkInstallLoopTelling (v : Voice σ) (ic : InstallerCtx σ) (os : OsTuple) (fix interactive : Bool) : List (String × List Resolution) → Tale σ Unit
  | [] => Tale.ret ()
  | (name, rs) :: t => do
    let inst ← Tale.quiet (Prog.lift (requireInstaller ic name))
    checkTelling (v.prereq name rs os fix interactive) (inst.checkInstall rs os fix interactive) (.prereq name rs fix)
    checkInstallLoopTelling v ic os fix interactive t

/-- `check_install_prerequisites`, `install.py:154-168`; `m` in iteration order. -/
def checkInstallTelling (v : Voice σ) (ic : InstallerCtx σ) (m : List (String × List Resolution)) (fix interactive : Bool) : Tale σ Unit := do
  let os ← Tale.quiet (Prog.lift ic.osTuple)
  checkInstallLoopTelling v ic os fix interactive m

/-- Steps 5 and 6 of `install`, `install.py:97-111`. -/
def installPlannedTelling (c : Console) (v : Voice σ) (m : Machine σ) (ic : InstallerCtx σ) (o : InstallOpts) (resolveErrors : List (String × ResErr))
    (resolved : List (String × List Resolution)) : Tale σ InstallReport := do
  checkInstallTelling v ic (m.dictOrder (mapResolutions resolved)) o.fixPrerequisites o.interactive
  let errs ← installResolvedTelling c m ic o resolved
  Tale.ret ⟨resolveErrors, errs⟩

/-- Steps 3 to 6 of `install`, `install.py:77-111`. -/
def installAfterResolveTelling (c : Console) (v : Voice σ) (m : Machine σ) (ic : InstallerCtx σ) (o : InstallOpts) (r : Resolved) : Tale σ InstallReport := do
  checkGeneralTelling v ic (installerNames (squashResolutions (r.results.map Prod.snd))) o.fixPrerequisites o.interactive
  if o.reinstall then Tale.quiet (Prog.raise .unboundLocalError)
  else do
    let f ← Tale.quiet (filterUninstalled ic (squashResolutions (r.results.map Prod.snd)))
    if f.2.length ≠ 0 ∧ o.continueOnError = false then Tale.ret ⟨r.errors, []⟩
    else installPlannedTelling c v m ic o r.errors f.1

/-- `install`, `install.py:52-111`, for a given installer context and loaded database (for the messages of `resolve` see `resolveSaying`). -/
def installTelling (c : Console) (v : Voice σ) (m : Machine σ) (ic : InstallerCtx σ) (db : Database) (installFrom : Dict String (List String))
    (o : InstallOpts) (xylemKeys : List String) (allKeys : Bool) : Tale σ InstallReport := do
  let r ← Tale.quiet (Prog.lift (resolve ic db installFrom xylemKeys allKeys))
  if r.errors.length ≠ 0 ∧ o.continueOnError = false then Tale.ret ⟨r.errors, []⟩
  else installAfterResolveTelling c v m ic o r

/-! ## Text -/

/-- The text of what `install.py` says: lines 254, 268, 296 and 298. -/
def Remark.lines (on : Bool) : Remark → List Line
  | .returned text => [.err (text ++ ansi on "reset")]
  | .nothing n => [.err ("# [".toList ++ n.toList ++ "] no packages to install".toList ++ ansi on "reset")]
  | .failed n => [.err ("# [".toList ++ n.toList ++ "] errors during installation".toList ++ ansi on "reset")]
  | .success n => [.err ("# [".toList ++ n.toList ++ "] successfully installed".toList ++ ansi on "reset")]
  | .line l => [l]

/-- What is printed. -/
def LogItem.lines (on : Bool) (table : AnsiTable) : LogItem → List Line
  | .did e => eventLines on table e
  | .said r => r.lines on

/-- A program that says things, as code that prints. -/
def Told.run (on : Bool) (table : AnsiTable) (t : Told σ α) : Run α := ⟨t.log.flatMap (LogItem.lines on table), t.res⟩

/-! ## `PackageManagerInstaller` -/

/-- `"Package manager '{}' ..".format(self.name)` and the like: a text with a name in quotes. -/
def naming (pre : String) (name : String) (post : String) : List Char := pre.toList ++ "'".toList ++ name.toList ++ "'".toList ++ post.toList

/-- `install_package_manager`, then `is_package_manager_installed`, `package_manager_installer.py:80-81`. -/
def installAndCheck (p : PackageManager σ) (os : OsTuple) (interactive : Bool) (s : σ) : Except Exc Bool × σ :=
  match p.installPm os interactive s with
  | (.error e, s') => (.error e, s')
  | (.ok (), s') => p.isPmInstalled s'

/-- What follows the attempt to install the package manager, `package_manager_installer.py:80-89`. -/
def installedAfterFix (c : Console) (name : String) : Except Exc Bool → Tale σ Unit
  | .ok true => Tale.ret ()
  | .ok false => do
    Tale.print (error c.on (naming "Installer plugin " name " failed to install itself.")).lines
    Tale.quiet (Prog.raise .installerPrerequisiteError)
  | .error .notImplementedError => do
    Tale.print (error c.on (naming "Installer plugin " name " does not support installing itself.")).lines
    Tale.quiet (Prog.raise .installerPrerequisiteError)
  | .error e => Tale.quiet (Prog.raise e)

/-- `package_manager_installer.py:76-89`. -/
def fixInstalledTelling (c : Console) (p : PackageManager σ) (os : OsTuple) (fix interactive : Bool) : Tale σ Unit :=
  if fix then do
    Tale.print (infoV c (naming "Trying to install " p.name ".")).lines
    let r ← Tale.attempt (installAndCheck p os interactive)
    installedAfterFix c p.name r
  else Tale.quiet (Prog.raise .installerPrerequisiteError)

/-- `check_package_manager_installed`, `package_manager_installer.py:65-89`; `exe` is `executable_name`. -/
def checkInstalledTelling (c : Console) (p : PackageManager σ) (exe : String) (os : OsTuple) (fix interactive : Bool) : Tale σ Unit := do
  Tale.print (infoV c (naming "Checking if package manager " p.name " is installed.")).lines
  let b ← Tale.call p.isPmInstalled
  if b then Tale.print (infoV c (naming "Package manager " p.name " is installed.")).lines
  else do
    Tale.print (infoV c (naming "Package manager " p.name " not installed (" ++ naming "" exe " not found).")).lines
    fixInstalledTelling c p os fix interactive

/-- `update_package_manager`, then `is_package_manager_updated`, `package_manager_installer.py:116-117`. -/
def updateAndCheck (p : PackageManager σ) (interactive : Bool) (s : σ) : Except Exc Bool × σ :=
  match p.updatePm interactive s with
  | (.error e, s') => (.error e, s')
  | (.ok (), s') => p.isPmUpdated s'

/-- The warning at the end of `check_package_manager_updated`, `package_manager_installer.py:125-126`: `format` is not called. -/
def warnOutdated (c : Console) : Tale σ Unit :=
  Tale.print (warning c.on "Package manager '{}' seems to be out-of-date. Please consider updating for best results.".toList).lines

/-- What follows the attempt to update the package manager, `package_manager_installer.py:116-126`. -/
def updatedAfterFix (c : Console) (name : String) : Except Exc Bool → Tale σ Unit
  | .ok true => Tale.ret ()
  | .ok false => do
    Tale.print (error c.on (naming "Installer plugin " name " failed to update itself.")).lines
    warnOutdated c
  | .error .notImplementedError => do
    Tale.print (error c.on (naming "Installer plugin " name " does not support updating itself.")).lines
    warnOutdated c
  | .error e => Tale.quiet (Prog.raise e)

/-- `package_manager_installer.py:113-126`. -/
def fixUpdatedTelling (c : Console) (p : PackageManager σ) (fix interactive : Bool) : Tale σ Unit :=
  if fix then do
    Tale.print (infoV c (naming "Trying to update " p.name ".")).lines
    let r ← Tale.attempt (updateAndCheck p interactive)
    updatedAfterFix c p.name r
  else warnOutdated c

/-- What follows the check if the package manager is updated, `package_manager_installer.py:103-126`. -/
def updatedTelling (c : Console) (p : PackageManager σ) (fix interactive : Bool) : Except Exc Bool → Tale σ Unit
  | .ok true => Tale.print (infoV c (naming "Package manager " p.name " is updated.")).lines
  | .ok false => do
    Tale.print (infoV c (naming "Package manager " p.name " not updated.")).lines
    fixUpdatedTelling c p fix interactive
  | .error .notImplementedError =>
    Tale.print (infoV c (naming "Check if package manager " p.name " is updated not implemented; skipping check.")).lines
  | .error e => Tale.quiet (Prog.raise e)

/-- `check_package_manager_updated`, `package_manager_installer.py:97-126`. -/
def checkUpdatedTelling (c : Console) (p : PackageManager σ) (fix interactive : Bool) : Tale σ Unit := do
  Tale.print (infoV c (naming "Checking if package manager " p.name " is updated.")).lines
  let r ← Tale.attempt p.isPmUpdated
  updatedTelling c p fix interactive r

/-- `check_general_prerequisites`, `package_manager_installer.py:35-44`. -/
def checkPmTelling (c : Console) (p : PackageManager σ) (exe : String) (os : OsTuple) (fix interactive : Bool) : Tale σ Unit := do
  Tale.print (infoV c (naming "Checking general prerequisites of installer " p.name "...")).lines
  checkInstalledTelling c p exe os fix interactive
  checkUpdatedTelling c p fix interactive

/-- `check_install_prerequisites`, `package_manager_installer.py:51-57`. -/
def checkInstallPmTelling (c : Console) (p : PackageManager σ) : Tale σ Unit :=
  Tale.print (infoV c (naming "Checking install prerequisites of installer " p.name "... No checks implemented.")).lines

/-! ## The program -/

/-- `main` of `commands/install.py:53-77`, with everything that is printed. -/
def installFuncTelling (t : Texts) (v : Console → Voice σ) (env : StartEnv) (w : Surroundings σ) (text : String × ResErr → List Char)
    (itext : InstErr → List Char) (keys : List String) (s : σ) (p : Process) (ns : ArgSpace) : Run (Option Int) :=
  (interruptible p.color (do
    let x ← contextSaying (p.console t) env w p.config
    let i ← resolveInputsSaying (p.console t) env w p.config
    let _ ← resolveSaying (p.console t) x.1.context i.1 i.2 keys (installArgsOf ns keys).all
    let r ← Told.run p.color w.machine.ansi (installTelling (p.console t) (v (p.console t)) w.machine x.1.context i.1 i.2 (installArgsOf ns keys).opts keys
      (installArgsOf ns keys).all s)
    printReport p.color text itext r)).returnsNone

/-- The program `xylem install` with everything it prints, `commands/main.py:124-156`. -/
def xylemInstallTelling (t : Texts) (v : Console → Voice σ) (env : StartEnv) (w : Surroundings σ) (desc : Desc) (text : Bool → Exc → List Char)
    (etext : String × ResErr → List Char) (itext : InstErr → List Char) (fresh : Bool) (top sub : List OptSpec) (p : Process)
    (before after : List Given) (keys : List String) (s : σ) : Process × Finished :=
  mainWith env desc text fresh top sub (requireKeys keys) (installFuncTelling t v env w etext itext keys s) p before after

end Verif
