import Verif.Model.Program
import Verif.Model.Text
/-!
# What the interpreter does with exceptions nobody caught

`util.py:89-136` and the text of exceptions `main` prints (`commands/main.py:144-149`), with the causes of exceptions.
-/
namespace Verif

/-- The surroundings of the process: the name of the running script (`running_script_name`, `util.py:130-132`), whether python is interactive
(`hasattr(sys, 'ps1')`) and whether stderr is a terminal. -/
structure Interp where
  script : String
  ps1 : Bool
  stderrTty : Bool

/-- An exception with its causes, nearest first (as in `Model/Text`). -/
structure Chain where
  exc : ExcInfo
  causes : List ExcInfo

/-- `exc_to_str(e, tb=tb, chain=True)` in an `except` clause for `e`, `commands/main.py:146, 148`. -/
def Chain.caught (c : Chain) (tb : Bool) : List Char := excToStr true tb true c.exc c.causes

/-- `exc_to_str(value, tb)` for the traceback of the exception, `util.py:117`: the traceback is there, as if it were looked up. -/
def Chain.uncaught (c : Chain) : List Char := excToStr true true true c.exc c.causes

/-- Python 2's own handler: the exception with its traceback, without causes (python 2 has no `__cause__`). The text ends with a newline, which here belongs
to the line. -/
def Chain.plain (c : Chain) : List Char := rstripNewline c.exc.renderTb

/-- Whether the debugger is started, `util.py:118-123`. -/
def startsDebugger (i : Interp) (pdb : Bool) : Bool := if (!pdb || i.ps1) || !i.stderrTty then false else true

/-- A process that is over: what it printed, whether it started the debugger, and its status. -/
structure Stopped where
  lines : List Line
  debugger : Bool
  status : Int

/-- What the interpreter does at the end: nothing more on `sys.exit`; an exception is given to the hook, if the script is called `xylem`
(`util.py:115-136`), else to python's own. -/
def Finished.stop (i : Interp) (pdb : Bool) (chain : Exc → Chain) (f : Finished) : Stopped :=
  match f.ending with
  | .exit c => ⟨f.lines, false, (Ending.exit c).status⟩
  | .traceback e =>
    if i.script = "xylem" then ⟨f.lines ++ [.err (chain e).uncaught], startsDebugger i pdb, (Ending.traceback e).status⟩
    else ⟨f.lines ++ [.err (chain e).plain], false, (Ending.traceback e).status⟩

/-- The text of exceptions in `main`, `commands/main.py:146, 148`. -/
def caughtText (chain : Exc → Chain) (tb : Bool) (e : Exc) : List Char := (chain e).caught tb

/-- A whole process: `main` (`commands/main.py:124-156`), then the interpreter. -/
def wholeProcess (i : Interp) (chain : Exc → Chain) (env : StartEnv) (desc : Desc) (fresh : Bool) (top sub : List OptSpec) (positional : Except Exc Unit)
    (func : Process → ArgSpace → Run (Option Int)) (p : Process) (before after : List Given) : Stopped :=
  match mainWith env desc (caughtText chain) fresh top sub positional func p before after with
  | (p', f) => f.stop i p'.pdb chain

end Verif
