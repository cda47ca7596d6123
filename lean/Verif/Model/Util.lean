import Verif.Model.Expand
/-! # Model of the context managers of `xylem/util.py`

A process has a current directory, the two variables `sys.stdout` and `sys.stderr`, and sees a file system. The
objects of the three context manager classes are numbered; their attributes are part of the state, so that a block can
use the object that guards it a second time. Blocks are arbitrary functions on the state.

Simplifications: paths are absolute lists of names, without symbolic links; a relative `directory` argument stands
here joined with the current directory; the python exceptions of system calls are all `OSError`. -/
namespace Verif

/-- What the file system has at a path: the identity of a file or directory (`id`), and whether `os.chdir` to it
succeeds (`enter`; not so for files and for directories without permission). Library semantics. -/
structure FsNode where
  id : Nat
  enter : Bool
deriving DecidableEq, Repr

/-- Exceptions of blocks and of the context managers: `OSError` of the system calls of `util.py:42-48, 69-78`, or whatever the block raises. -/
inductive BlockExc where
  | osError
  | raised (n : Nat)
deriving DecidableEq, Repr

/-- The attributes of a `change_directory` object, `util.py:37-39`, or of a `temporary_directory` object, `util.py:65-71`; `none` is `None`
or an attribute not yet set. `directory` is `none` for the text `''`. -/
structure DirObj where
  directory : Option (List String) := none
  originalCwd : Option (List String) := none
  tempPath : Option (List String) := none
deriving DecidableEq, Repr

/-- The attributes of a `redirected_stdio` object, `util.py:53-54`. -/
structure StdioObj where
  originalStdout : Option Nat := none
  originalStderr : Option Nat := none
deriving DecidableEq, Repr

/-- The process: file system, current directory (path and identity), `sys.stdout` and `sys.stderr` (numbers of streams), what has been
written to each stream, the number of streams opened so far, and the attributes of the objects. The state of `util.py:36-78`. -/
structure Proc where
  fs : List String → Option FsNode
  cwd : List String
  cwdId : Nat
  stdout : Nat
  stderr : Nat
  written : Nat → List String
  streams : Nat
  dirs : Nat → DirObj
  stdios : Nat → StdioObj

/-- A piece of python code: result or exception, and the new state. -/
abbrev Block (α : Type) := Proc → Except BlockExc α × Proc

/-- `os.getcwd()`, library semantics: fails if the current directory is no longer there. -/
def getcwd : Block (List String) := fun s =>
  match s.fs s.cwd with
  | some n => if n.id = s.cwdId then (.ok s.cwd, s) else (.error .osError, s)
  | none => (.error .osError, s)

/-- `os.path.exists(path)`, library semantics. -/
def pathExists (s : Proc) (p : List String) : Bool := (s.fs p).isSome

/-- `os.chdir(path)`, library semantics; the empty path cannot be entered. -/
def chdir : Option (List String) → Block Unit
  | none => fun s => (.error .osError, s)
  | some p => fun s =>
    match s.fs p with
    | some n => if n.enter then (.ok (), { s with cwd := p, cwdId := n.id }) else (.error .osError, s)
    | none => (.error .osError, s)

/-- One after the other, the second if the first raises nothing. -/
def Block.andThen {α β : Type} (a : Block α) (b : α → Block β) : Block β := fun s =>
  match a s with
  | (.ok x, s') => b x s'
  | (.error e, s') => (.error e, s')

/-- The python statement `with`: the block runs if entering raises nothing; leaving happens however the block ends, and since `__exit__` returns
`None` the exception of the block, if any, goes on unless leaving raises its own. Library semantics. -/
def withBlock {α β : Type} (enter : Block α) (leave : Block Unit) (body : α → Block β) : Block β := fun s =>
  match enter s with
  | (.error e, s1) => (.error e, s1)
  | (.ok x, s1) =>
    match body x s1 with
    | (r, s2) =>
      match leave s2 with
      | (.error e, s3) => (.error e, s3)
      | (.ok _, s3) => (r, s3)

/-- Assignment of attributes of the object `o`. -/
def setDirs (o : Nat) (f : DirObj → DirObj) (s : Proc) : Proc :=
  { s with dirs := fun i => if i = o then f (s.dirs i) else s.dirs i }

/-- `if self.original_cwd and os.path.exists(self.original_cwd): os.chdir(self.original_cwd)`, `util.py:47-48, 77-78`. -/
def restoreCwd (o : Nat) : Block Unit := fun s =>
  match (s.dirs o).originalCwd with
  | none => (.ok (), s)
  | some p => if pathExists s p then chdir (some p) s else (.ok (), s)

/-- Keeping the current directory in the attribute, `util.py:42, 69`. -/
def rememberCwd (o : Nat) : Block Unit :=
  getcwd.andThen fun p s => (.ok (), setDirs o (fun d => { d with originalCwd := some p }) s)

/-- `change_directory.__enter__`, `util.py:41-44`. -/
def changeEnter (o : Nat) : Block (Option (List String)) :=
  (rememberCwd o).andThen fun _ s => Block.andThen (chdir (s.dirs o).directory) (fun _ s' => (.ok (s'.dirs o).directory, s')) s

/-- `with change_directory(...)` with the object `o`, `util.py:36-48`. -/
def withChange {β : Type} (o : Nat) (body : Block β) : Block β :=
  withBlock (changeEnter o) (restoreCwd o) (fun _ => body)

/-- What the library functions of `tempfile` and `shutil` do that the code cannot know: the path and identity `mkdtemp` picks (`none`: it raises),
and what is left when `rmtree` raises (`none`: it removes everything). -/
structure TempLib where
  pick : Proc → Option (List String × Nat)
  fails : Proc → List String → Option (List String → Option FsNode)

/-- `tempfile.mkdtemp(prefix=self.prefix)` and `self.temp_path = `, `util.py:70`. -/
def makeTemp (T : TempLib) (o : Nat) : Block Unit := fun s =>
  match T.pick s with
  | none => (.error .osError, s)
  | some (p, i) =>
    (.ok (), setDirs o (fun d => { d with tempPath := some p })
      { s with fs := fun q => if q = p then some ⟨i, true⟩ else s.fs q })

/-- `shutil.rmtree(path)`, library semantics: everything at and below the path is removed. -/
def rmtree (T : TempLib) (p : List String) : Block Unit := fun s =>
  match T.fails s p with
  | some fs' => (.error .osError, { s with fs := fs' })
  | none => (.ok (), { s with fs := fun q => if p.isPrefixOf q then none else s.fs q })

/-- `temporary_directory.__enter__`, `util.py:68-72`. -/
def tempEnter (T : TempLib) (o : Nat) : Block (Option (List String)) :=
  (rememberCwd o).andThen fun _ => (makeTemp T o).andThen fun _ s =>
    Block.andThen (chdir (s.dirs o).tempPath) (fun _ s' => (.ok (s'.dirs o).tempPath, s')) s

/-- `if self.temp_path and os.path.exists(self.temp_path): shutil.rmtree(self.temp_path)`, `util.py:75-76`. -/
def removeTemp (T : TempLib) (o : Nat) : Block Unit := fun s =>
  match (s.dirs o).tempPath with
  | none => (.ok (), s)
  | some p => if pathExists s p then rmtree T p s else (.ok (), s)

/-- `temporary_directory.__exit__`, `util.py:74-78`. -/
def tempLeave (T : TempLib) (o : Nat) : Block Unit := (removeTemp T o).andThen fun _ => restoreCwd o

/-- `with temporary_directory(...)` with the object `o`, `util.py:64-78`. -/
def withTemp {β : Type} (T : TempLib) (o : Nat) (body : Option (List String) → Block β) : Block β :=
  withBlock (tempEnter T o) (tempLeave T o) body

/-- Assignment of attributes of the `redirected_stdio` object `o`. -/
def setStdios (o : Nat) (f : StdioObj → StdioObj) (s : Proc) : Proc :=
  { s with stdios := fun i => if i = o then f (s.stdios i) else s.stdios i }

/-- `redirected_stdio.__enter__`, `util.py:52-57`: two new `StringIO` objects. -/
def stdioEnter (o : Nat) : Block (Nat × Nat) := fun s =>
  let s1 := setStdios o (fun _ => ⟨some s.stdout, some s.stderr⟩) s
  (.ok (s.streams, s.streams + 1),
    { s1 with
      stdout := s.streams
      stderr := s.streams + 1
      streams := s.streams + 2
      written := fun i => if s.streams ≤ i then [] else s.written i })

/-- `redirected_stdio.__exit__`, `util.py:59-61`. An attribute not set would be an `AttributeError`; it is set on entering, here it leaves the stream. -/
def stdioLeave (o : Nat) : Block Unit := fun s =>
  (.ok (), { s with stdout := ((s.stdios o).originalStdout).getD s.stdout,
                    stderr := ((s.stdios o).originalStderr).getD s.stderr })

/-- `with redirected_stdio() as out, err` with the object `o`, `util.py:51-61`. -/
def withStdio {β : Type} (o : Nat) (body : Nat × Nat → Block β) : Block β :=
  withBlock (stdioEnter o) (stdioLeave o) body

/-- `print(text)` and `print(text, file=sys.stderr)`: to the stream the variable holds at that time. Library semantics. -/
def printTo (err : Bool) (text : String) : Block Unit := fun s =>
  (.ok (), { s with written := fun i => if i = (if err then s.stderr else s.stdout) then s.written i ++ [text] else s.written i })

/-- A block that prints `lines` (to standard error where the flag is set) and then ends with `r`. -/
def printing {β : Type} (lines : List (Bool × String)) (r : Except BlockExc β) : Block β :=
  match lines with
  | [] => fun s => (r, s)
  | l :: ls => (printTo l.1 l.2).andThen fun _ => printing ls r

end Verif
