import Verif.Model.Sources
/-!
# The cache as bytes, and several processes at once

`Model/Database` treats the cache as a map from paths to pickled values and writing a file as two atomic steps. Here the files are sequences of
bytes, `pickle.dump` writes them in pieces (the buffer of the file object is written out whenever it is full, and when the file is closed,
`database.py:94-97`), and the steps of several processes may alternate in any way. `β` is the type of bytes.
-/
namespace Verif

variable {β : Type}

/-- The files as the operating system has them: path to bytes. -/
abbrev ByteFiles (β : Type) := String → Option (List β)

/-- The pickle library (`database.py:89, 97`): what is written for an object, what reading bytes gives, and the zero byte. -/
structure Pickle (β : Type) where
  zero : β
  dump : PVal → List β
  load : List β → Except Exc PVal

/-- One atomic change of a file: `open(path, 'wb')`, and a write of some bytes at the position of the file object (`database.py:95, 97`). -/
inductive ByteStep (β : Type)
  | create (path : String)
  | put (path : String) (off : Nat) (b : List β)

/-- Writing `b` at position `off` of a file with contents `old` (operating system): bytes there are replaced, a gap is filled with zeros. -/
def overlay (zero : β) (off : Nat) (b old : List β) : List β :=
  (old ++ List.replicate (off - old.length) zero).take off ++ b ++ old.drop (off + b.length)

/-- Effect of one step (operating system). -/
def ByteStep.apply (zero : β) (fs : ByteFiles β) : ByteStep β → ByteFiles β
  | .create p => fun q => if q = p then some [] else fs q
  | .put p off b => fun q => if q = p then (fs q).map (overlay zero off b) else fs q

/-- Effect of a sequence of steps (operating system). -/
def applyBytes (zero : β) (fs : ByteFiles β) (l : List (ByteStep β)) : ByteFiles β := l.foldl (ByteStep.apply zero) fs

/-- The writes of consecutive pieces, the first at position `off` (`database.py:97`, through the buffer of the file object). -/
def puts (p : String) : Nat → List (List β) → List (ByteStep β)
  | _, [] => []
  | off, b :: t => .put p off b :: puts p (off + b.length) t

/-- What `pickle.load` makes of the bytes of a file, `database.py:88-89`. -/
def contentOf (P : Pickle β) (b : List β) : FileContent :=
  match P.load b with
  | .ok v => .pickled v
  | .error _ => .broken

/-- The files as `_read_cache` sees them, `database.py:87-91`. Simplification: a file is read at one moment; see `readPieces` for
reading in pieces. -/
def seen (P : Pickle β) (fs : ByteFiles β) : FileSys := fun p => (fs p).map (contentOf P)

/-- Reading a file that has been opened in pieces, `database.py:88-89` (the buffer of the file object is filled whenever `pickle.load` needs more): at
every moment given at most `n` bytes from the position of the file object on; the position moves by the number of bytes read. While the file is open,
`open(path, 'wb')` in another process empties this very file. -/
def readPieces (p : String) : Nat → List (ByteFiles β × Nat) → List β
  | _, [] => []
  | off, (fs, n) :: t =>
    let b := (((fs p).getD []).drop off).take n
    b ++ readPieces p (off + b.length) t

/-- The steps of `_write_cache` (`writeCache`, `database.py:94-97`) as writes of bytes. A complete write consists of any number of pieces; a write that
fails has written some, but not all of the bytes. -/
inductive ByteRun (P : Pickle β) : List FsStep → List (ByteStep β) → Prop
  | done : ByteRun P [] []
  | whole (p : String) (v : PVal) (pieces : List (List β)) (h : pieces.flatten = P.dump v) (l : List FsStep) (bs : List (ByteStep β)) :
      ByteRun P l bs → ByteRun P (.truncate p :: .fill p v :: l) (.create p :: (puts p 0 pieces ++ bs))
  | part (p : String) (v : PVal) (pieces : List (List β)) (h : pieces.flatten <+: P.dump v) (hne : pieces.flatten ≠ P.dump v) (l : List FsStep)
      (bs : List (ByteStep β)) : ByteRun P l bs → ByteRun P (.truncate p :: l) (.create p :: (puts p 0 pieces ++ bs))

/-- The same if every object is written in one piece: it fits into the buffer of the file object (`database.py:94-97`). A write that fails has written
nothing. -/
inductive OneRun (P : Pickle β) : List FsStep → List (ByteStep β) → Prop
  | done : OneRun P [] []
  | whole (p : String) (v : PVal) (l : List FsStep) (bs : List (ByteStep β)) :
      OneRun P l bs → OneRun P (.truncate p :: .fill p v :: l) (.create p :: .put p 0 (P.dump v) :: bs)
  | part (p : String) (l : List FsStep) (bs : List (ByteStep β)) : OneRun P l bs → OneRun P (.truncate p :: l) (.create p :: bs)

/-- The steps of several processes in the order in which they happen: at any time some process does its next step (operating system). -/
inductive Interleaving {α : Type} : List (List α) → List α → Prop
  | done (ls : List (List α)) (h : ∀ l ∈ ls, l = []) : Interleaving ls []
  | step (pre post : List (List α)) (x : α) (t r : List α) : Interleaving (pre ++ t :: post) r → Interleaving (pre ++ (x :: t) :: post) (x :: r)

/-! ## Creating the cache directory -/

/-- How far a process is in `ensure_cache_dir`, `sources/impl.py:220-225`: before the first test, before `makedirs`, before the second test, done. -/
inductive DirPc
  | test
  | make
  | retest
  | done (r : Except Exc Unit)

/-- The next step of a process in `ensure_cache_dir`, `sources/impl.py:220-225`, given whether the directory exists; the result also tells whether it
exists afterwards. `makedirs` raises OSError if the directory exists. Simplification: the parent directory exists, creating works otherwise. -/
def DirPc.next (there : Bool) : DirPc → Bool × DirPc
  | .test => (there, if there then .retest else .make)
  | .make => (true, if there then .done (.error .osError) else .retest)
  | .retest => (there, if there then .done (.ok ()) else .done (.error .osError))
  | .done r => (there, .done r)

/-- The directory and the processes (operating system). -/
structure DirState where
  there : Bool
  procs : List DirPc

/-- Process `i` does its next step (operating system). -/
def DirState.step (s : DirState) (i : Nat) : DirState :=
  match s.procs[i]? with
  | some c => ⟨(c.next s.there).1, s.procs.set i (c.next s.there).2⟩
  | none => s

/-- The state after a schedule: the list of the processes in the order in which they do steps (operating system). -/
def DirState.run (s : DirState) (schedule : List Nat) : DirState := schedule.foldl DirState.step s

end Verif
