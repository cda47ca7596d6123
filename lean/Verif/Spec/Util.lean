import Verif.Model.Util
/-! # What the blocks of `with` statements can rely on -/
namespace Verif

/-- The directory the process `s` is in is at its path and can be entered, as seen by the process `s'`. -/
def StillThere (s s' : Proc) : Prop := s'.fs s.cwd = some ⟨s.cwdId, true⟩

/-- Both processes are in the same directory. -/
def SameCwd (s s' : Proc) : Prop := s'.cwd = s.cwd ∧ s'.cwdId = s.cwdId

/-- Whatever is at a path is in a directory: every initial part of a path with something at it has something at it. -/
def FsTree (fs : List String → Option FsNode) : Prop :=
  ∀ p q, (fs (p ++ q)).isSome = true → (fs p).isSome = true

/-- The block does not use the object `o` that guards it: its attributes are the same at the end. -/
def LeavesObj {β : Type} (o : Nat) (body : Block β) : Prop := ∀ s, (body s).2.dirs o = s.dirs o

/-- The same for `redirected_stdio` objects. -/
def LeavesStdio {β : Type} (o : Nat) (body : Block β) : Prop := ∀ s, (body s).2.stdios o = s.stdios o

/-- The process after `os.chdir` to the path `p` with the node `n` there, and `p0` kept in the object `o`. -/
def entered (o : Nat) (p0 p : List String) (n : FsNode) (s : Proc) : Proc :=
  { setDirs o (fun d => { d with originalCwd := some p0 }) s with cwd := p, cwdId := n.id }

/-- What is printed to one of the streams, in order. -/
def linesTo (err : Bool) (lines : List (Bool × String)) : List String :=
  (lines.filter (fun l => l.1 == err)).map (·.2)

end Verif
