import Verif.Model.Startup
import Verif.Model.Text
/-!
# Model of paths: `expand_input_path` of `xylem/config_utils.py`, and the python library functions it calls

The functions of `os.path` (python 2.7, POSIX) are modelled by their documented definition.
-/
namespace Verif

/-- What the library functions read from the process: the working directory (`os.getcwd()`), the home directory of the user (`$HOME`, or the
entry in the user database), and the home directories of other users. -/
structure PathEnv where
  cwd : List Char
  home : List Char
  homeOf : List Char → Option (List Char)

/-- `s.rstrip('/')` (python builtin). -/
def rstripSlash (s : List Char) : List Char := (s.reverse.dropWhile (· == '/')).reverse

/-- `os.path.expanduser` (python library), used in `config_utils.py:205` and 124. -/
def expandUser (e : PathEnv) : List Char → List Char
  | '~' :: t =>
    match if t.takeWhile (· != '/') = [] then some e.home else e.homeOf (t.takeWhile (· != '/')) with
    | none => '~' :: t
    | some h => if rstripSlash h ++ t.dropWhile (· != '/') = [] then ['/'] else rstripSlash h ++ t.dropWhile (· != '/')
  | p => p

/-- The number of slashes `os.path.normpath` keeps at the start: POSIX allows a special meaning for exactly two. -/
def initialSlashes (p : List Char) : Nat :=
  if ['/', '/', '/'].isPrefixOf p then 1
  else if ['/', '/'].isPrefixOf p then 2
  else if ['/'].isPrefixOf p then 1
  else 0

/-- The loop body of `os.path.normpath`. -/
def normStep (slashes : Nat) (acc : List (List Char)) (c : List Char) : List (List Char) :=
  if c = [] ∨ c = ['.'] then acc
  else if c ≠ ['.', '.'] ∨ (slashes = 0 ∧ acc = []) ∨ acc.getLast? = some ['.', '.'] then acc ++ [c]
  else acc.dropLast

/-- `os.path.normpath` (python library). -/
def normPath (p : List Char) : List Char :=
  let r := List.replicate (initialSlashes p) '/' ++ pyJoin ['/'] ((pySplit '/' p).foldl (normStep (initialSlashes p)) [])
  if r = [] then ['.'] else r

/-- `os.path.abspath` (python library). -/
def absPath (e : PathEnv) (p : List Char) : List Char :=
  normPath (if p.head? = some '/' then p else (pathJoin (String.ofList e.cwd) (String.ofList p)).toList)

/-- `expand_input_path`, `config_utils.py:201-205`, for a path that is not None. -/
def expandInputPath (e : PathEnv) (p : String) : String := String.ofList (absPath e (expandUser e p.toList))

/-- `DEFAULT_USER_CONFIG_DIR`, `config_utils.py:123-125`. -/
def defaultUserConfigDir (e : PathEnv) : String := String.ofList (expandUser e "~/.config".toList)

end Verif
