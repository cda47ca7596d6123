import Verif.Model.Paths
/-! # Specification vocabulary for paths -/
namespace Verif

/-- A component that names an entry of a directory. -/
def PlainName (c : List Char) : Prop := c ≠ [] ∧ c ≠ ['.'] ∧ c ≠ ['.', '.'] ∧ '/' ∉ c

/-- Components with slashes between them. -/
def slashed : List (List Char) → List Char
  | [] => []
  | [c] => c
  | c :: d :: t => c ++ '/' :: slashed (d :: t)

/-- An absolute path in its shortest form: one slash (or, as POSIX allows it, two), then the names separated by single slashes. -/
def NormalPath (p : List Char) : Prop :=
  ∃ names, (∀ c ∈ names, PlainName c) ∧ (p = '/' :: slashed names ∨ p = '/' :: '/' :: slashed names)

/-- One component of a path, followed from the directory with these names: `..` leads to the parent (of the root: to the root). -/
def follow (dir : List (List Char)) (c : List Char) : List (List Char) :=
  if c = [] ∨ c = ['.'] then dir else if c = ['.', '.'] then dir.dropLast else dir ++ [c]

/-- The place a path leads to from a directory, in a file system without symbolic links. -/
def walk (dir : List (List Char)) (p : List Char) : List (List Char) :=
  (p.splitOn '/').foldl follow (if p.head? = some '/' then [] else dir)

/-- The environment of xylem with the real path expansion: the working directory is absolute, the home directory in its shortest form. -/
structure RealPaths (env : StartEnv) (e : PathEnv) : Prop where
  expand : env.expand = expandInputPath e
  home : env.home = defaultUserConfigDir e
  cwd : e.cwd.head? = some '/'
  homeNormal : NormalPath e.home

end Verif
