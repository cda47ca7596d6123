import Verif.Model.Installers
/-! # Specification vocabulary for installer plugins -/
namespace Verif

/-- The value is missing, or a list of texts (single entries may be null). -/
def TextList (v : Option PVal) : Prop :=
  v = none ∨ v = some .none ∨ ∃ l, v = some (.list l) ∧ ∀ x ∈ l, x = .none ∨ ∃ s, x = .str s

/-- `line` is one of the lines of `text`: it has no line break, and is delimited by line breaks or the ends of the text. -/
def IsLine (text line : List Char) : Prop :=
  ∃ pre post, text = pre ++ line ++ post ∧ '\n' ∉ line ∧ (pre = [] ∨ ∃ p, pre = p ++ ['\n']) ∧ (post = [] ∨ ∃ p, post = '\n' :: p)

/-- The name part of a line of `pip freeze`: what stands before the first `==`, or the whole line. -/
def NamePart (line name : List Char) : Prop :=
  (line = name ∧ ¬ "==".toList <:+: line) ∨ (∃ rest, line = name ++ "==".toList ++ rest ∧ ¬ "==".toList <:+: name ++ ['='])

/-- The packages a rule lists: a missing or null list is empty. -/
def packagesOf (rule : Rule) : List PVal := match dget rule "packages" with
  | some (.list l) => l
  | _ => []

/-- The two resolutions have the same attributes, with equal values. -/
def SameAttributes (a b : Resolution) : Prop := ∀ k,
  (dget a k = none ∧ dget b k = none) ∨ ∃ v w, dget a k = some v ∧ dget b k = some w ∧ pyEq v w = true

/-- The text names a package in the output of `pip freeze`. -/
def FrozenName (out name : String) : Prop := ∃ line, IsLine out.toList line ∧ NamePart line name.toList

/-- The package of a resolution as a word of a command: a text, or null. -/
def Names (r : Resolution) (w : Option String) : Prop :=
  (∃ s, dget r "package" = some (.str s) ∧ w = some s) ∨ (dget r "package" = some .none ∧ w = none)

/-- How a command is turned into one with root privileges. -/
def Elevated (c c' : Cmd) : Prop := (c.head? = some (some "sudo") ∧ c' = c) ∨ (c.head? ≠ some (some "sudo") ∧ c' = some "sudo" :: c)

end Verif
