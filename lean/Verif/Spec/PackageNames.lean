import Verif.Model.Install
import Verif.Spec.Text
/-! # Packages with any name: which texts go wrong -/
namespace Verif

/-- An `@` followed by `b` is no mark of xylem's markup: what follows is neither a name, nor `{`, nor one of the short marks. (Digits do not begin a name.) -/
def NoMark (b : List Char) : Prop := ∃ c t, b = c :: t ∧ c.isAlpha = false ∧ c ∉ ['_', '{', '!', '/', '|', '@']

/-- An `@` followed by `b` is the mark called `name`, up to a character that cannot go on with the name. -/
def MarkNamed (name b : List Char) : Prop :=
  ∃ r, b = name ++ r ∧ (∃ c, name.head? = some c ∧ c.isAlpha = true) ∧ (∀ c ∈ name, MarkupChar c) ∧ ∀ c, r.head? = some c → ¬MarkupChar c

/-- What follows an `@` makes it a mark that xylem knows: nothing, one of the four short marks, or the name of an entry of the table, with or without braces. -/
def KnownMark (a : AnsiTable) (v : List Char) : Prop :=
  v = [] ∨
  (∃ c name t, v = c :: t ∧ (c, name) ∈ [('!', "boldon"), ('/', "italicson"), ('_', "ulon"), ('|', "reset")] ∧ ∃ code, a name.toList = some code) ∨
  (∃ name t, v = '{' :: (name ++ '}' :: t) ∧ (∃ c, name.head? = some c ∧ (c.isAlpha = true ∨ c = '_')) ∧ (∀ c ∈ name, MarkupChar c) ∧ ∃ code, a name = some code) ∨
  ∃ name, MarkNamed name v ∧ ∃ code, a name = some code

/-- The line of a command: its words with one blank between them. -/
def Typed (words : List String) (line : List Char) : Prop := line = pyJoin [' '] (words.map String.toList)

end Verif
