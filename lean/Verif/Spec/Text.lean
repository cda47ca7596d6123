import Verif.Model.Text
/-! # Specification vocabulary for messages -/
namespace Verif

/-- The message with every brace doubled. -/
def doubleBraces : List Char → List Char
  | [] => []
  | c :: t => if c = '{' ∨ c = '}' then c :: c :: doubleBraces t else c :: doubleBraces t

/-- The characters that form markup with a preceding `@`. -/
def isMark (c : Char) : Bool := c == '!' || c == '/' || c == '_' || c == '|'

/-- The message without its markup pairs `@!`, `@/`, `@_`, `@|` (scanning from the left; `drop` = the next character belongs
to a pair). -/
def stripMarkup : (drop : Bool) → List Char → List Char
  | _, [] => []
  | true, _ :: t => stripMarkup false t
  | false, c :: t => if c = '@' ∧ t.head?.any isMark then stripMarkup true t else c :: stripMarkup false t

/-- The characters names in markup consist of. -/
def MarkupChar (c : Char) : Prop := c.isAlphanum = true ∨ c = '_'

end Verif
