/-!
# Specification: the words of a text
-/
namespace Verif

/-- The maximal runs of visible characters of a text that follows the (reversed) beginning `cur` of a word. -/
def textWordsFrom (space : Char → Bool) (cur : List Char) : List Char → List (List Char)
  | [] => if cur = [] then [] else [cur.reverse]
  | c :: t =>
    if space c then (if cur = [] then textWordsFrom space [] t else cur.reverse :: textWordsFrom space [] t)
    else textWordsFrom space (c :: cur) t

/-- The words of a text: the maximal runs of visible characters, in order. -/
def textWords (space : Char → Bool) (s : List Char) : List (List Char) := textWordsFrom space [] s

end Verif
