import Mathlib.Data.List.Forall2
import Mathlib.Data.List.Basic
/-!
# Specification of the layout of help texts

According to the documentation of the formatter: three or more line breaks in a row separate paragraphs, two line breaks in a row separate the blocks of a
paragraph; a paragraph starting with `R|` is only re-indented.
-/
namespace Verif

/-- `s` contains no `n` newlines in a row. -/
def NoRun (n : Nat) (s : List Char) : Prop := ¬ List.replicate n '\n' <:+: s

/-- `text` consists of the pieces, separated by runs of newlines that cannot be extended and whose lengths are allowed; no piece contains a run of `n`
newlines. -/
inductive Pieces (n : Nat) (sep : Nat → Prop) : List Char → List (List Char) → Prop
  | last {p} : NoRun n p → Pieces n sep p [p]
  | more {p k t ps} : NoRun n p → p.getLast? ≠ some '\n' → sep k → t.head? ≠ some '\n' → Pieces n sep t ps →
      Pieces n sep (p ++ (List.replicate k '\n' ++ t)) (p :: ps)

/-- The paragraphs of a text. -/
abbrev Paragraphs : List Char → List (List Char) → Prop := Pieces 3 (3 ≤ ·)

/-- The blocks of a paragraph. -/
abbrev Blocks : List Char → List (List Char) → Prop := Pieces 2 (· = 2)

/-- The visible characters. -/
def ink (space : Char → Bool) (s : List Char) : List Char := s.filter fun c => !space c

/-- `text` starts (after whitespace) with the mark of raw paragraphs; `rest` is what follows the mark. -/
def MarkedRaw (white : Char → Bool) (text rest : List Char) : Prop :=
  ∃ w, (∀ c ∈ w, white c = true) ∧ text = w ++ ('R' :: '|' :: rest)

/-- `ls` are the lines with their common indentation removed: each line that is not blank lost exactly `margin`, blank lines are empty. -/
def Dedented (blank : Char → Bool) (margin : List Char) (lines ls : List (List Char)) : Prop :=
  (∀ c ∈ margin, blank c = true) ∧
  List.Forall₂ (fun l l' => (l.all blank = true ∧ l' = []) ∨ (l.all blank = false ∧ l = margin ++ l')) lines ls

end Verif
