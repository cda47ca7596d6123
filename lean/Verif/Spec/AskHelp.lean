import Verif.Spec.Argv
/-! # Specification vocabulary: asking for help or for the version -/
namespace Verif

/-- `-h`, `--help`, `--version` and their abbreviations, the options of xylem that only print something. -/
def helpFlags : List String := ["-h", "--help", "--hel", "--he", "--h", "--version", "--versio", "--versi", "--vers"]

/-- A word that can be meant to ask for that: one of these, or several short options in one word, `h` among them. -/
def AsksHelp (w : String) : Prop := w ∈ helpFlags ∨ ∃ r, w.toList = '-' :: r ∧ r.head? ≠ some '-' ∧ 'h' ∈ r

/-- A word is an argument, or an option the parser knows (in full or abbreviated), possibly with a value attached by `=`. -/
def Sensible (opts : List OptSpec) (w : String) : Prop :=
  PlainWord w ∨ (∃ o, findOption opts w = .ok o) ∨ ∃ f v o, findOption opts f = .ok o ∧ w = String.ofList (f.toList ++ '=' :: String.toList v)

end Verif
