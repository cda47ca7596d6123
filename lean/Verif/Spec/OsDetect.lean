import Verif.Model.OsDetect
/-! # Specification vocabulary for the os detectors -/
namespace Verif

/-- The words of a text: it consists of white space and the given words in this order, any two of them separated by white space. -/
inductive HasWords (ws : Char → Bool) : List Char → List (List Char) → Prop
  | nil {space : List Char} (h : ∀ c ∈ space, ws c = true) : HasWords ws space []
  | last {space word : List Char} (h : ∀ c ∈ space, ws c = true) (hne : word ≠ []) (hw : ∀ c ∈ word, ws c = false) :
      HasWords ws (space ++ word) [word]
  | cons {space word rest : List Char} {sep : Char} {words : List (List Char)} (h : ∀ c ∈ space, ws c = true) (hne : word ≠ [])
      (hw : ∀ c ∈ word, ws c = false) (hs : ws sep = true) (hr : HasWords ws rest words) :
      HasWords ws (space ++ word ++ sep :: rest) (word :: words)

/-- A file with the given words. -/
def FileWith (sys : System) (path : String) (words : List (List Char)) : Prop := ∃ t, sys.text path = some t ∧ HasWords sys.ws t words

/-- A detector that answers all questions: no exception, except for the version and codename on another os. -/
def Answers (d : SysDetector) : Prop :=
  d.isOs = .ok false ∨ (d.isOs = .ok true ∧ ∃ v c, d.getVersion = .ok v ∧ d.getCodename = .ok c)

/-- The detector says that its os is running, with this version and codename. -/
def SaysIs (d : SysDetector) (v c : Option (List Char)) : Prop := d.isOs = .ok true ∧ d.getVersion = .ok v ∧ d.getCodename = .ok c

end Verif
