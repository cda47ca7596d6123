import Verif.Model.Commands
import Mathlib.Data.List.Forall2
/-! # Specification vocabulary for the commands -/
namespace Verif

/-- The lines a user sees on stdout. -/
def onStdout : Line → Option (List Char)
  | .out t => some t
  | _ => none

/-- The lines a user sees on stderr. -/
def onStderr : Line → Option (List Char)
  | .err t => some t
  | _ => none

/-- What `xylem resolve` is to print for a key without colours: `key --> installer: resolution, resolution`, where the installer is left out
if it is the default one and was not asked for. -/
def plainLine (key : String) (installer : Option String) (resolutions : List (List Char)) : List Char :=
  key.toList ++ " --> ".toList ++ (match installer with | some i => i.toList ++ ": ".toList | none => []) ++ pyJoin ", ".toList resolutions

/-- The texts of the resolutions of each result. -/
def Rendered (results : List (String × (String × List Resolution))) (texts : List (List (List Char))) : Prop :=
  List.Forall₂ (fun (r : String × (String × List Resolution)) (ts : List (List Char)) => List.Forall₂ (fun x t => Resolution.str x = .ok t) r.2.2 ts)
    results texts

/-- Lines of a text. -/
def IsLines (text : List Char) (ls : List (List Char)) : Prop := ls ≠ [] ∧ (∀ l ∈ ls, '\n' ∉ l) ∧ text = pyJoin ['\n'] ls

/-- Nothing asked the process to exit (no SystemExit). -/
def NoSystemExit {α : Type} (x : Except Exc α) : Prop := ∀ c, x ≠ .error (.systemExit c)

end Verif
