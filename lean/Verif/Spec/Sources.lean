import Verif.Model.Sources
import Mathlib.Data.List.Forall2
/-! # Specification vocabulary for downloads and source lists -/
namespace Verif

/-- A response after which another attempt is allowed: HTTP 503, or a socket timeout. -/
def Transient : Response → Prop
  | .httpError code => code = 503
  | .urlError timeout => timeout = true
  | _ => False

/-- What the caller gets if the response is the last one. -/
def finalAnswer : Response → Except Exc String
  | .success body => body
  | .httpError _ => .error .downloadFailure
  | .urlError _ => .error .downloadFailure
  | .raises e => .error e

/-- A well-formed source description: one entry, whose name is text. -/
def ValidDescr (v : PVal) : Prop := ∃ name arguments, v = .dict [(.str name, arguments)]

/-- `s` is the source that description `v` of file `file` describes: its spec is the first plugin with the description's
name, and it is not loaded. -/
def DescribedBy (plugins : List Spec) (file : String) (v : PVal) (s : Source) : Prop :=
  ∃ name arguments, v = .dict [(.str name, arguments)] ∧ s.arguments = arguments ∧ s.origin = .str file ∧
    s.data = .none ∧ s.time = .none ∧ s.spec.verifyArguments arguments = .ok () ∧
    ∃ before after, plugins = before ++ s.spec :: after ∧ s.spec.name = name ∧ ∀ q ∈ before, q.name ≠ name

/-- The descriptions a parsed source list file contributes: none if it is not YAML, else the elements of the list. -/
def descrsOf : Except Exc PVal → List PVal
  | .ok (.list l) => l
  | _ => []

end Verif
