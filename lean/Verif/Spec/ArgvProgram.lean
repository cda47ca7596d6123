import Verif.Spec.Argv
import Verif.Spec.Program
import Verif.Model.ArgvProgram
/-! # Specification vocabulary for whole runs on words -/
namespace Verif
variable {σ : Type}

/-- The program of a command (`Model/InstallOutput`, `Model/ProgramOutput`), given options and keys. -/
def programOf (o : Outside σ) (desc : Desc) (fresh : Bool) (top sub : List OptSpec) (p : Process) (before after : List Given) (keys : List String) (s : σ) :
    String → Process × Finished
  | "install" => xylemInstallTelling o.texts o.voice o.env o.world desc o.text o.etext o.itext fresh top sub p before after keys s
  | "resolve" => xylemResolveSaying o.texts o.env o.world desc o.text o.etext fresh top sub p before after keys
  | "lookup" => xylemLookupSaying o.texts o.env o.world desc o.text o.dump fresh top sub p before after keys
  | "update" => xylemUpdateSaying o.texts o.env o.world desc o.text fresh top sub p before after
  | _ => mainWith o.env desc o.text fresh top sub (.ok ()) (fun p ns => (compactOn o.compact o.world.uni keys p ns).run.returnsNone) p before after

/-- What the program of a command does, given options and keys: `xylem install` to the machine, `xylem update` to the cached files, `_compact_rules_file` to
the rules file. -/
def doneBy (o : Outside σ) (desc : Desc) (fresh : Bool) (top sub : List OptSpec) (p : Process) (before after : List Given) (keys : List String) (s : σ) :
    String → Done σ
  | "install" => ⟨installEffect o.env o.world desc fresh top sub p before after keys s, [], []⟩
  | "update" => ⟨⟨s, []⟩, updateEffect o.env o.world desc fresh top sub p before after, []⟩
  | "_compact_rules_file" =>
    match reached o.env desc fresh top sub (.ok ()) p before after with
    | .error _ => .nothing s
    | .ok r => ⟨⟨s, []⟩, [], keys.map fun k => (k, (compactOn o.compact o.world.uni keys r.1 r.2).steps)⟩
  | _ => .nothing s

/-- How many keys a command takes: `update` none, `_compact_rules_file` the rules file, the others one or more. -/
def KeysFor (cmd : String) (keys : List String) : Prop :=
  (cmd = "update" ∧ keys = []) ∨ (cmd = "_compact_rules_file" ∧ keys.length = 1) ∨ ((cmd = "install" ∨ cmd = "resolve" ∨ cmd = "lookup") ∧ keys ≠ [])

end Verif
