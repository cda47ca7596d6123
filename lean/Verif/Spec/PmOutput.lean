import Verif.Model.Installers
import Verif.Spec.ProgramOutput
/-! # Specification vocabulary for the checks of package managers -/
namespace Verif
variable {σ : Type}

/-- What the check if a package manager is there comes to. -/
inductive Presence
  /-- it is there -/
  | present
  /-- it is not there, and nothing is to be done about it -/
  | missing
  /-- it was not there and has been installed -/
  | supplied
  /-- it is not there and the plugin cannot install it -/
  | unsupported
  /-- it is not there even after the plugin has installed it -/
  | stillMissing

/-- What the check if a package manager is up to date comes to. -/
inductive Currency
  | unchecked
  | current
  | outdated
  | updated
  | unsupported
  | stillOutdated

/-- It is there in the end. -/
def Presence.good : Presence → Bool
  | .present => true
  | .supplied => true
  | _ => false

/-- What happens to a package manager that may have to be installed, from the first to the second state. -/
inductive Presence.Happens (p : PackageManager σ) (os : OsTuple) (interactive : Bool) : (fix : Bool) → Presence → σ → σ → Prop
  | present {fix s s'} : p.isPmInstalled s = (.ok true, s') → Happens p os interactive fix .present s s'
  | missing {s s'} : p.isPmInstalled s = (.ok false, s') → Happens p os interactive false .missing s s'
  | unsupported {s s1 s2} : p.isPmInstalled s = (.ok false, s1) → p.installPm os interactive s1 = (.error .notImplementedError, s2) →
      Happens p os interactive true .unsupported s s2
  | supplied {s s1 s2 s3} : p.isPmInstalled s = (.ok false, s1) → p.installPm os interactive s1 = (.ok (), s2) →
      p.isPmInstalled s2 = (.ok true, s3) → Happens p os interactive true .supplied s s3
  | stillMissing {s s1 s2 s3} : p.isPmInstalled s = (.ok false, s1) → p.installPm os interactive s1 = (.ok (), s2) →
      p.isPmInstalled s2 = (.ok false, s3) → Happens p os interactive true .stillMissing s s3

/-- What happens to a package manager that may have to be updated, from the first to the second state. -/
inductive Currency.Happens (p : PackageManager σ) (interactive : Bool) : (fix : Bool) → Currency → σ → σ → Prop
  | unchecked {fix s s'} : p.isPmUpdated s = (.error .notImplementedError, s') → Happens p interactive fix .unchecked s s'
  | current {fix s s'} : p.isPmUpdated s = (.ok true, s') → Happens p interactive fix .current s s'
  | outdated {s s'} : p.isPmUpdated s = (.ok false, s') → Happens p interactive false .outdated s s'
  | unsupported {s s1 s2} : p.isPmUpdated s = (.ok false, s1) → p.updatePm interactive s1 = (.error .notImplementedError, s2) →
      Happens p interactive true .unsupported s s2
  | updated {s s1 s2 s3} : p.isPmUpdated s = (.ok false, s1) → p.updatePm interactive s1 = (.ok (), s2) → p.isPmUpdated s2 = (.ok true, s3) →
      Happens p interactive true .updated s s3
  | stillOutdated {s s1 s2 s3} : p.isPmUpdated s = (.ok false, s1) → p.updatePm interactive s1 = (.ok (), s2) → p.isPmUpdated s2 = (.ok false, s3) →
      Happens p interactive true .stillOutdated s s3

/-- What is to be said about the presence of the package manager `name` with the program `exe`. -/
def Presence.notes (name exe : String) (x : Presence) : List Note :=
  .chat (words ["Checking if package manager ".toList, quoted name.toList, " is installed.".toList]) ::
  match x with
  | .present => [.chat (words ["Package manager ".toList, quoted name.toList, " is installed.".toList])]
  | _ =>
    .chat (words ["Package manager ".toList, quoted name.toList, " not installed (".toList, quoted exe.toList, " not found).".toList]) ::
    match x with
    | .missing => []
    | .unsupported => [.chat (words ["Trying to install ".toList, quoted name.toList, ".".toList]),
        .problem (words ["Installer plugin ".toList, quoted name.toList, " does not support installing itself.".toList])]
    | .stillMissing => [.chat (words ["Trying to install ".toList, quoted name.toList, ".".toList]),
        .problem (words ["Installer plugin ".toList, quoted name.toList, " failed to install itself.".toList])]
    | _ => [.chat (words ["Trying to install ".toList, quoted name.toList, ".".toList])]

/-- The advice to update: it names no package manager. -/
def outdatedNote : Note := .problem "Package manager '{}' seems to be out-of-date. Please consider updating for best results.".toList

/-- What is to be said about whether the package manager `name` is up to date. -/
def Currency.notes (name : String) (x : Currency) : List Note :=
  .chat (words ["Checking if package manager ".toList, quoted name.toList, " is updated.".toList]) ::
  match x with
  | .unchecked => [.chat (words ["Check if package manager ".toList, quoted name.toList, " is updated not implemented; skipping check.".toList])]
  | .current => [.chat (words ["Package manager ".toList, quoted name.toList, " is updated.".toList])]
  | _ =>
    .chat (words ["Package manager ".toList, quoted name.toList, " not updated.".toList]) ::
    match x with
    | .updated => [.chat (words ["Trying to update ".toList, quoted name.toList, ".".toList])]
    | .unsupported => [.chat (words ["Trying to update ".toList, quoted name.toList, ".".toList]),
        .problem (words ["Installer plugin ".toList, quoted name.toList, " does not support updating itself.".toList]), outdatedNote]
    | .stillOutdated => [.chat (words ["Trying to update ".toList, quoted name.toList, ".".toList]),
        .problem (words ["Installer plugin ".toList, quoted name.toList, " failed to update itself.".toList]), outdatedNote]
    | _ => [outdatedNote]

/-- How the checks of a package manager begin. -/
def checkingNote (name : String) : Note := .chat (words ["Checking general prerequisites of installer ".toList, quoted name.toList, "...".toList])

end Verif
