import Verif.Model.Resolve
/-! # Specification vocabulary for resolving keys -/
namespace Verif

/-- `i` is the first installer in the list for which there is a rule in `d`, and `rule` is that rule. -/
def FirstWithRule {σ : Type} (d : InstDict) (l : List (Installer σ)) (i : Installer σ) (rule : Rule) : Prop :=
  ∃ pre post, l = pre ++ i :: post ∧ dget d i.name = some rule ∧ ∀ j ∈ pre, dget d j.name = none

/-- `i` is the last installer in the list for which there is a rule in `d`, and `rule` is that rule. -/
def LastWithRule {σ : Type} (d : InstDict) (l : List (Installer σ)) (i : Installer σ) (rule : Rule) : Prop :=
  ∃ pre post, l = pre ++ i :: post ∧ dget d i.name = some rule ∧ ∀ j ∈ post, dget d j.name = none

/-- No installer in the list has a rule in `d`. -/
def NoneWithRule {σ : Type} (d : InstDict) (l : List (Installer σ)) : Prop := ∀ j ∈ l, dget d j.name = none

/-- `inst` is the installer of the first `install_from` entry that lists `key`. -/
def InstallFrom (installFrom : Dict String (List String)) (key inst : String) : Prop :=
  ∃ pre keys post, installFrom = pre ++ (inst, keys) :: post ∧ key ∈ keys ∧ ∀ p ∈ pre, key ∉ p.2

/-- No `install_from` entry lists `key`. -/
def NotInstallFrom (installFrom : Dict String (List String)) (key : String) : Prop := ∀ p ∈ installFrom, key ∉ p.2

/-- The exceptions that are failed lookups (python's LookupError and its subclasses). -/
def FailedLookup (e : Exc) : Prop := e = .lookupError ∨ e = .keyError ∨ e = .indexError
/-- The exceptions installers use to report an error (InstallerError and its subclasses). -/
def FailedInstaller (e : Exc) : Prop := e = .installerError ∨ e = .invalidRuleError ∨ e = .installerPrerequisiteError

/-- The keys a request is about: the given ones, then (with all-keys) those of the database in alphabetical order. -/
def RequestedKeys (db : Database) (xylemKeys : List String) (allKeys : Bool) (l : List String) : Prop :=
  if allKeys then ∃ ks sorted, db.keys = .ok ks ∧ sorted.Perm ks ∧ sorted.Pairwise (· ≤ ·) ∧ l = xylemKeys ++ sorted
  else l = xylemKeys

/-- The installer and rule that serve `key`, whose rules are `d`: if an `install_from` entry lists the key, the first loaded plugin of that
name and its rule; else the first core installer with a rule, or, if no core installer has one, the last additional installer with a rule. -/
def Chosen {σ : Type} (ic : InstallerCtx σ) (installFrom : Dict String (List String)) (key : String) (d : InstDict) (i : Installer σ)
    (rule : Rule) : Prop :=
  (InstallFrom installFrom key i.name ∧ dget d i.name = some rule ∧ ∃ pre post, ic.plugins = pre ++ i :: post ∧ ∀ j ∈ pre, j.name ≠ i.name) ∨
  (NotInstallFrom installFrom key ∧
    (FirstWithRule d ic.core i rule ∨ (NoneWithRule d ic.core ∧ LastWithRule d ic.additional i rule)))

end Verif
