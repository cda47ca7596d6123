import Verif.Spec.Installers
import Verif.Model.Install
import Verif.Model.Installers
import Mathlib.Data.List.Forall2
/-! # Rules that differ in what they depend on -/
namespace Verif

/-- The two rules list the same packages; both may depend on any keys. -/
def SamePackages (r r' : Rule) : Prop :=
  dget r "packages" = dget r' "packages" ∧ TextList (dget r "depends") ∧ TextList (dget r' "depends")

/-- The two databases have the same keys, with rules for the same installers and the same packages, but maybe other dependencies. -/
def SameButDepends (db db' : Database) : Prop :=
  db.keys = db'.keys ∧ ∀ key, (∃ e, db.lookup key = .error e ∧ db'.lookup key = .error e) ∨
    ∃ d d', db.lookup key = .ok d ∧ db'.lookup key = .ok d' ∧ List.Forall₂ (fun x y => x.1 = y.1 ∧ SamePackages x.2 y.2) d d'

/-- The plugins resolve rules as `InstallerBase` does (as all built-in ones do). -/
def UsualRules {σ : Type} (expand : String → String) (ic : InstallerCtx σ) : Prop :=
  ∀ i, i ∈ ic.plugins ∨ i ∈ ic.core ∨ i ∈ ic.additional → i.resolve = baseResolve expand (describe ruleItems)

end Verif
