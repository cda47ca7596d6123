import Verif.Model.Program
import Verif.Spec.CommandLine
/-! # Specification vocabulary for whole runs of xylem -/
namespace Verif

/-- The text `f` on the command line means the option `flag`: it is one of the option strings of that option, or an unambiguous abbreviation of one. -/
def Means (opts : List OptSpec) (f flag : String) : Prop :=
  ∃ o ∈ opts, flag ∈ o.flags ∧ (f ∈ o.flags ∨ ∃ h ∈ o.flags, Abbreviates opts f h)

/-- The option `flag` is among those given. -/
def IsGiven (opts : List OptSpec) (flag : String) (l : List Given) : Prop := ∃ g ∈ l, Means opts g.flag flag

/-- The last value given with the option `flag` is `v`. -/
def LastGiven (opts : List OptSpec) (flag : String) (l : List Given) (v : String) : Prop :=
  ∃ pre g post, l = pre ++ g :: post ∧ Means opts g.flag flag ∧ g.value = some v ∧ ¬ IsGiven opts flag post

/-- The command line has the options `before` the name of the command and `after` it; one of them asks for information only. -/
def InformationOnly (top sub : List OptSpec) (before after : List Given) : Prop :=
  ∃ flag ∈ ["--help", "--version", "--print-config"], IsGiven top flag before ∨ IsGiven sub flag after

end Verif
