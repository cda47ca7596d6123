import Verif.Model.RulesDict
/-!
# Specification vocabulary for rules lookup

Independent of how the code looks things up; only the data types are shared.
-/
namespace Verif

/-- Every level of the rules has distinct keys: true of all Python dicts. -/
def InstDict.WF (d : InstDict) : Prop := DWF d
/-- See `InstDict.WF`. -/
def VerDict.WF (d : VerDict) : Prop := DWF d ∧ ∀ v i, dget d v = some i → InstDict.WF i
/-- See `InstDict.WF`. -/
def OsDict.WF (d : OsDict) : Prop := DWF d ∧ ∀ o v, dget d o = some v → VerDict.WF v
/-- See `InstDict.WF`. -/
def Rules.WF (d : Rules) : Prop := DWF d ∧ ∀ k o, dget d k = some o → OsDict.WF o

/-- The installer dict stored for key / os / version, empty if there is none. -/
def entryAt (r : Rules) (key os ver : String) : InstDict :=
  match dget r key with
  | none => []
  | some od => match dget od os with
    | none => []
    | some vd => match dget vd ver with
      | none => []
      | some i => i

/-- `d` offers `rule` for the installer named `inst`: either under its own name, or under the keyword
`default_installer` while `inst` is the (non-empty) default installer. -/
def Offers (d : InstDict) (dflt : Option String) (inst : String) (rule : Rule) : Prop :=
  (inst ≠ "default_installer" ∧ dget d inst = some rule) ∨
  (inst ≠ "" ∧ dflt = some inst ∧ dget d "default_installer" = some rule)

/-- `d` offers some rule for `inst`. -/
def OffersSome (d : InstDict) (dflt : Option String) (inst : String) : Prop := ∃ rule, Offers d dflt inst rule

/-- No installer dict names both `default_installer` and the default installer itself. -/
def Unambiguous (d : InstDict) (dflt : Option String) : Prop :=
  ∀ name, dflt = some name → name ≠ "default_installer" →
    dget d "default_installer" = none ∨ dget d name = none

/-- The three entries a lookup has to consult, most specific first. -/
def consulted (r : Rules) (key os ver : String) : List InstDict :=
  [entryAt r key os ver, entryAt r key os "any_version", entryAt r key "any_os" "any_version"]

/-- `rule` is offered for `inst` by the first of the dicts that offers `inst` at all. -/
def OfferedFirst (dflt : Option String) (inst : String) (rule : Rule) : List InstDict → Prop
  | [] => False
  | d :: ds => Offers d dflt inst rule ∨ (¬ OffersSome d dflt inst ∧ OfferedFirst dflt inst rule ds)

end Verif
