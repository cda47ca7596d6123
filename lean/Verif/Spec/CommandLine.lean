import Verif.Model.CommandLine
/-! # Specification vocabulary for the command line -/
namespace Verif

/-- The values given with an option string, in the order of the command line. -/
def valuesFor (flag : String) (l : List Given) : List String := (l.filter fun g => g.flag == flag).filterMap Given.value

/-- What is expected to be handed to an option: nothing if it was not given; all values if it may be given several times; else the last. -/
def asGiven (multiple : Bool) (l : List String) : CmdVal :=
  match l.getLast? with
  | none => .none
  | some v => if multiple then .many l else .one v

/-- The types of options that may be given several times: lists and dicts. -/
def CType.repeatable : CType → Bool
  | .any => false
  | .string => false
  | .path => false
  | .boolean => false
  | .list _ => true
  | .dict _ _ => true
  | .mergingDict _ _ => true

/-- The option strings of a parser. -/
def allFlags (opts : List OptSpec) : List String := opts.flatMap OptSpec.flags

/-- The option string is used as intended: it is written in full, belongs to an option that does not end the program, and comes with a value
exactly if the option takes one. -/
def ProperUse (opts : List OptSpec) (g : Given) : Prop :=
  ∃ o ∈ opts, g.flag ∈ o.flags ∧ o.action ≠ .quit ∧ (g.value.isSome = true ↔ o.action ≠ .storeTrue)

/-- `f` is no option string itself, but the beginning of exactly one, `g`. -/
def Abbreviates (opts : List OptSpec) (f g : String) : Prop :=
  f ∉ allFlags opts ∧ "--".toList <+: f.toList ∧ g ∈ allFlags opts ∧ f.toList <+: g.toList ∧
    ∀ h ∈ allFlags opts, f.toList <+: h.toList → h = g

end Verif
