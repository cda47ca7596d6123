import Verif.Model.RulesDict
/-!
# Model of expansion and compaction, `xylem/specs/plugins/rules.py`
-/
namespace Verif

/-- The up-conversion shared by `expand_definition` (rules.py:351-362), `expand_installer_definition`
(379-390) and `expand_os_version_definition` (397-408): null, text and lists become a
one-entry dict under the keyword `kw`; dicts stay; everything else raises ValueError. -/
def upConvert (kw : String) : PVal → Except Exc (Dict PKey PVal)
  | .none => .ok [(.str kw, .list [])]
  | .str s => .ok [(.str kw, .list [.str s])]
  | .list l => .ok [(.str kw, .list l)]
  | .dict d => .ok d
  | _ => .error .valueError

/-- `rules.py:363-367`: normalise the `packages` entry of a rule. -/
def normPackages (d : Dict PKey PVal) : Dict PKey PVal :=
  match dget d (.str "packages") with
  | some .none => dset d (.str "packages") (.list [])
  | some (.str s) => dset d (.str "packages") (.list [.str s])
  | _ => d

/-- `rules.py:369-372`: null becomes the empty list, text a one-element list. -/
def listify : PVal → PVal
  | .none => .list []
  | .str s => .list [.str s]
  | v => v

/-- `rules.py:368-374`: normalise the `depends` entry of a rule; an empty list is removed. -/
def normDepends (d : Dict PKey PVal) : Dict PKey PVal :=
  match dget d (.str "depends") with
  | none => d
  | some v =>
    if pyEq (listify v) (.list []) then ddel (dset d (.str "depends") (listify v)) (.str "depends")
    else dset d (.str "depends") (listify v)

/-- `expand_definition`, `rules.py:350-375`. -/
def expandDefinition (v : PVal) : Except Exc PVal := do
  let d ← upConvert "packages" v
  pure (.dict (normDepends (normPackages d)))

/-- `expand_installer_definition`, `rules.py:378-393`. -/
def expandInstallerDefinition (v : PVal) : Except Exc PVal := do
  let d ← upConvert "default_installer" v
  let d ← forItems (fun _ v => expandDefinition v) d
  pure (.dict d)

/-- `expand_os_version_definition`, `rules.py:396-420`. -/
def expandOsVersionDefinition (os : PKey) (v : PVal) : Except Exc PVal := do
  let d ← upConvert "any_version" v
  let d ← (if os = .str "any_os" then
      if dhas d (.str "any_version") then
        if d.length != 1 then .error .valueError else .ok d
      else .ok [(.str "any_version", .dict d)]
    else .ok d : Except Exc (Dict PKey PVal))
  let d ← forItems (fun _ v => expandInstallerDefinition v) d
  pure (.dict d)

/-- `expand_os_definition`, `rules.py:423-430`. -/
def expandOsDefinition : PVal → Except Exc PVal
  | .dict d => do
    let d ← forItems expandOsVersionDefinition d
    pure (.dict d)
  | _ => .error .valueError

/-- What `raise SpecParsingError(msg, snippet)` (rules.py:444) really raises. `SpecParsingError.__init__`
(rules.py:339-342) calls `ValueError.__init__(self, msg)`, but its base class `XylemError` (exception.py:40)
derives from `Exception` only, so the slot wrapper rejects `self`: TypeError. -/
def raiseSpecParsingError : Exc := .typeError

/-- `expand_rules`, `rules.py:433-447`. -/
def expandRules (v : PVal) : Except Exc PVal :=
  match v with
  | .none => .ok (.dict [])
  | .dict d => do
    let d ← forItems (fun _ osDict =>
      match expandOsDefinition osDict with
      | .ok x => .ok x
      | .error .valueError => .error raiseSpecParsingError
      | .error e => .error e) d
    pure (.dict d)
  | _ => .error .valueError

/-- `RulesSpec.load_data` after download and YAML parsing (rules.py:298-299), followed by `verify_data`
(rules.py:308-309) as `RulesSource.load_from_source` does (database.py:121-122). -/
def loadRulesData (uni : Char → Bool) (parsed : PVal) : Except Exc PVal := do
  let data ← expandRules parsed
  verifyRulesDict uni true data
  pure data

/-! ## Compaction (typed input: the functions are applied to expanded rules) -/

/-- `compact_installer_rule`, `rules.py:453-466` (the inner `pass` branches do nothing). -/
def compactInstallerRule (rule : Rule) : PVal :=
  match dget rule "packages" with
  | some p => if rule.length = 1 then p else Rule.toVal rule
  | none => Rule.toVal rule

/-- `compact_installer_dict`, `rules.py:475-484`: rename `default_installer`; also returns the name that may be left out. -/
def compactRename (result : Dict String PVal) (dflt : Option String) : Except Exc (Dict String PVal × String) :=
  match truthy dflt with
  | some name =>
    match dget result "default_installer" with
    | some r =>
      if dhas result name then .error .valueError
      else .ok (ddel (dset result name r) "default_installer", name)
    | none => .ok (result, name)
  | none => .ok (result, "default_installer")

/-- `compact_installer_dict`, `rules.py:486-491`: leave out the only installer if its rule is not a dict. -/
def compactCollapse (result : Dict String PVal) (name : String) : PVal :=
  match dget result name with
  | some rule => if result.length = 1 ∧ ¬ rule.isDict then rule else dictVal id result
  | none => dictVal id result

/-- `compact_installer_dict`, `rules.py:469-491`. -/
def compactInstallerDict (d : InstDict) (dflt : Option String) : Except Exc PVal := do
  let r ← compactRename (d.foldl (fun acc kv => dset acc kv.1 (compactInstallerRule kv.2)) []) dflt
  pure (compactCollapse r.1 r.2)

/-- Body of the version loop of `compact_version_dict`, `rules.py:506-513`; `anyV` is the compacted any_version entry. -/
def compactVersionStep (dflt : Option String) (anyV : Option PVal) (acc : Dict String PVal) (kv : String × InstDict) :
    Except Exc (Dict String PVal) :=
  if kv.1 ≠ "any_version" then do
    let i ← compactInstallerDict kv.2 dflt
    match anyV with
    | some a => if pyEq i a then pure acc else pure (dset acc kv.1 i)
    | none => pure (dset acc kv.1 i)
  else pure acc

/-- `compact_version_dict`, `rules.py:494-514`. -/
def compactVersionDict (d : VerDict) (dflt : Option String) : Except Exc PVal :=
  match dget d "any_version" with
  | some av => do
    let a ← compactInstallerDict av dflt
    if d.length = 1 ∧ ¬ a.isDict then pure a
    else do
      let r ← d.foldlM (compactVersionStep dflt (some a)) [("any_version", a)]
      pure (dictVal id r)
  | none => do
    let r ← d.foldlM (compactVersionStep dflt none) []
    pure (dictVal id r)

/-- Body of the loop of `compact_os_dict`, `rules.py:519-529`; `default_installers.get(os_name, None)`. -/
def compactOsEntry (dflts : Dict String (Option String)) (os : String) (vd : VerDict) : Except Exc PVal :=
  if os = "any_os" then
    match dget vd "any_version" with
    | none => .error .keyError
    | some i => compactInstallerDict i none
  else compactVersionDict vd ((dget dflts os).getD none)

/-- `compact_os_dict`, `rules.py:517-530`. The in-place loop assigns every key exactly once, so building the
result from the empty dict is the same. -/
def compactOsDict (d : OsDict) (dflts : Dict String (Option String)) : Except Exc PVal := do
  let r ← d.foldlM (fun acc kv => do
    let x ← compactOsEntry dflts kv.1 kv.2
    pure (dset acc kv.1 x)) ([] : Dict String PVal)
  pure (dictVal id r)

/-- `compact_rules`, `rules.py:533-536`. The in-place loop assigns every key exactly once, so building the
result from the empty dict is the same. -/
def compactRules (d : Rules) (dflts : Dict String (Option String)) : Except Exc PVal := do
  let r ← d.foldlM (fun acc kv => do
    let x ← compactOsDict kv.2 dflts
    pure (dset acc kv.1 x)) ([] : Dict String PVal)
  pure (dictVal id r)

end Verif
