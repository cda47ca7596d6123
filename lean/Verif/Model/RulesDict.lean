import Verif.Py.Val
/-!
# Model of `xylem/sources/rules_dict.py`

Lookup and merge work on *expanded and verified* rules; these are modelled by
the typed view `Rules` (four levels of dicts with text keys). `Rules.toVal`
embeds the typed view into YAML values; `verifyRulesDict` works on YAML values,
and theorem `verified_is_typed` (Props) shows that verified data is always the
embedding of a typed rules dict, so the typed view loses nothing.
-/
namespace Verif

/-- An installer rule (`rules_dict.py:195-225`: a dict with text keys). -/
abbrev Rule := Dict String PVal
/-- Installer dict: installer name → rule (`rules_dict.py:166-192`). -/
abbrev InstDict := Dict String Rule
/-- Version dict: os version → installer dict (`rules_dict.py:140-163`). -/
abbrev VerDict := Dict String InstDict
/-- OS dict: os name → version dict (`rules_dict.py:110-133`). -/
abbrev OsDict := Dict String VerDict
/-- Rules dict: xylem key → os dict (`rules_dict.py:84-107`). -/
abbrev Rules := Dict String OsDict

/-- Truth value of an optional text (`rules_dict.py:475`): `None` and `""` are false. -/
def truthy : Option String → Option String
  | some s => if s = "" then none else some s
  | none => none

/-- `replace_default_installer`, `rules_dict.py:466-482`. -/
def replaceDefaultInstaller (name : String) (dflt : Option String) : Except Exc String :=
  if name = "default_installer" then
    match truthy dflt with
    | some d => .ok d
    | none => .error .valueError
  else .ok name

/-- `merge_installer_dict`, `rules_dict.py:395-401`; the mutated `combined_installer_dict` is returned. -/
def mergeInstallerDict (new combined : InstDict) (dflt : Option String) : Except Exc InstDict :=
  new.foldlM (fun acc kv => do
    let name ← replaceDefaultInstaller kv.1 dflt
    pure (dset acc name kv.2)) combined

/-- `lookup_rules`, `rules_dict.py:34-72`. -/
def lookupRules (rules : Rules) (key os ver : String) (dflt : Option String) : Except Exc InstDict := do
  let osDict := (dget rules key).getD []
  let versionDict := (dget osDict os).getD []
  let anyOsInstallerDict := (dget ((dget osDict "any_os").getD []) "any_version").getD []
  let anyVersionInstallerDict := (dget versionDict "any_version").getD []
  let specificInstallerDict := (dget versionDict ver).getD []
  let c0 ← mergeInstallerDict anyOsInstallerDict [] dflt
  let c1 ← mergeInstallerDict anyVersionInstallerDict c0 dflt
  mergeInstallerDict specificInstallerDict c1 dflt

/-- `has_rule_for_os`, `rules_dict.py:75-81` (the implicit `None` of the last path is falsy). -/
def hasRuleForOs (osDict : OsDict) (os ver : String) : Bool :=
  if dhas osDict "any_os" then true
  else match dget osDict os with
    | some versionDict => dhas versionDict ver || dhas versionDict "any_version"
    | none => false

/-! ## Verification -/

/-- Python 2 `\w` with `(?u)` on one character (`rules_dict.py:283`): for ASCII letters, digits and underscore;
beyond ASCII a parameter `uni` (the Unicode database), so every theorem holds for all choices. -/
def isWordChar (uni : Char → Bool) (c : Char) : Bool :=
  if c.toNat < 128 then c.isAlphanum || c == '_' else uni c

/-- The character class `[\w.’+-]` of `rules_dict.py:283`. -/
def isIdentChar (uni : Char → Bool) (c : Char) : Bool :=
  isWordChar uni c || c == '.' || c == '’' || c == '+' || c == '-'

/-- `re.match('(?u)^[\w.’+-]+$', s)` (`rules_dict.py:283`): the greedy run of class
characters must be non-empty and end at the end of the string or just before a
final newline (Python's `$`). Newline is not in the class, so greedy matching never needs to backtrack. -/
def identRegex (uni : Char → Bool) (s : String) : Bool :=
  let rest := s.toList.dropWhile (isIdentChar uni)
  (s.toList.takeWhile (isIdentChar uni)).length != 0 && (rest == [] || rest == ['\n'])

/-- The reserved words of `rules_dict.py:270-271`. -/
def rulesDictKeywords : List String :=
  ["any_os", "any_version", "default_installer", "unset_installers", "any_key"]

/-- `verify_rules_dict_identifier`, `rules_dict.py:261-286`; keys are `PKey`. -/
def verifyIdentifier (uni : Char → Bool) (ident : PKey) (allow : List String) : Except Exc Unit :=
  match ident with
  | .str s =>
    if (rulesDictKeywords.filter (fun k => !allow.contains k)).contains s then .error .valueError
    else if s = "mountain lion" then .ok ()
    else if identRegex uni s then .ok () else .error .valueError
  | _ => .error .valueError

/-- `verify_xylem_key`, `rules_dict.py:228-233`. -/
def verifyXylemKey (uni : Char → Bool) (k : PKey) : Except Exc Unit := verifyIdentifier uni k []
/-- `verify_os_name`, `rules_dict.py:236-241`. -/
def verifyOsName (uni : Char → Bool) (k : PKey) : Except Exc Unit := verifyIdentifier uni k ["any_os"]
/-- `verify_os_version`, `rules_dict.py:244-249`. -/
def verifyOsVersion (uni : Char → Bool) (k : PKey) : Except Exc Unit := verifyIdentifier uni k ["any_version"]
/-- `verify_installer_name`, `rules_dict.py:252-258`. -/
def verifyInstallerName (uni : Char → Bool) (k : PKey) : Except Exc Unit :=
  verifyIdentifier uni k ["default_installer"]

/-- The value seen as an identifier by `verify_xylem_key` for `depends` elements
(`rules_dict.py:221-222`): only text matters, everything else is rejected alike. -/
def PVal.asKey : PVal → PKey
  | .str s => .str s
  | _ => .none

/-- The loop over the `depends` list, `rules_dict.py:221-222`. -/
def verifyDepends (uni : Char → Bool) : List PVal → Except Exc Unit
  | [] => .ok ()
  | v :: l => do verifyXylemKey uni v.asKey; verifyDepends uni l

/-- Body of the loop of `verify_installer_rule`, `rules_dict.py:204-225`. The
`raise_from(ValueError, ...)` wrappers re-raise the same class. -/
def verifyRuleItem (uni : Char → Bool) (k : PKey) (v : PVal) : Except Exc Unit :=
  match k with
  | .str s => do
    if s = "packages" then
      match v with
      | .list _ => pure ()
      | _ => throw .valueError
    if s = "depends" then
      match v with
      | .list l => verifyDepends uni l
      | _ => throw .valueError
  | _ => .error .valueError

/-- `for k, v in d.items(): check(k, v)` (python loop used by all `verify_*`). -/
def forCheck (f : PKey → PVal → Except Exc Unit) : List (PKey × PVal) → Except Exc Unit
  | [] => .ok ()
  | (k, v) :: d => do f k v; forCheck f d

/-- `verify_installer_rule`, `rules_dict.py:195-225`. -/
def verifyInstallerRule (uni : Char → Bool) : PVal → Except Exc Unit
  | .dict d => forCheck (verifyRuleItem uni) d
  | _ => .error .valueError

/-- `verify_installer_dict`, `rules_dict.py:166-192`. -/
def verifyInstallerDict (uni : Char → Bool) (allowDefault : Bool) : PVal → Except Exc Unit
  | .dict d => forCheck (fun k v => do
      if !allowDefault then
        if k = .str "default_installer" then throw .valueError
      verifyInstallerName uni k
      verifyInstallerRule uni v) d
  | _ => .error .valueError

/-- `verify_version_dict`, `rules_dict.py:140-163`. -/
def verifyVersionDict (uni : Char → Bool) (allowDefault : Bool) : PVal → Except Exc Unit
  | .dict d => forCheck (fun k v => do
      verifyOsVersion uni k
      verifyInstallerDict uni allowDefault v) d
  | _ => .error .valueError

/-- `verify_os_dict`, `rules_dict.py:110-133`. -/
def verifyOsDict (uni : Char → Bool) (allowDefault : Bool) : PVal → Except Exc Unit
  | .dict d => forCheck (fun k v => do
      verifyOsName uni k
      verifyVersionDict uni (allowDefault && decide (k ≠ .str "any_os")) v) d
  | _ => .error .valueError

/-- `verify_rules_dict`, `rules_dict.py:84-107`. As in the source, line 102 calls
`verify_os_dict(os_dict)` *without* the flag, i.e. with the default `True`. -/
def verifyRulesDict (uni : Char → Bool) (_allowDefault : Bool) : PVal → Except Exc Unit
  | .dict d => forCheck (fun k v => do
      verifyXylemKey uni k
      verifyOsDict uni true v) d
  | _ => .error .valueError

/-! ## Embedding of the typed view -/

/-- A dict with text keys as a YAML value (no code counterpart: the typed view of the same object). -/
def dictVal {β : Type} (f : β → PVal) (d : Dict String β) : PVal :=
  .dict (d.map fun kv => (PKey.str kv.1, f kv.2))
/-- The rule as a Python value (typed view of `rules_dict.py:195`). -/
def Rule.toVal (r : Rule) : PVal := dictVal id r
/-- The installer dict as a Python value (typed view of `rules_dict.py:166`). -/
def InstDict.toVal (d : InstDict) : PVal := dictVal Rule.toVal d
/-- The version dict as a Python value (typed view of `rules_dict.py:140`). -/
def VerDict.toVal (d : VerDict) : PVal := dictVal InstDict.toVal d
/-- The os dict as a Python value (typed view of `rules_dict.py:110`). -/
def OsDict.toVal (d : OsDict) : PVal := dictVal VerDict.toVal d
/-- The rules dict as a Python value (typed view of `rules_dict.py:84`). -/
def Rules.toVal (d : Rules) : PVal := dictVal OsDict.toVal d

/-! ## Merging -/

/-- One iteration of `forItemsDel`: `none` deletes the entry (`del d[k]`, `rules_dict.py:501, 522`). -/
def delStep {β : Type} (f : String → β → Option β) (acc : Dict String β) (kv : String × β) : Dict String β :=
  match f kv.1 kv.2 with
  | some v => dset acc kv.1 v
  | none => ddel acc kv.1

/-- `for k, v in list(d.items()): ...` where the body may delete `k`
(`rules_dict.py:495-501, 516-522`): `none` deletes the entry, `some` keeps/updates it
(in Python the sub-dict is mutated in place; `continue` is `some` of the old value). -/
def forItemsDel {β : Type} (f : String → β → Option β) (d : Dict String β) : Dict String β :=
  d.foldl (delStep f) d

/-- `remove_rule_for_all_versions`, `rules_dict.py:504-522`. -/
def removeRuleForAllVersions (vd : VerDict) (inst : String) (retainAnyVersion : Bool) : VerDict :=
  forItemsDel (fun version instDict =>
    if retainAnyVersion && version = "any_version" then some instDict
    else
      let instDict := if dhas instDict inst then ddel instDict inst else instDict
      if instDict.isEmpty then none else some instDict) vd

/-- `remove_rule_for_all_os`, `rules_dict.py:485-501`. -/
def removeRuleForAllOs (od : OsDict) (inst : String) : OsDict :=
  forItemsDel (fun os vd =>
    if os = "any_os" then some vd
    else
      let vd := removeRuleForAllVersions vd inst false
      if vd.isEmpty then none else some vd) od

/-- `copy_installer_dict`, `rules_dict.py:448-463`. -/
def copyInstallerDict (d : InstDict) (dflt : Option String) : Except Exc InstDict :=
  d.foldlM (fun acc kv => do
    let name ← replaceDefaultInstaller kv.1 dflt
    pure (dset acc name kv.2)) []

/-- `copy_version_dict`, `rules_dict.py:430-445`. -/
def copyVersionDict (d : VerDict) (dflt : Option String) : Except Exc VerDict :=
  d.foldlM (fun acc kv => do
    let i ← copyInstallerDict kv.2 dflt
    pure (dset acc kv.1 i)) []

/-- `copy_os_dict`, `rules_dict.py:404-427`. -/
def copyOsDict (d : OsDict) (dflts : Dict String (Option String)) : Except Exc OsDict :=
  d.foldlM (fun acc kv =>
    if kv.1 = "any_os" then do
      let v ← copyVersionDict kv.2 none
      pure (dset acc kv.1 v)
    else match dget dflts kv.1 with
      | some dflt => do
        let v ← copyVersionDict kv.2 dflt
        pure (dset acc kv.1 v)
      | none => pure acc) []

/-- `merge_version_dict`, `rules_dict.py:367-392`. Line 381 passes `None` as default
installer (a defect that is kept). -/
def mergeVersionDict (new combined : VerDict) (dflt : Option String) : Except Exc VerDict := do
  let combined ← (match dget new "any_version" with
    | some newInst => do
      let combined ← newInst.foldlM (fun acc kv => do
        let inst ← replaceDefaultInstaller kv.1 dflt
        pure (removeRuleForAllVersions acc inst true)) combined
      match dget combined "any_version" with
      | some old => do
        let m ← mergeInstallerDict newInst old none
        pure (dset combined "any_version" m)
      | none => do
        let c ← copyInstallerDict newInst dflt
        pure (dset combined "any_version" c)
    | none => pure combined : Except Exc VerDict)
  new.foldlM (fun acc kv =>
    match dget acc kv.1 with
    | none => do
      let c ← copyInstallerDict kv.2 dflt
      pure (dset acc kv.1 c)
    | some old => do
      let m ← mergeInstallerDict kv.2 old dflt
      pure (dset acc kv.1 m)) combined

/-- `merge_os_dict`, `rules_dict.py:335-364`. -/
def mergeOsDict (new combined : OsDict) (dflts : Dict String (Option String)) : Except Exc OsDict := do
  let combined ← (match dget new "any_os" with
    | some newVer =>
      match dget newVer "any_version" with
      | none => .error .keyError
      | some newInst => do
        let combined ← newInst.foldlM (fun acc kv => do
          let inst ← replaceDefaultInstaller kv.1 none
          pure (removeRuleForAllOs acc inst)) combined
        match dget combined "any_os" with
        | some oldVer =>
          match dget oldVer "any_version" with
          | none => .error .keyError
          | some old => do
            let m ← mergeInstallerDict newInst old none
            pure (dset combined "any_os" (dset oldVer "any_version" m))
        | none => do
          let c ← copyVersionDict newVer none
          pure (dset combined "any_os" c)
    | none => pure combined : Except Exc OsDict)
  new.foldlM (fun acc kv =>
    match dget dflts kv.1 with
    | none => pure acc
    | some dflt =>
      match dget acc kv.1 with
      | none => do
        let c ← copyVersionDict kv.2 dflt
        pure (dset acc kv.1 c)
      | some old => do
        let m ← mergeVersionDict kv.2 old dflt
        pure (dset acc kv.1 m)) combined

/-- One iteration of the outer loop of `merge_rules`, `rules_dict.py:322-331`. -/
def mergeOneRules (dflts : Dict String (Option String)) (combined rules : Rules) : Except Exc Rules :=
  rules.foldlM (fun acc kv =>
    match dget acc kv.1 with
    | none => do
      let c ← copyOsDict kv.2 dflts
      if c.isEmpty then pure acc else pure (dset acc kv.1 c)
    | some old => do
      let m ← mergeOsDict kv.2 old dflts
      pure (dset acc kv.1 m)) combined

/-- `merge_rules`, `rules_dict.py:293-332`. -/
def mergeRules (l : List Rules) (dflts : Dict String (Option String)) : Except Exc Rules :=
  l.reverse.foldlM (mergeOneRules dflts) []

end Verif
