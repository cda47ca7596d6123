import Verif.Spec.Heap
/-!
# Objects with identity: compaction of rules as it runs in memory

`compact_*` of `xylem/specs/plugins/rules.py:453-536` on the memory of `Model/Heap.lean`. The dicts `result` and
`new_version_dict` are new local objects that nothing else refers to until they are returned; the model builds
their contents first and creates the object at the end.
-/
namespace Verif

/-- `s in v` (python builtin) for dicts and lists. Simplification: text and numbers, which the preceding expansion
and verification never leave at these places, raise TypeError. -/
def hContains (s : String) : HVal → HM Bool
  | .ref a => do
    match ← hread a with
    | .dict d => pure (dhas d (.str s))
    | .list l => pure (l.contains (.str s))
  | _ => hraise .typeError

/-- `len(v)` (python builtin) for dicts and lists. -/
def hLen : HVal → HM Nat
  | .ref a => do
    match ← hread a with
    | .dict d => pure d.length
    | .list l => pure l.length
  | _ => hraise .typeError

/-- `v[s]` (python builtin): KeyError for a missing key, TypeError on anything but a dict. -/
def hIndex (v : HVal) (s : String) : HM HVal :=
  match v with
  | .ref a => do
    match ← hread a with
    | .dict d => match dget d (.str s) with
      | some w => pure w
      | Option.none => hraise .keyError
    | .list _ => hraise .typeError
  | _ => hraise .typeError

/-- `v.items()` (python 2 builtin): AttributeError on anything but a dict. -/
def hItemsOf : HVal → HM (Dict PKey HVal)
  | .ref a => hitems a
  | _ => hraise .attributeError

/-- `v == w` (python builtin): values are compared by what they are written out as. -/
noncomputable def hEq (v w : HVal) : HM Bool := fun h =>
  open Classical in
  .ok (decide (∃ t u, WritesOut h v t ∧ WritesOut h w u ∧ pyEq t u = true), h)

/-- `compact_installer_rule`, `rules.py:453-466`. -/
def hCompactRule (v : HVal) : HM HVal := do
  if ← hContains "packages" v then
    if (← hLen v) = 1 then hIndex v "packages" else pure v
  else pure v

/-- Loop of `compact_installer_dict`, `rules.py:472-473`. -/
def hCompactRules1 : List (PKey × HVal) → Dict PKey HVal → HM (Dict PKey HVal)
  | [], acc => pure acc
  | kv :: rest, acc => do
    let r ← hCompactRule kv.2
    hCompactRules1 rest (dset acc kv.1 r)

/-- `compact_installer_dict`, `rules.py:475-484`. -/
def hRename (result : Dict PKey HVal) (dflt : Option String) : Except Exc (Dict PKey HVal × String) :=
  match truthy dflt with
  | some name =>
    match dget result (.str "default_installer") with
    | some r =>
      if dhas result (.str name) then .error .valueError
      else .ok (ddel (dset result (.str name) r) (.str "default_installer"), name)
    | Option.none => .ok (result, name)
  | Option.none => .ok (result, "default_installer")

/-- Raise or go on (no code counterpart). -/
def hlift {α : Type} (x : Except Exc α) : HM α := fun h =>
  match x with
  | .ok a => .ok (a, h)
  | .error e => .error e

/-- The new dict `result` as a value (python data model). -/
def hNewDict (d : Dict PKey HVal) : HM HVal := do
  let a ← halloc (.dict d)
  pure (.ref a)

/-- `compact_installer_dict`, `rules.py:486-491`. -/
def hCollapse (result : Dict PKey HVal) (name : String) : HM HVal :=
  match dget result (.str name) with
  | some rule => do
    match ← hIsDict rule with
    | some _ => hNewDict result
    | Option.none => if result.length = 1 then pure rule else hNewDict result
  | Option.none => hNewDict result

/-- `compact_installer_dict`, `rules.py:469-491`. -/
def hCompactInstaller (v : HVal) (dflt : Option String) : HM HVal := do
  let items ← hItemsOf v
  let result ← hCompactRules1 items []
  let r ← hlift (hRename result dflt)
  hCollapse r.1 r.2

/-- `not (has_any_version and installer_dict == any_version_installer_dict)`, negated (rules.py:511-512). -/
noncomputable def hSame (anyV : Option HVal) (i : HVal) : HM Bool :=
  match anyV with
  | some a => hEq i a
  | Option.none => pure false

/-- Loop of `compact_version_dict`, `rules.py:506-513`. -/
noncomputable def hCompactVersions (dflt : Option String) (anyV : Option HVal) :
    List (PKey × HVal) → Dict PKey HVal → HM (Dict PKey HVal)
  | [], acc => pure acc
  | kv :: rest, acc =>
    if kv.1 = .str "any_version" then hCompactVersions dflt anyV rest acc
    else do
      let i ← hCompactInstaller kv.2 dflt
      if ← hSame anyV i then hCompactVersions dflt anyV rest acc
      else hCompactVersions dflt anyV rest (dset acc kv.1 i)

/-- End of `compact_version_dict`, `rules.py:506-514`. -/
noncomputable def hFinishVersion (v : HVal) (dflt : Option String) (anyV : Option HVal) (acc : Dict PKey HVal) : HM HVal := do
  let items ← hItemsOf v
  let r ← hCompactVersions dflt anyV items acc
  hNewDict r

/-- `compact_version_dict`, `rules.py:494-514`. -/
noncomputable def hCompactVersion (v : HVal) (dflt : Option String) : HM HVal := do
  if ← hContains "any_version" v then
    let av ← hIndex v "any_version"
    let a ← hCompactInstaller av dflt
    let n ← hLen v
    match ← hIsDict a with
    | some _ => hFinishVersion v dflt (some a) [(.str "any_version", a)]
    | Option.none => if n = 1 then pure a else hFinishVersion v dflt (some a) [(.str "any_version", a)]
  else hFinishVersion v dflt Option.none []

/-- `default_installers.get(os_name, None)` (rules.py:525). -/
def hDfltOf (dflts : Dict String (Option String)) : PKey → Option String
  | .str s => (dget dflts s).getD none
  | _ => none

/-- Body of the loop of `compact_os_dict`, `rules.py:519-529`. -/
noncomputable def hCompactOsEntry (dflts : Dict String (Option String)) (os : PKey) (vd : HVal) : HM HVal :=
  if os = .str "any_os" then do
    let i ← hIndex vd "any_version"
    hCompactInstaller i none
  else hCompactVersion vd (hDfltOf dflts os)

/-- The address of a dict, for item assignment; AttributeError (from `.items()`) on anything but a dict. -/
def hDictAddr (v : HVal) : HM Nat := do
  match ← hIsDict v with
  | some a => pure a
  | Option.none => hraise .attributeError

/-- `compact_os_dict`, `rules.py:517-530`. -/
noncomputable def hCompactOs (dflts : Dict String (Option String)) (v : HVal) : HM HVal := do
  let a ← hDictAddr v
  hForItems (hCompactOsEntry dflts) a
  pure (.ref a)

/-- `compact_rules`, `rules.py:533-536`. -/
noncomputable def hCompactRules (dflts : Dict String (Option String)) (v : HVal) : HM HVal := do
  let a ← hDictAddr v
  hForItems (fun _ v => hCompactOs dflts v) a
  pure (.ref a)

/-- `verify_rules_dict`, `rules_dict.py:84-107`, on a value in memory. It only reads, so its outcome is that on the value written out
(`verifyRulesDict`); on values that cannot be written out (cycles) it would not terminate normally, here an error. -/
noncomputable def hVerify (uni : Char → Bool) (v : HVal) : HM Unit := fun h =>
  open Classical in
  if hx : ∃ t, WritesOut h v t then
    hlift (verifyRulesDict uni true (Classical.choose hx)) h
  else .error .xylemInternalError

/-- The part of `_compact_rules_file` between reading and dumping the YAML text (`commands/_compact_rules_file.py:65-71`). -/
noncomputable def hCompactFile (uni : Char → Bool) (dflts : Dict String (Option String)) (root : HVal) : HM HVal := do
  let v ← hExpandRules root
  hVerify uni v
  hCompactRules dflts v

end Verif
