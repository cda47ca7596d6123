import Verif.Spec.Heap
import Verif.Model.RulesDict
/-!
# Objects with identity: lookup and merging of rules as they run in memory

`lookup_rules`, `merge_*`, `copy_*` and `remove_rule_for_*` of `xylem/sources/rules_dict.py:34-72, 293-522`, and the
lookups of `xylem/sources/database.py:177-181, 310-318`, on the memory of `Model/Heap.lean`. These functions get dicts that others
go on using (the loaded rules of the sources) and assign to dicts in place. Unlike `HM`, the memory is also known
after an exception.
-/
namespace Verif

/-- Code that may change the memory and raise; the memory after an exception is kept (python data model). -/
abbrev HX (α : Type) := ExceptT Exc (StateM Heap) α

/-- Create a new object (python data model). -/
def xalloc (o : HObj) : HX Nat := fun h => (.ok h.length, h ++ [o])

/-- Raise or go on (python builtin). -/
def xlift {α : Type} (x : Except Exc α) : HX α := fun h => (x, h)

/-- A new empty dict `{}` (python builtin). -/
def xnew : HX HVal := do
  let a ← xalloc (.dict [])
  pure (.ref a)

/-- The contents of the dict `v`; `e` is raised on anything but a dict (python data model). -/
def xdict (e : Exc) (v : HVal) : HX (Dict PKey HVal) := fun h =>
  match v with
  | .ref a => match h[a]? with
    | some (.dict d) => (.ok d, h)
    | _ => (.error e, h)
  | _ => (.error e, h)

/-- `v.items()`, `v.keys()` (python 2 builtins: snapshots). -/
def xitems (v : HVal) : HX (Dict PKey HVal) := xdict .attributeError v

/-- Replace the contents of the dict `v` (python data model). -/
def xput (v : HVal) (d : Dict PKey HVal) : HX Unit := fun h =>
  match v with
  | .ref a => (.ok (), h.set a (.dict d))
  | _ => (.error .typeError, h)

/-- `v[k] = w` (python builtin). -/
def xset (v : HVal) (k : PKey) (w : HVal) : HX Unit := do
  let d ← xdict .typeError v
  xput v (dset d k w)

/-- `del v[k]` (python builtin). -/
def xdel (v : HVal) (k : PKey) : HX Unit := do
  let d ← xdict .typeError v
  if dhas d k then xput v (ddel d k) else xlift (.error .keyError)

/-- `v[k]` (python builtin). -/
def xindex (v : HVal) (k : PKey) : HX HVal := do
  let d ← xdict .typeError v
  match dget d k with
  | some w => pure w
  | none => xlift (.error .keyError)

/-- `k in v` (python builtin), for dicts. -/
def xhas (v : HVal) (k : PKey) : HX Bool := do
  let d ← xdict .typeError v
  pure (dhas d k)

/-- `not v` (python builtin), for dicts. -/
def xempty (v : HVal) : HX Bool := do
  let d ← xdict .typeError v
  pure d.isEmpty

/-- `v.get(k, {})` (python builtin): the new dict is created in any case. -/
def xget (v : HVal) (k : PKey) : HX HVal := do
  let e ← xnew
  let d ← xdict .attributeError v
  pure ((dget d k).getD e)

/-- `for x in l: f(x)` (python builtin). -/
def xForEach {α : Type} (f : α → HX Unit) : List α → HX Unit
  | [] => pure ()
  | x :: l => do
    f x
    xForEach f l

/-- `replace_default_installer`, `rules_dict.py:466-482`. -/
def kReplaceDefault (name : PKey) (dflt : Option String) : Except Exc PKey :=
  if name = .str "default_installer" then
    match truthy dflt with
    | some d => .ok (.str d)
    | none => .error .valueError
  else .ok name

/-- Body of the loops of `merge_installer_dict` and `copy_installer_dict`, `rules_dict.py:399-401, 460-462`. -/
def xMergeInstallerStep (c : HVal) (dflt : Option String) (kv : PKey × HVal) : HX Unit := do
  let name ← xlift (kReplaceDefault kv.1 dflt)
  xset c name kv.2

/-- `merge_installer_dict`, `rules_dict.py:395-401`. -/
def xMergeInstaller (new c : HVal) (dflt : Option String) : HX Unit := do
  let items ← xitems new
  xForEach (xMergeInstallerStep c dflt) items

/-- `lookup_rules`, `rules_dict.py:34-72`. -/
def xLookupRules (rules : HVal) (key os ver : String) (dflt : Option String) : HX HVal := do
  let osDict ← xget rules (.str key)
  let versionDict ← xget osDict (.str os)
  let anyOsDict ← xget osDict (.str "any_os")
  let anyOsInstallerDict ← xget anyOsDict (.str "any_version")
  let anyVersionInstallerDict ← xget versionDict (.str "any_version")
  let specificInstallerDict ← xget versionDict (.str ver)
  let combined ← xnew
  xMergeInstaller anyOsInstallerDict combined dflt
  xMergeInstaller anyVersionInstallerDict combined dflt
  xMergeInstaller specificInstallerDict combined dflt
  pure combined

/-- The object `v` refers to, if any (python data model). -/
def hobj (h : Heap) : HVal → Option HObj
  | .ref a => h[a]?
  | _ => none

/-- See `PVal.asKey`: what `verify_xylem_key` sees of an element of `depends`, `rules_dict.py:221-222`. -/
def HVal.asKey : HVal → PKey
  | .str s => .str s
  | _ => .none

/-- The loop over the `depends` list, `rules_dict.py:221-222`. -/
def hVerifyDepends (uni : Char → Bool) : List HVal → Except Exc Unit
  | [] => .ok ()
  | v :: l => do verifyXylemKey uni v.asKey; hVerifyDepends uni l

/-- `isinstance(value, list)` for `packages`, `rules_dict.py:210-214`. -/
def hVerifyPackages : Option HObj → Except Exc Unit
  | some (.list _) => .ok ()
  | _ => .error .valueError

/-- The `depends` entry, `rules_dict.py:215-225`. -/
def hVerifyDependsEntry (uni : Char → Bool) : Option HObj → Except Exc Unit
  | some (.list l) => hVerifyDepends uni l
  | _ => .error .valueError

/-- Body of the loop of `verify_installer_rule`, `rules_dict.py:204-225`. -/
def hVerifyRuleItem (uni : Char → Bool) (h : Heap) : PKey × HVal → Except Exc Unit
  | (.str s, v) => do
    if s = "packages" then hVerifyPackages (hobj h v)
    if s = "depends" then hVerifyDependsEntry uni (hobj h v)
  | _ => .error .valueError

/-- `for k, v in d.items(): check(k, v)` (python loop used by all `verify_*`). -/
def hForCheck (f : PKey × HVal → Except Exc Unit) : Dict PKey HVal → Except Exc Unit
  | [] => .ok ()
  | kv :: d => do f kv; hForCheck f d

/-- `verify_installer_rule`, `rules_dict.py:195-225`. -/
def hVerifyRule (uni : Char → Bool) (h : Heap) (v : HVal) : Except Exc Unit :=
  match hobj h v with
  | some (.dict d) => hForCheck (hVerifyRuleItem uni h) d
  | _ => .error .valueError

/-- Body of the loop of `verify_installer_dict`, `rules_dict.py:178-192`, with `allow_default_installer=False`. -/
def hVerifyInstallerItem (uni : Char → Bool) (h : Heap) (kv : PKey × HVal) : Except Exc Unit := do
  if kv.1 = .str "default_installer" then throw .valueError
  verifyInstallerName uni kv.1
  hVerifyRule uni h kv.2

/-- `verify_installer_dict(.., allow_default_installer=False)`, `rules_dict.py:166-192`. -/
def hVerifyInstaller (uni : Char → Bool) (h : Heap) (v : HVal) : Except Exc Unit :=
  match hobj h v with
  | some (.dict d) => hForCheck (hVerifyInstallerItem uni h) d
  | _ => .error .valueError

/-- The call `verify_installer_dict(installer_dict, allow_default_installer=False)` of `database.py:180`: it only reads the memory. -/
def xVerifyInstaller (uni : Char → Bool) (v : HVal) : HX Unit := fun h => (hVerifyInstaller uni h v, h)

/-- `RulesSource.lookup`, `database.py:177-181`, for a source of the rules spec (`rules.py:315-320`) with loaded data `data`. -/
def xSourceLookup (uni : Char → Bool) (key os ver : String) (dflt : Option String) (data : HVal) : HX HVal := do
  let i ← xLookupRules data key os ver dflt
  xVerifyInstaller uni i
  pure i

/-- Body of the loop of `RulesDatabase.lookup`, `database.py:315-317`. -/
def xDbStep (uni : Char → Bool) (key os ver : String) (dflt : Option String) (c data : HVal) : HX Unit := do
  let new ← xSourceLookup uni key os ver dflt data
  xMergeInstaller new c none

/-- `RulesDatabase.lookup`, `database.py:310-318`, for sources of the rules spec with the loaded data `datas`. -/
def xDbLookup (uni : Char → Bool) (datas : List HVal) (key os ver : String) (dflt : Option String) : HX HVal := do
  let c ← xnew
  xForEach (xDbStep uni key os ver dflt c) datas.reverse
  pure c

/-- `copy_installer_dict`, `rules_dict.py:448-463`. -/
def xCopyInstaller (v : HVal) (dflt : Option String) : HX HVal := do
  let r ← xnew
  let items ← xitems v
  xForEach (xMergeInstallerStep r dflt) items
  pure r

/-- Body of the loop of `copy_version_dict`, `rules_dict.py:443-444`. -/
def xCopyVersionStep (r : HVal) (dflt : Option String) (kv : PKey × HVal) : HX Unit := do
  let i ← xCopyInstaller kv.2 dflt
  xset r kv.1 i

/-- `copy_version_dict`, `rules_dict.py:430-445`. -/
def xCopyVersion (v : HVal) (dflt : Option String) : HX HVal := do
  let r ← xnew
  let items ← xitems v
  xForEach (xCopyVersionStep r dflt) items
  pure r

/-- `default_installers[os]` if `os in default_installers` (`rules_dict.py:357, 424`). -/
def kDflt (dflts : Dict String (Option String)) : PKey → Option (Option String)
  | .str s => dget dflts s
  | _ => none

/-- Copying one entry of an os dict, `rules_dict.py:422-426`. -/
def xCopyEntry (r : HVal) (kv : PKey × HVal) (dflt : Option String) : HX Unit := do
  let v ← xCopyVersion kv.2 dflt
  xset r kv.1 v

/-- Body of the loop of `copy_os_dict`, `rules_dict.py:421-426`. -/
def xCopyOsStep (r : HVal) (dflts : Dict String (Option String)) (kv : PKey × HVal) : HX Unit :=
  if kv.1 = .str "any_os" then xCopyEntry r kv none
  else match kDflt dflts kv.1 with
    | some dflt => xCopyEntry r kv dflt
    | none => pure ()

/-- `copy_os_dict`, `rules_dict.py:404-427`. -/
def xCopyOs (v : HVal) (dflts : Dict String (Option String)) : HX HVal := do
  let r ← xnew
  let items ← xitems v
  xForEach (xCopyOsStep r dflts) items
  pure r

/-- `if installer_name in installer_dict: del installer_dict[installer_name]`, `rules_dict.py:519-520`. -/
def xDelIfIn (v : HVal) (k : PKey) : HX Unit := do
  if ← xhas v k then xdel v k else pure ()

/-- `if not child: del parent[k]`, `rules_dict.py:500-501, 521-522`. -/
def xDelIfEmpty (parent : HVal) (k : PKey) (child : HVal) : HX Unit := do
  if ← xempty child then xdel parent k else pure ()

/-- Body of the loop of `remove_rule_for_all_versions`, `rules_dict.py:517-522`. -/
def xRemoveVersionsStep (v : HVal) (inst : PKey) (retain : Bool) (kv : PKey × HVal) : HX Unit :=
  if retain && kv.1 = .str "any_version" then pure ()
  else do
    xDelIfIn kv.2 inst
    xDelIfEmpty v kv.1 kv.2

/-- `remove_rule_for_all_versions`, `rules_dict.py:504-522`. -/
def xRemoveVersions (v : HVal) (inst : PKey) (retain : Bool) : HX Unit := do
  let items ← xitems v
  xForEach (xRemoveVersionsStep v inst retain) items

/-- Body of the loop of `remove_rule_for_all_os`, `rules_dict.py:496-501`. -/
def xRemoveOsStep (v : HVal) (inst : PKey) (kv : PKey × HVal) : HX Unit :=
  if kv.1 = .str "any_os" then pure ()
  else do
    xRemoveVersions kv.2 inst false
    xDelIfEmpty v kv.1 kv.2

/-- `remove_rule_for_all_os`, `rules_dict.py:485-501`. -/
def xRemoveOs (v : HVal) (inst : PKey) : HX Unit := do
  let items ← xitems v
  xForEach (xRemoveOsStep v inst) items

/-- Body of the loop over the installers of `any_version`, `rules_dict.py:377-378`. -/
def xOverrideVersionsStep (c : HVal) (dflt : Option String) (kv : PKey × HVal) : HX Unit := do
  let inst ← xlift (kReplaceDefault kv.1 dflt)
  xRemoveVersions c inst true

/-- `rules_dict.py:379-384`. -/
def xPutAnyVersion (newInst c : HVal) (dflt : Option String) : HX Unit := do
  if ← xhas c (.str "any_version") then
    let old ← xindex c (.str "any_version")
    xMergeInstaller newInst old none
  else
    let i ← xCopyInstaller newInst dflt
    xset c (.str "any_version") i

/-- `rules_dict.py:374-384`. -/
def xMergeAnyVersion (new c : HVal) (dflt : Option String) : HX Unit := do
  if ← xhas new (.str "any_version") then
    let newInst ← xindex new (.str "any_version")
    let items ← xitems newInst
    xForEach (xOverrideVersionsStep c dflt) items
    xPutAnyVersion newInst c dflt
  else pure ()

/-- Body of the loop of `merge_version_dict`, `rules_dict.py:386-392`. -/
def xMergeVersionStep (c : HVal) (dflt : Option String) (kv : PKey × HVal) : HX Unit := do
  if ← xhas c kv.1 then
    let old ← xindex c kv.1
    xMergeInstaller kv.2 old dflt
  else
    let i ← xCopyInstaller kv.2 dflt
    xset c kv.1 i

/-- `merge_version_dict`, `rules_dict.py:367-392`. -/
def xMergeVersion (new c : HVal) (dflt : Option String) : HX Unit := do
  xMergeAnyVersion new c dflt
  let items ← xitems new
  xForEach (xMergeVersionStep c dflt) items

/-- Body of the loop over the installers of `any_os`, `rules_dict.py:346-347`. -/
def xOverrideOsStep (c : HVal) (kv : PKey × HVal) : HX Unit := do
  let inst ← xlift (kReplaceDefault kv.1 none)
  xRemoveOs c inst

/-- `rules_dict.py:348-355`. -/
def xPutAnyOs (newVer newInst c : HVal) : HX Unit := do
  if ← xhas c (.str "any_os") then
    let oldVer ← xindex c (.str "any_os")
    let old ← xindex oldVer (.str "any_version")
    xMergeInstaller newInst old none
  else
    let v ← xCopyVersion newVer none
    xset c (.str "any_os") v

/-- `rules_dict.py:340-355`. -/
def xMergeAnyOs (new c : HVal) : HX Unit := do
  if ← xhas new (.str "any_os") then
    let newVer ← xindex new (.str "any_os")
    let newInst ← xindex newVer (.str "any_version")
    let items ← xitems newInst
    xForEach (xOverrideOsStep c) items
    xPutAnyOs newVer newInst c
  else pure ()

/-- `rules_dict.py:359-364`. -/
def xMergeOsEntry (c : HVal) (kv : PKey × HVal) (dflt : Option String) : HX Unit := do
  if ← xhas c kv.1 then
    let old ← xindex c kv.1
    xMergeVersion kv.2 old dflt
  else
    let v ← xCopyVersion kv.2 dflt
    xset c kv.1 v

/-- Body of the loop of `merge_os_dict`, `rules_dict.py:357-364`. -/
def xMergeOsStep (c : HVal) (dflts : Dict String (Option String)) (kv : PKey × HVal) : HX Unit :=
  match kDflt dflts kv.1 with
  | some dflt => xMergeOsEntry c kv dflt
  | none => pure ()

/-- `merge_os_dict`, `rules_dict.py:335-364`. -/
def xMergeOs (new c : HVal) (dflts : Dict String (Option String)) : HX Unit := do
  xMergeAnyOs new c
  let items ← xitems new
  xForEach (xMergeOsStep c dflts) items

/-- `if combined_os_dict: combined_rules[xylem_key] = combined_os_dict`, `rules_dict.py:327-328`. -/
def xSetUnlessEmpty (c : HVal) (k : PKey) (v : HVal) : HX Unit := do
  if ← xempty v then pure () else xset c k v

/-- Body of the inner loop of `merge_rules`, `rules_dict.py:324-331`. -/
def xMergeKeyStep (c : HVal) (dflts : Dict String (Option String)) (kv : PKey × HVal) : HX Unit := do
  if ← xhas c kv.1 then
    let old ← xindex c kv.1
    xMergeOs kv.2 old dflts
  else
    let v ← xCopyOs kv.2 dflts
    xSetUnlessEmpty c kv.1 v

/-- Body of the outer loop of `merge_rules`, `rules_dict.py:323-331`. -/
def xMergeOneRules (c : HVal) (dflts : Dict String (Option String)) (rules : HVal) : HX Unit := do
  let items ← xitems rules
  xForEach (xMergeKeyStep c dflts) items

/-- `merge_rules`, `rules_dict.py:293-332`. -/
def xMergeRules (l : List HVal) (dflts : Dict String (Option String)) : HX HVal := do
  let c ← xnew
  xForEach (xMergeOneRules c dflts) l.reverse
  pure c

end Verif
