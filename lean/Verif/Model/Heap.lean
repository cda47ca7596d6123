import Verif.Model.Expand
/-!
# Objects with identity: expansion and compaction of rules as they run in memory

`Model/Expand.lean` treats the parsed rules file as a tree. In Python it is a graph of mutable objects: a YAML
alias (`*name`) makes two entries refer to the *same* dict, and `expand_*` / `compact_*`
(`xylem/specs/plugins/rules.py:350-536`) assign to these dicts in place. This module models the same functions
on an explicit heap of dicts and lists.
-/
namespace Verif

/-- A Python value as stored in a variable, list or dict: a scalar, or a reference to a list or dict on the heap
(python data model). -/
inductive HVal
  | none
  | bool (b : Bool)
  | int (i : Int)
  | str (s : String)
  | other (n : Nat)
  | ref (a : Nat)
  deriving DecidableEq, Repr

/-- A mutable object (python data model): the contents of a list or a dict. -/
inductive HObj
  | list (l : List HVal)
  | dict (d : Dict PKey HVal)
  deriving DecidableEq, Repr

/-- The memory (python data model): the object at every address; objects are never freed. -/
abbrev Heap := List HObj

/-- Code that may change the memory and raise (python data model). -/
abbrev HM (α : Type) := StateT Heap (Except Exc) α

/-- Create a new object (python data model). -/
def halloc (o : HObj) : HM Nat := fun h => .ok (h.length, h ++ [o])

/-- Look at an object (python data model); references always point to existing objects, so the error never
happens in Python. -/
def hread (a : Nat) : HM HObj := fun h =>
  match h[a]? with
  | some o => .ok (o, h)
  | Option.none => .error .xylemInternalError

/-- Replace the contents of an object (python data model). -/
def hwrite (a : Nat) (o : HObj) : HM Unit := fun h => .ok ((), h.set a o)

/-- Raise an exception (python builtin). -/
def hraise {α : Type} (e : Exc) : HM α := fun _ => .error e

/-- `d[k] = v` on the dict at address `a` (python builtin); on anything else the assignment raises TypeError. -/
def hsetItem (a : Nat) (k : PKey) (v : HVal) : HM Unit := do
  match ← hread a with
  | .dict d => hwrite a (.dict (dset d k v))
  | .list _ => hraise .typeError

/-- `{kw: items}` for the list at address `l` (`rules.py:360-362`, `388-390`, `406-408`). -/
def hwrap (kw : String) (l : HVal) : HM Nat := halloc (.dict [(.str kw, l)])

/-- The up-conversion at the start of `expand_definition` (rules.py:351-362), `expand_installer_definition`
(379-390) and `expand_os_version_definition` (397-408). The result is the address of a dict: a new one for null,
text and lists, the given one for dicts. -/
def hUpConvert (kw : String) : HVal → HM Nat
  | .none => do
    let l ← halloc (.list [])
    hwrap kw (.ref l)
  | .str s => do
    let l ← halloc (.list [.str s])
    hwrap kw (.ref l)
  | .ref a => do
    match ← hread a with
    | .list _ => hwrap kw (.ref a)
    | .dict _ => pure a
  | _ => hraise .valueError

/-- `d[k] = []` if `d[k]` is null, `d[k] = [d[k]]` if it is text (rules.py:363-367 and 369-372). -/
def hListify (a : Nat) (k : PKey) : HVal → HM Unit
  | .none => do
    let l ← halloc (.list [])
    hsetItem a k (.ref l)
  | .str s => do
    let l ← halloc (.list [.str s])
    hsetItem a k (.ref l)
  | _ => pure ()

/-- The items of the dict at address `a` (python builtin); only called where `a` is a dict. -/
def hitems (a : Nat) : HM (Dict PKey HVal) := do
  match ← hread a with
  | .dict d => pure d
  | .list _ => hraise .attributeError

/-- `rules.py:363-367`. -/
def hNormPackages (a : Nat) : HM Unit := do
  let d ← hitems a
  match dget d (.str "packages") with
  | some v => hListify a (.str "packages") v
  | Option.none => pure ()

/-- `v == []` (python builtin). -/
def hIsEmptyList : HVal → HM Bool
  | .ref a => do
    match ← hread a with
    | .list l => pure l.isEmpty
    | .dict _ => pure false
  | _ => pure false

/-- `if definition['depends'] == []: del definition['depends']` (rules.py:373-374). -/
def hDropDepends (a : Nat) : HM Unit := do
  let d ← hitems a
  match dget d (.str "depends") with
  | some v => do
    if ← hIsEmptyList v then hwrite a (.dict (ddel d (.str "depends"))) else pure ()
  | Option.none => pure ()

/-- `rules.py:368-374`. -/
def hNormDepends (a : Nat) : HM Unit := do
  let d ← hitems a
  match dget d (.str "depends") with
  | some v => do
    hListify a (.str "depends") v
    hDropDepends a
  | Option.none => pure ()

/-- `expand_definition`, `rules.py:350-375`. -/
def hExpandDefinition (v : HVal) : HM HVal := do
  let a ← hUpConvert "packages" v
  hNormPackages a
  hNormDepends a
  pure (.ref a)

/-- Body of the loops `for k, v in d.items(): d[k] = f(k, v)`. -/
def hForStep (f : PKey → HVal → HM HVal) (a : Nat) (kv : PKey × HVal) : HM Unit := do
  let r ← f kv.1 kv.2
  hsetItem a kv.1 r

/-- One pass over a snapshot of the items (see `hForItems`). -/
def hForLoop (f : PKey → HVal → HM HVal) (a : Nat) : List (PKey × HVal) → HM Unit
  | [] => pure ()
  | kv :: rest => do
    hForStep f a kv
    hForLoop f a rest

/-- `for k, v in d.items(): d[k] = f(k, v)` on the dict at address `a`: `items()` is a snapshot in Python 2
(rules.py:391-392, 418-419, 428-429, 439-446). -/
def hForItems (f : PKey → HVal → HM HVal) (a : Nat) : HM Unit := do
  let d ← hitems a
  hForLoop f a d

/-- `expand_installer_definition`, `rules.py:378-393`. -/
def hExpandInstaller (v : HVal) : HM HVal := do
  let a ← hUpConvert "default_installer" v
  hForItems (fun _ v => hExpandDefinition v) a
  pure (.ref a)

/-- The `any_os` special case, `rules.py:409-417`: the address of the dict to go on with. -/
def hAnyOs (os : PKey) (a : Nat) : HM Nat :=
  if os = .str "any_os" then do
    let d ← hitems a
    if dhas d (.str "any_version") then
      if d.length != 1 then hraise .valueError else pure a
    else hwrap "any_version" (.ref a)
  else pure a

/-- `expand_os_version_definition`, `rules.py:396-420`. -/
def hExpandOsVersion (os : PKey) (v : HVal) : HM HVal := do
  let a ← hUpConvert "any_version" v
  let a ← hAnyOs os a
  hForItems (fun _ v => hExpandInstaller v) a
  pure (.ref a)

/-- `isinstance(v, dict)`, returning the address (python builtin). -/
def hIsDict : HVal → HM (Option Nat)
  | .ref a => do
    match ← hread a with
    | .dict _ => pure (some a)
    | .list _ => pure Option.none
  | _ => pure Option.none

/-- `expand_os_definition`, `rules.py:423-430`. -/
def hExpandOs (v : HVal) : HM HVal := do
  match ← hIsDict v with
  | some a => do
    hForItems hExpandOsVersion a
    pure (.ref a)
  | Option.none => hraise .valueError

/-- `try: ... except ValueError: raise SpecParsingError(...)` (rules.py:441-446); see `raiseSpecParsingError` for
what is really raised. -/
def hReraise {α : Type} (m : HM α) : HM α := fun h =>
  match m h with
  | .ok x => .ok x
  | .error .valueError => .error raiseSpecParsingError
  | .error e => .error e

/-- `expand_rules`, `rules.py:433-447`. -/
def hExpandRules (v : HVal) : HM HVal :=
  match v with
  | .none => do
    let a ← halloc (.dict [])
    pure (.ref a)
  | v => do
    match ← hIsDict v with
    | some a => do
      hForItems (fun _ v => hReraise (hExpandOs v)) a
      pure (.ref a)
    | Option.none => hraise .valueError

end Verif
