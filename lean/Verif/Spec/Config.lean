import Verif.Model.Config
/-!
# What the configuration is expected to be

Read independently of how layers are merged or descriptions are stored.
-/
namespace Verif

/-- A description made by any sequence of calls of `add` (refused calls included), starting with the empty one. -/
inductive Desc.Built : Desc → Prop
  | empty : Desc.Built {}
  | add {d : Desc} (h : Desc.Built d) (s : ItemSpec) : Desc.Built (d.add s).1

/-- The option `n` is part of the description with these properties. -/
def Desc.Has (d : Desc) (n : String) (i : ConfigItem) : Prop := i ∈ d.itemlist ∧ i.name = n

/-- The first value that is set; unset if none is. -/
def firstSet : List PVal → PVal
  | [] => .none
  | .none :: t => firstSet t
  | v :: _ => v

/-- The value of the first dict that has the key. -/
def firstWith (k : PKey) : List PVal → Option PVal
  | [] => none
  | .dict d :: t => (dget d k).or (firstWith k t)
  | _ :: t => firstWith k t

/-- The value an option should have given the values in all layers, most important first: the first set one; for a merging dict key by key. -/
def Effective (t : CType) (layers : List PVal) (v : PVal) : Prop :=
  match t with
  | .mergingDict _ _ => ∃ d, v = .dict d ∧ DWF d ∧ ∀ k, dget d k = firstWith k layers
  | _ => v = firstSet layers

/-- What a config file says about an option: the entry of that name, or for `group/name` the entry `name` in the dict `group`. -/
def fileEntry (data : Dict PKey PVal) (n : String) : Option PVal :=
  match groupOf n with
  | none => dget data (.str n)
  | some (g, s) =>
    match dget data (.str g) with
    | some (.dict d) => dget d (.str s)
    | _ => none

/-- An acceptable default: a merging dict has a dict. -/
def DefaultFits (i : ConfigItem) : Prop :=
  match i.type with
  | .mergingDict _ _ => ∃ d, i.default = .dict d ∧ DWF d
  | _ => True

/-- The values allowed for an option of this type. -/
def Valid : CType → PVal → Prop
  | .any, _ => True
  | .string, v => v = .none ∨ ∃ s, v = .str s
  | .path, v => v = .none ∨ ∃ s, v = .str s
  | .boolean, v => v = .none ∨ ∃ b, v = .bool b
  | .list e, v => v = .none ∨ ∃ l, v = .list l ∧ ∀ x ∈ l, Valid e x
  | .dict vt kt, v => v = .none ∨ ∃ d, v = .dict d ∧ ∀ k x, (k, x) ∈ d → Valid kt k.toVal ∧ Valid vt x
  | .mergingDict vt kt, v => ∃ d, v = .dict d ∧ ∀ k x, (k, x) ∈ d → Valid kt k.toVal ∧ Valid vt x

/-- The values a config file may give for an option of this type: null is always allowed. -/
def Readable : CType → PVal → Prop
  | .any, _ => True
  | .string, v => v = .none ∨ ∃ s, v = .str s
  | .path, v => v = .none ∨ ∃ s, v = .str s
  | .boolean, v => v = .none ∨ ∃ b, v = .bool b
  | .list e, v => v = .none ∨ ∃ l, v = .list l ∧ ∀ x ∈ l, Readable e x
  | .dict vt kt, v => v = .none ∨ ∃ d, v = .dict d ∧ ∀ k x, (k, x) ∈ d → Readable kt k.toVal ∧ Readable vt x
  | .mergingDict vt kt, v => v = .none ∨ ∃ d, v = .dict d ∧ ∀ k x, (k, x) ∈ d → Readable kt k.toVal ∧ Readable vt x

/-- No dict type inside has a merging dict as the type of its keys (which cannot be dict keys). -/
def CType.KeysOk : CType → Prop
  | .list e => e.KeysOk
  | .dict vt kt => vt.KeysOk ∧ kt.KeysOk ∧ ∀ a b, kt ≠ .mergingDict a b
  | .mergingDict vt kt => vt.KeysOk ∧ kt.KeysOk ∧ ∀ a b, kt ≠ .mergingDict a b
  | _ => True

/-- A value without paths and merging dicts is read as it is. -/
def CType.Plain : CType → Prop
  | .path => False
  | .mergingDict _ _ => False
  | .list e => e.Plain
  | .dict vt kt => vt.Plain ∧ kt.Plain
  | _ => True

/-- The value an accepted value of a config file stands for: paths inside are expanded, null is the empty dict where dicts are merged, and
everything else is kept; if two keys of a dict become equal, the later one counts. -/
def readAs (expand : String → String) : CType → PVal → PVal
  | .path, .str s => .str (expand s)
  | .list e, .list l => .list (l.map (readAs expand e))
  | .dict vt kt, .dict d => .dict (d.foldl (fun acc kv => dset acc (readAsKey (readAs expand kt kv.1.toVal) kv.1) (readAs expand vt kv.2)) [])
  | .mergingDict _ _, .none => .dict []
  | .mergingDict vt kt, .dict d => .dict (d.foldl (fun acc kv => dset acc (readAsKey (readAs expand kt kv.1.toVal) kv.1) (readAs expand vt kv.2)) [])
  | _, v => v
where
  /-- The dict key that is this value (every value but lists and dicts is one). -/
  readAsKey (v : PVal) (k : PKey) : PKey :=
    match keyOfVal v with
    | .ok k' => k'
    | .error _ => k

/-- Adding items one after the other, stopping at the first exception. -/
def addAll (l : List ItemSpec) : Except Exc Desc :=
  l.foldlM (fun d s => match d.add s with
    | (d', .ok _) => .ok d'
    | (_, .error e) => .error e) {}

/-- The same value, not counting the order of the items of a dict. -/
def SameValue (v w : PVal) : Prop := v = w ∨ ∃ d e, v = .dict d ∧ w = .dict e ∧ DictEquiv d e

/-- Both configs have a value for every option, and it is the same. -/
def SameOptions (desc : Desc) (c c' : Config) : Prop :=
  ∀ n i, desc.Has n i → ∃ v w, readOpt c n = .ok v ∧ readOpt c' n = .ok w ∧ SameValue v w

/-- A config as the `config_from_...` functions make it: a value for every option, a dict for every merging dict option, a dict for every group. -/
def Complete (desc : Desc) (c : Config) : Prop :=
  (∀ n i, desc.Has n i → ∃ v, readOpt c n = .ok v ∧ match i.type with
    | .mergingDict _ _ => ∃ d, v = .dict d ∧ DWF d
    | _ => True) ∧
  ∀ n i g s, desc.Has n i → groupOf n = some (g, s) → ∃ d, dget c g = some (.grp d)

end Verif
