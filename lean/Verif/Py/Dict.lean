/-!
# Python dictionaries

A Python dict is modelled by its list of items in iteration order.  Python 2's
iteration order is arbitrary; statements about dicts are therefore made per key,
and `DictEquiv` (same value for every key) is the relation that forgets the
order.  `DWF` (no key twice) holds of every Python dict.
-/
namespace Verif

/-- A Python dict: items in iteration order (python builtin `dict`). -/
abbrev Dict (κ : Type) (β : Type) := List (κ × β)

section
variable {κ : Type} {β : Type} [DecidableEq κ]

/-- `d.get(k)`; `none` iff `k not in d` (python builtin). -/
def dget : Dict κ β → κ → Option β
  | [], _ => none
  | (k', v) :: t, k => if k' = k then some v else dget t k

/-- `k in d` (python builtin). -/
def dhas (d : Dict κ β) (k : κ) : Bool := (dget d k).isSome

/-- `d[k] = v` (python builtin): replaces in place or appends. -/
def dset : Dict κ β → κ → β → Dict κ β
  | [], k, v => [(k, v)]
  | (k', w) :: t, k, v => if k' = k then (k', v) :: t else (k', w) :: dset t k v

/-- `del d[k]` for a present key (python builtin). -/
def ddel : Dict κ β → κ → Dict κ β
  | [], _ => []
  | (k', w) :: t, k => if k' = k then ddel t k else (k', w) :: ddel t k

/-- `d.keys()` (python 2 builtin: a list). -/
def dkeys (d : Dict κ β) : List κ := d.map Prod.fst

/-- No key occurs twice: holds of every Python dict. -/
def DWF (d : Dict κ β) : Prop := (dkeys d).Nodup

/-- Two dicts with the same value for every key (they may differ in order). -/
def DictEquiv (d e : Dict κ β) : Prop := ∀ k, dget d k = dget e k

instance (d : Dict κ β) : Decidable (DWF d) := inferInstanceAs (Decidable (List.Nodup _))

/-- The loop `for k, v in d.items(): d[k] = f(k, v)`; in Python 2 `items()` is a
snapshot, and assigning to an existing key does not change the iteration. An
exception in `f` ends the loop. -/
def forItems {ε : Type} {β : Type} (f : κ → β → Except ε β) (d : Dict κ β) : Except ε (Dict κ β) :=
  d.foldlM (fun acc kv => do let v ← f kv.1 kv.2; pure (dset acc kv.1 v)) d

end
end Verif
