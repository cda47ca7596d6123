import Verif.Model.Heap
/-!
# What a graph of objects denotes

Specification for the theorems on YAML aliases: the tree a value denotes when it is written out in full, and the
roles the dicts of a rules file play. Nothing here refers to how the code works.
-/
namespace Verif

mutual
/-- `TreeAt h P v t`: written out in full, the value `v` in memory `h` is the tree `t`; all objects on the way
satisfy `P`. -/
def TreeAt (h : Heap) (P : Nat → Prop) (v : HVal) : PVal → Prop
  | .none => v = .none
  | .bool b => v = .bool b
  | .int i => v = .int i
  | .str s => v = .str s
  | .other n => v = .other n
  | .list ts => ∃ a l, v = .ref a ∧ P a ∧ h[a]? = some (.list l) ∧ ListAt h P l ts
  | .dict e => ∃ a d, v = .ref a ∧ P a ∧ h[a]? = some (.dict d) ∧ ItemsAt h P d e
/-- See `TreeAt`: elementwise. -/
def ListAt (h : Heap) (P : Nat → Prop) (l : List HVal) : List PVal → Prop
  | [] => l = []
  | t :: ts => ∃ v l', l = v :: l' ∧ TreeAt h P v t ∧ ListAt h P l' ts
/-- See `TreeAt`: the same keys in the same order, values elementwise. -/
def ItemsAt (h : Heap) (P : Nat → Prop) (d : Dict PKey HVal) : List (PKey × PVal) → Prop
  | [] => d = []
  | (k, t) :: e => ∃ v d', d = (k, v) :: d' ∧ TreeAt h P v t ∧ ItemsAt h P d' e
end

/-- Written out in full, the value `v` in memory `h` is the tree `t`. -/
def WritesOut (h : Heap) (v : HVal) (t : PVal) : Prop := TreeAt h (fun _ => True) v t

/-- The dicts in memory have distinct keys, as all Python dicts do. -/
def Heap.WF (h : Heap) : Prop := ∀ (a : Nat) (d : Dict PKey HVal), h[a]? = some (.dict d) → DWF d

/-- `v` is a dict without `any_version` (as such it is an installer dict when it stands under `any_os`). -/
def bareDict (h : Heap) : HVal → Bool
  | .ref a => match h[a]? with
    | some (.dict d) => !dhas d (.str "any_version")
    | _ => false
  | _ => false

/-- The role of the value found under key `k` in a dict of role `n + 1`. Roles: 5 rules dict, 4 os dict, 3 version
dict, 2 installer dict, 1 installer rule, 0 anything inside a rule. Under `any_os` the version dict may be left
out. -/
def roleUnder (h : Heap) (n : Nat) (k : PKey) (v : HVal) : Nat :=
  if n = 3 ∧ k = .str "any_os" ∧ bareDict h v = true then 2 else n

/-- `Plays h root n v`: somewhere in the rules file `root` the value `v` stands in role `n`. -/
inductive Plays (h : Heap) (root : HVal) : Nat → HVal → Prop
  | root : Plays h root 5 root
  | entry {n a : Nat} {d : Dict PKey HVal} {k : PKey} {v : HVal} : Plays h root (n + 1) (.ref a) → h[a]? = some (.dict d) → (k, v) ∈ d →
      Plays h root (roleUnder h n k v) v
  | inner {a : Nat} {d : Dict PKey HVal} {k : PKey} {v : HVal} : Plays h root 0 (.ref a) → h[a]? = some (.dict d) → (k, v) ∈ d → Plays h root 0 v
  | item {n a : Nat} {l : List HVal} {v : HVal} : Plays h root n (.ref a) → h[a]? = some (.list l) → v ∈ l → Plays h root 0 v

/-- No dict of the rules file stands in two different roles (it may well stand in several places). -/
def OneRole (h : Heap) (root : HVal) : Prop :=
  ∀ (a : Nat) (d : Dict PKey HVal) (m n : Nat), h[a]? = some (.dict d) → Plays h root m (.ref a) → Plays h root n (.ref a) → m = n

/-- `Reaches h root p v`: following `p` (latest step first) from `root` leads to `v`. A step is a key of a dict or a
position in a list. -/
inductive Reaches (h : Heap) (root : HVal) : List (PKey ⊕ Nat) → HVal → Prop
  | here : Reaches h root [] root
  | key {p : List (PKey ⊕ Nat)} {a : Nat} {d : Dict PKey HVal} {k : PKey} {v : HVal} :
      Reaches h root p (.ref a) → h[a]? = some (.dict d) → dget d k = some v → Reaches h root (.inl k :: p) v
  | item {p : List (PKey ⊕ Nat)} {a : Nat} {l : List HVal} {i : Nat} {v : HVal} :
      Reaches h root p (.ref a) → h[a]? = some (.list l) → l[i]? = some v → Reaches h root (.inr i :: p) v

/-- The file uses no alias: there is only one way to every object. -/
def NoAlias (h : Heap) (root : HVal) : Prop :=
  ∀ (p q : List (PKey ⊕ Nat)) (a : Nat), Reaches h root p (.ref a) → Reaches h root q (.ref a) → p = q

end Verif
