import Verif.Model.ConfigMessages
import Verif.Spec.Config
/-! # What the message about a refused configuration value should be -/
namespace Verif

/-- `Misfit t v T u`: in the value `v` for an option of type `t`, reading in order (each value of a dict before its key), `u` is the first thing that has not the
type it should have, whose name is `T`. -/
inductive Misfit : CType → PVal → String → PVal → Prop
  | string {v} : ¬Readable .string v → Misfit .string v "string" v
  | path {v} : ¬Readable .path v → Misfit .path v "string" v
  | boolean {v} : ¬Readable .boolean v → Misfit .boolean v "bool" v
  | list {e v} : v ≠ .none → (∀ l, v ≠ .list l) → Misfit (.list e) v "list" v
  | element {e pre x post T u} : (∀ y ∈ pre, Readable e y) → Misfit e x T u → Misfit (.list e) (.list (pre ++ x :: post)) T u
  | dict {vt kt v} : v ≠ .none → (∀ d, v ≠ .dict d) → Misfit (.dict vt kt) v "dict" v
  | value {vt kt pre k x post T u} : (∀ y ∈ pre, Readable kt y.1.toVal ∧ Readable vt y.2) → Misfit vt x T u →
      Misfit (.dict vt kt) (.dict (pre ++ (k, x) :: post)) T u
  | key {vt kt pre k x post T u} : (∀ y ∈ pre, Readable kt y.1.toVal ∧ Readable vt y.2) → Readable vt x → Misfit kt k.toVal T u →
      Misfit (.dict vt kt) (.dict (pre ++ (k, x) :: post)) T u
  | merging {vt kt v} : v ≠ .none → (∀ d, v ≠ .dict d) → Misfit (.mergingDict vt kt) v "dict" v
  | mergingValue {vt kt pre k x post T u} : (∀ y ∈ pre, Readable kt y.1.toVal ∧ Readable vt y.2) → Misfit vt x T u →
      Misfit (.mergingDict vt kt) (.dict (pre ++ (k, x) :: post)) T u
  | mergingKey {vt kt pre k x post T u} : (∀ y ∈ pre, Readable kt y.1.toVal ∧ Readable vt y.2) → Readable vt x → Misfit kt k.toVal T u →
      Misfit (.mergingDict vt kt) (.dict (pre ++ (k, x) :: post)) T u

/-- What is to be said about `u`, that should be a `T`; if the value cannot be shown, that is what happens instead. -/
def blaming (shows : PVal → Except Exc String) (tname : PVal → String) (T : String) (u : PVal) : Refusal :=
  match shows u with
  | .ok text => .message ["Expected type '" ++ T ++ "', but got '" ++ text ++ "' of type '" ++ tname u ++ "'."]
  | .error e => .crash e

/-- `Within t v chain T u`: in the value `v` that should be valid for an option of type `t`, `u` should be a `T` and is not; `chain` has one message for every list and dict around it. -/
inductive Within : CType → PVal → List String → String → PVal → Prop
  | string {v} : ¬Valid .string v → Within .string v [] "string" v
  | path {v} : ¬Valid .path v → Within .path v [] "string" v
  | boolean {v} : ¬Valid .boolean v → Within .boolean v [] "bool" v
  | list {e v} : v ≠ .none → (∀ l, v ≠ .list l) → Within (.list e) v [] "list" v
  | element {e l x chain T u} : x ∈ l → Within e x chain T u → Within (.list e) (.list l) ("invalid list element" :: chain) T u
  | dict {vt kt v} : v ≠ .none → (∀ d, v ≠ .dict d) → Within (.dict vt kt) v [] "dict" v
  | value {vt kt d y chain T u} : y ∈ d → Within vt y.2 chain T u → Within (.dict vt kt) (.dict d) ("invalid key or value" :: chain) T u
  | key {vt kt d y chain T u} : y ∈ d → Within kt y.1.toVal chain T u → Within (.dict vt kt) (.dict d) ("invalid key or value" :: chain) T u
  | merging {vt kt v} : (∀ d, v ≠ .dict d) → Within (.mergingDict vt kt) v [] "dict" v
  | mergingValue {vt kt d y chain T u} : y ∈ d → Within vt y.2 chain T u →
      Within (.mergingDict vt kt) (.dict d) ("invalid key or value" :: chain) T u
  | mergingKey {vt kt d y chain T u} : y ∈ d → Within kt y.1.toVal chain T u →
      Within (.mergingDict vt kt) (.dict d) ("invalid key or value" :: chain) T u

/-- The messages about something inside lists and dicts. -/
def Refusal.inside (chain : List String) : Refusal → Refusal
  | .message l => .message (chain ++ l)
  | .crash e => .crash e

end Verif
