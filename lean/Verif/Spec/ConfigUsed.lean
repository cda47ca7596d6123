import Verif.Model.Program
/-!
# What the values in the config ask for

To be read with `Props/ConfigUsed` (C143).
-/
namespace Verif

/-- In this value of `install_from` (installers with lists of keys), the first entry that lists the key is for the installer `inst`. -/
def AsksFor (d : Dict PKey PVal) (key inst : String) : Prop :=
  ∃ pre l post, d = pre ++ (.str inst, .list l) :: post ∧ .str key ∈ l ∧ ∀ e ∈ pre, ∀ l', e.2 = .list l' → .str key ∉ l'

/-- No entry lists the key. -/
def AsksForNone (d : Dict PKey PVal) (key : String) : Prop := ∀ e ∈ d, ∀ l, e.2 = .list l → .str key ∉ l

end Verif
