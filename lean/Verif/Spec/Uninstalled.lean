import Verif.Model.ArgvProgram
/-!
# Plugins that are disabled, and worlds without them

To be read with `Props/Uninstalled` (C142).
-/
namespace Verif
variable {α σ : Type}

/-- The entry point of a plugin that is disabled: a complete definition whose `plugin_name` is in the list. Whether the plugin could be instantiated does
not matter. -/
def SwitchedOff (disabled : List PVal) (ep : EntryPoint α) : Prop :=
  ∃ d n t k, ep = .ok d ∧ d.pluginName = .ok (.str n) ∧ d.description = .ok (.str t) ∧ d.cls = .ok (.derived k) ∧ PVal.str n ∈ disabled

/-- The second list of entry points is the first one without some (maybe all, maybe none) of the disabled plugins. -/
inductive Without (disabled : List PVal) : List (EntryPoint α) → List (EntryPoint α) → Prop
  | nil : Without disabled [] []
  | keep (ep : EntryPoint α) {l l' : List (EntryPoint α)} (h : Without disabled l l') : Without disabled (ep :: l) (ep :: l')
  | drop {ep : EntryPoint α} {l l' : List (EntryPoint α)} (hd : SwitchedOff disabled ep) (h : Without disabled l l') : Without disabled (ep :: l) l'

/-- The second world is the first one, but some of the plugins that the config disables are not installed. -/
structure Uninstalled (c : Config) (w w' : Surroundings σ) : Prop where
  os : ∃ l, readOpt c "disabled_plugins/os" = .ok (.list l) ∧ Without l w.osEntries w'.osEntries
  installer : ∃ l, readOpt c "disabled_plugins/installer" = .ok (.list l) ∧ Without l w.installerEntries w'.installerEntries
  spec : ∃ l, readOpt c "disabled_plugins/spec" = .ok (.list l) ∧ Without l w.specEntries w'.specEntries
  rest : w' = { w with osEntries := w'.osEntries, installerEntries := w'.installerEntries, specEntries := w'.specEntries }

end Verif
