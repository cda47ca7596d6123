import Verif.Model.ArgvProgram
import Verif.Props.Setup
/-!
# Worlds with the same plugins found in another order

To be read with `Props/PluginOrder` (C145).
-/
namespace Verif
variable {α σ : Type}

/-- The second world is the first one, but the plugins are found in some other order (`pkg_resources.iter_entry_points` promises none). -/
structure Shuffled (w w' : Surroundings σ) : Prop where
  os : w.osEntries.Perm w'.osEntries
  installer : w.installerEntries.Perm w'.installerEntries
  spec : w.specEntries.Perm w'.specEntries
  rest : w' = { w with osEntries := w'.osEntries, installerEntries := w'.installerEntries, specEntries := w'.specEntries }

/-- No two of the entry points provide plugins of the same name. -/
def DistinctNames (uni : Char → Bool) (disabled : List PVal) (eps : List (EntryPoint α)) : Prop :=
  eps.Pairwise fun e e' => ∀ pn pn' n a a', Provides uni disabled e pn n a → ¬ Provides uni disabled e' pn' n a'

/-- The plugins the entry points provide have property `P` (of the name they are loaded with and the object). -/
def AllProvided (uni : Char → Bool) (disabled : List PVal) (eps : List (EntryPoint α)) (P : String → α → Prop) : Prop :=
  ∀ ep ∈ eps, ∀ pn n a, Provides uni disabled ep pn n a → P n a

/-- What it takes for the order not to matter to the contexts: no plugin hides another one by having its name, plugins keep their name (also installers
that are given the options of the config), and the os is given in the config or one os that detects itself derives from all others that do. -/
structure OrderFree (c : Config) (w : Surroundings σ) : Prop where
  os : ∃ l, readOpt c "disabled_plugins/os" = .ok (.list l) ∧ DistinctNames w.uni l w.osEntries ∧
    AllProvided w.uni l w.osEntries (fun n p => p.name = n) ∧
    (readOpt c "os_override" = .ok .none → ∃ d ep pn n, ep ∈ w.osEntries ∧ Provides w.uni l ep pn n d ∧ d.isOs = .ok true ∧
      AllProvided w.uni l w.osEntries fun _ p => p.isOs = .ok true → p ≠ d → p.name ∈ d.allNames ∧ d.name ∉ p.allNames)
  installer : ∃ l o, readOpt c "disabled_plugins/installer" = .ok (.list l) ∧ readOpt c "installer_options" = .ok (.dict o) ∧
    DistinctNames w.uni l w.installerEntries ∧
    AllProvided w.uni l w.installerEntries (fun n p => p.name = n ∧ ∀ v i, GivenOptions o n v → p.configure v = .ok i → i.name = n)
  spec : ∃ l, readOpt c "disabled_plugins/spec" = .ok (.list l) ∧ DistinctNames w.uni l w.specEntries ∧
    AllProvided w.uni l w.specEntries (fun n p => p.name = n)

/-- What it takes for the order not to matter to `resolve`: whenever the rules for a key are looked up, the key is listed in `install_from`, or there is a
rule for a core installer, or there are not rules for two additional installers. -/
def Undisputed (ic : InstallerCtx σ) (db : Database) (installFrom : Dict String (List String)) : Prop :=
  ∀ key d, db.lookup key = .ok d → (∃ e ∈ installFrom, key ∈ e.2) ∨ (∃ i ∈ ic.core, dhas d i.name = true) ∨
    ∀ i ∈ ic.additional, ∀ j ∈ ic.additional, dhas d i.name = true → dhas d j.name = true → i.name = j.name

end Verif
