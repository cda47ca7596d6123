import Verif.Model.Program
/-! # `xylem lookup` as a program -/
namespace Verif
variable {σ : Type}

/-- `lookup(key, compact=True, config=config, installer_context=ic)`, `lookup.py:24-43`, with the effective config: the sources context and the database are
made anew for every key (`lookupApi` of `Model/Sources` with the directories of the config). As in `databaseFor`, the os of the context is asked for
once. -/
def lookupFor (env : StartEnv) (w : Surroundings σ) (c : Config) (key : String) : Except Exc PVal := do
  let l ← loadedFor w c
  let k ← lookupCtxFor env w c
  let d ← dbLookup w.uni l key k
  compactInstallerDict d k.dflt

/-- `ic.get_os_string()`, `installers/impl.py:310-317`: `"%s:%s"`. -/
def osStringFor (env : StartEnv) (w : Surroundings σ) (c : Config) : Except Exc (List Char) := do
  let k ← lookupCtxFor env w c
  pure (k.os.toList ++ ":".toList ++ k.version.toList)

/-- `main` of `commands/lookup.py:42-58`; `dump` is `dump_yaml` (PyYAML, not modelled). -/
def lookupFunc (env : StartEnv) (w : Surroundings σ) (dump : PVal → Except Exc (List Char)) (keys : List String) (p : Process) (_ns : ArgSpace) :
    Run (Option Int) :=
  (interruptible p.color (do
    let _ ← Run.lift (contextFor env w p.config)
    lookupLoop p.color dump (lookupFor env w p.config) (osStringFor env w p.config) keys)).returnsNone

/-- The program `xylem lookup`, `commands/main.py:124-156`, `commands/lookup.py:42-58`. -/
def xylemLookup (env : StartEnv) (w : Surroundings σ) (desc : Desc) (text : Bool → Exc → List Char) (dump : PVal → Except Exc (List Char))
    (fresh : Bool) (top sub : List OptSpec) (p : Process) (before after : List Given) (keys : List String) : Process × Finished :=
  mainWith env desc text fresh top sub (requireKeys keys) (lookupFunc env w dump keys) p before after

end Verif
