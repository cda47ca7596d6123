import Verif.Model.Database
import Mathlib.Data.List.Forall2
/-! # Specification vocabulary for the database of sources -/
namespace Verif

/-- The download of source `s` gives the valid data `d`: the spec's loader returns `d` for the answers `o.net` of the
network, and `d` passes the spec's verification. -/
def Downloaded (s : Source) (o : Outcome) (d : PVal) : Prop :=
  s.spec.loadData o.net s.arguments = .ok d ∧ s.spec.verifyData d s.arguments = .ok ()

/-- The content of a correct cache file of source `s` for data `d` loaded at time `now`. -/
def goodFile (env : CacheEnv) (s : Source) (d now : PVal) : FileContent :=
  .pickled (.dict [(.str "xylem_version", .str env.xylemVersion), (.str "spec_name", .str s.spec.name),
    (.str "spec_version", .int s.spec.version), (.str "arguments", s.arguments), (.str "origin", s.origin),
    (.str "data", d), (.str "time_data_loaded", now)])

/-- Every source has a cache file path, and no two sources share one. -/
def DistinctCacheFiles (env : CacheEnv) (sources : List Source) : Prop :=
  ∃ paths : List String, List.Forall₂ (fun s p => s.cachePath env = .ok p) sources paths ∧ paths.Nodup

/-- Everything about updating source `s` works: download, path, writing. -/
def UpdateSucceeds (env : CacheEnv) (so : Source × Outcome) : Prop :=
  (∃ d, Downloaded so.1 so.2 d) ∧ (∃ p, so.1.cachePath env = .ok p) ∧ so.2.write = .ok

/-- What happens to source `so.1` during an update may fail, but only with ordinary exceptions: no KeyboardInterrupt, no SystemExit. -/
structure NotInterrupted (env : CacheEnv) (so : Source × Outcome) : Prop where
  load : ∀ e, so.1.spec.loadData so.2.net so.1.arguments = .error e → e.isException
  verify : ∀ d e, so.1.spec.loadData so.2.net so.1.arguments = .ok d → so.1.spec.verifyData d so.1.arguments = .error e → e.isException
  path : ∀ e, so.1.cachePath env = .error e → e.isException
  write : ∀ e, so.2.write = .openFails e ∨ so.2.write = .dumpFails e → e.isException

end Verif
