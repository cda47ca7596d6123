import Verif.Spec.Database
/-! # Specification vocabulary for saving and loading the sources of a database -/
namespace Verif

/-- The cache file of the source can be determined and written. -/
def SaveWorks (env : CacheEnv) (so : Source × Outcome) : Prop := (∃ p, so.1.cachePath env = .ok p) ∧ so.2.write = .ok

/-- The download of the source gives valid data. -/
def LoadWorks (so : Source × Outcome) : Prop := ∃ d, Downloaded so.1 so.2 d

/-- Saving the source may fail, but only with ordinary exceptions: no KeyboardInterrupt, no SystemExit. -/
structure SaveUninterrupted (env : CacheEnv) (so : Source × Outcome) : Prop where
  path : ∀ e, so.1.cachePath env = .error e → e.isException
  write : ∀ e, so.2.write = .openFails e ∨ so.2.write = .dumpFails e → e.isException

/-- Loading the source may fail, but only with ordinary exceptions. -/
structure LoadUninterrupted (so : Source × Outcome) : Prop where
  load : ∀ e, so.1.spec.loadData so.2.net so.1.arguments = .error e → e.isException
  verify : ∀ d e, so.1.spec.loadData so.2.net so.1.arguments = .ok d → so.1.spec.verifyData d so.1.arguments = .error e → e.isException

end Verif
