import Verif.Model.CacheBytes
import Verif.Spec.Database
/-! # Specification: what is assumed about pickle -/
namespace Verif

variable {β : Type}

/-- What is assumed about the pickle library: reading what was written gives the object back, whatever comes after it (a pickle ends with a STOP
mark, `pickle.load` reads no further); and a beginning of it cannot be read. -/
structure PickleWorks (P : Pickle β) : Prop where
  reads : ∀ v tail, P.load (P.dump v ++ tail) = .ok v
  needs : ∀ v b, b <+: P.dump v → b ≠ P.dump v → ∃ e, P.load b = .error e

end Verif
