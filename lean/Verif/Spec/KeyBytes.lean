import Verif.Model.KeyBytes
import Verif.Spec.ArgBytes
/-! # What keys given as words of the command line should mean -/
namespace Verif

/-- The results and errors of `resolve`, for keys given as bytes. -/
def Resolved.asObjs (r : Resolved) : ResolvedObjs :=
  ⟨r.results.map fun x => (.text x.1, x.2), r.errors.map fun x => (.text x.1, x.2)⟩

end Verif
