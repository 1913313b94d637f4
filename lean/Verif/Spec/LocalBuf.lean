/- Specification of local buffers. -/
import Verif.Model.LocalBuf

namespace Verif.Spec

/-- The values pushed to buffer `k`, oldest first. -/
def pushedTo {R : Type} (k : Nat) (ps : List (Nat × R)) : List R := (ps.filter fun p => p.1 = k).map fun p => p.2

end Verif.Spec
