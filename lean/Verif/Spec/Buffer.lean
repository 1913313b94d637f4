/- Specification of history buffers: what the code does to them, and what they must answer. -/
import Verif.Model.Ring
import Verif.Model.TiBuf

namespace Verif.Spec
variable {R : Type} [Num R]

/-- One bar on a ring: `buffer = v; step(buffer);`. -/
def ringBar (r : Ring R) (v : R) : M (Ring R) := do return (← r.set v).step

/-- A ring of `m` cells after storing `vs` (oldest first), one per bar, and then storing `v` without stepping. -/
def ringAfter (m : Nat) (vs : List R) (v : R) : M (Ring R) := do (← vs.foldlM ringBar (← Ring.make (m : Int))).set v

/-- The value stored `k` bars ago when `v` is the newest and `vs` (oldest first) came before; 0 before the first. -/
def ago (vs : List R) (v : R) (k : Nat) : R := ((v :: vs.reverse)[k]?).getD (c! 0)

end Verif.Spec
