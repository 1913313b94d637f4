/-
Batch functions written as a sequence of loops over one running index.
-/
import Verif.Core.Stream

namespace Verif

/-- A batch function whose body is a sequence of loops `for (; cond(i) && i < size; ++i) …` over one running index.
The index starts at `p0` (`i = 0`, or `progress = -start` where the code counts that way).  Writing more than the
`cap` cells the caller supplied is out of bounds. -/
def loopBatch {ρ σ ω : Type} (cap : Int) (phs : List (Phase ρ σ ω)) (p0 : Int) (s0 : σ) (xs : List ρ) :
    M (Ret × List ω) :=
  match runPhases phs xs p0 s0 with
  | .error e => .error e
  | .ok (_, _, out) => if out.length ≤ cap.toNat then .ok (.okay, out) else .error .oobWrite

end Verif
