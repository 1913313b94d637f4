/- Specifications of the Hampel filters. -/
import Verif.Spec.Rank

namespace Verif.Spec
variable {R : Type} [Field R] [LinearOrder R]

/-- `y` is `cand` if that is nearer to the median of the window than `thr * 1.4826` median deviations, the median otherwise. -/
def Hampel (thr : R) (w : List R) (cand y : R) : Prop :=
  ∃ med mad, IsMedian w med ∧ IsMedian (w.map fun v => |v - med|) mad ∧
    y = if |cand - med| < thr * (14826 / 10000) * mad then cand else med

/-- The same, a value at exactly that distance being kept. -/
def HampelIncl (thr : R) (w : List R) (cand y : R) : Prop :=
  ∃ med mad, IsMedian w med ∧ IsMedian (w.map fun v => |v - med|) mad ∧
    y = if |cand - med| ≤ thr * (14826 / 10000) * mad then cand else med

end Verif.Spec
