/- Specifications of dispersion over a window. -/
import Verif.Spec.Window
import Mathlib.Algebra.Order.Group.Unbundled.Abs

namespace Verif.Spec
open Finset
variable {R : Type} [Field R]

/-- Population variance of the `p` values starting at position `j`. -/
def winVar (p : Nat) (x : Nat → R) (j : Nat) : R := (∑ k ∈ range p, (x (j + k) - winMean p x j) ^ 2) / (p : R)

/-- Mean absolute deviation from the mean of the `p` values starting at position `j`. -/
def winMeanDev [LinearOrder R] (p : Nat) (x : Nat → R) (j : Nat) : R :=
  (∑ k ∈ range p, |x (j + k) - winMean p x j|) / (p : R)

/-- Relative change from bar `k` to bar `k+1`, 0 after a zero. -/
def relMove [DecidableEq R] (x : Nat → R) (k : Nat) : R := if x k = 0 then 0 else (x (k + 1) - x k) / x k

end Verif.Spec
