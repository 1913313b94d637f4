/- Specifications: moves between consecutive values, true range, weighted window sums. -/
import Verif.Core.Rows
import Verif.Spec.Window
import Mathlib.Algebra.Order.Group.Unbundled.Abs

namespace Verif.Spec
open Finset
variable {R : Type} [Field R] [LinearOrder R]

/-- Sum of the `p` values starting at `j`, weighted 1 (oldest) to `p` (newest). -/
def winWSum (p : Nat) (x : Nat → R) (j : Nat) : R := ∑ k ∈ range p, ((k + 1 : Nat) : R) * x (j + k)

/-- How much value `k+1` lies above / below value `k` (0 if it does not). -/
def gain (x : Nat → R) (k : Nat) : R := max (x (k + 1) - x k) 0
def loss (x : Nat → R) (k : Nat) : R := max (x k - x (k + 1)) 0

/-- True range of bar `i`: the largest of high - low and the distances of high and low from the previous close;
high - low for the first bar. -/
def trueRange (x : Nat → HLC R) (i : Nat) : R :=
  if i = 0 then (x 0).high - (x 0).low
  else max ((x i).high - (x i).low) (max |(x i).high - (x (i - 1)).close| |(x i).low - (x (i - 1)).close|)

end Verif.Spec
