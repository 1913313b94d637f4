/- Specifications of er, dwma, pwma, swma, t3, copp. -/
import Verif.Core.Laws
import Verif.Spec.Weighted
import Mathlib.Algebra.Order.Group.Unbundled.Abs

namespace Verif.Spec
open Finset
variable {R : Type} [Field R] [LinearOrder R] [CMath R]

/-- Kaufman's efficiency ratio: net move over `p` bars as a fraction of the path length, 0 if there is no net move. -/
def efficiency (p : Nat) (x : Nat → R) (j : Nat) : R :=
  if x (j + p) = x j then 0 else |x (j + p) - x j| / ∑ k ∈ range p, |x (j + k + 1) - x (j + k)|

/-- Mean of the `p` values from `j` on with weights `1^q, 2^q, …, p^q`, the newest weighing `p^q`. -/
def powerMean (p : Nat) (q : R) (x : Nat → R) (j : Nat) : R :=
  (∑ k ∈ range p, CMath.pow ((k + 1 : Nat) : R) q * x (j + k)) / ∑ k ∈ range p, CMath.pow ((k + 1 : Nat) : R) q

/-- Mean of the `p` values from `j` on, the value of `k` bars before the newest weighing `w k`. -/
def backMean (w : Nat → R) (p : Nat) (x : Nat → R) (j : Nat) : R :=
  (∑ k ∈ range p, w k * x (j + (p - 1) - k)) / ∑ k ∈ range p, w k

/-- The generalised double exponential average with volume factor `v`. -/
def gdema (a v : R) (x : Nat → R) (n : Nat) : R := (1 + v) * ema a x n - v * ema a (ema a x) n

/-- Tillson's T3: three generalised double averages in a row. -/
def t3 (a v : R) (x : Nat → R) : Nat → R := gdema a v (gdema a v (gdema a v x))

/-- Relative change in percent, averaged over the lags `s` and `l`, at bar `i`; 0 if an old price is 0. -/
def meanChange (s l : Nat) (x : Nat → R) (i : Nat) : R :=
  if x (i - s) = 0 ∨ x (i - l) = 0 then 0
  else 100 * ((x i - x (i - s)) / x (i - s) + (x i - x (i - l)) / x (i - l)) / 2

end Verif.Spec
