/- Specifications of ahma, ehma, idwma, lma, shmma, emsd, edcf. -/
import Verif.Core.Laws
import Verif.Spec.Smooth
import Verif.Spec.Trend
import Verif.Spec.Stats

namespace Verif.Spec
open Finset
variable {R : Type} [Field R] [LinearOrder R] [CMath R]

/-- Ahrens' moving average: the first `p` values are the signal itself; then each value steps a `p`-th part of the way from the
mean of the last average and the one `p` bars ago towards the signal. -/
def IsAhrens (p : Nat) (x y : Nat → R) : Prop :=
  (∀ n, n < p → y n = x n) ∧ ∀ n, p ≤ n → y n = y (n - 1) + (x n - (y (n - 1) + y (n - p)) / 2) / (p : R)

/-- The Hull average with exponential smoothing, `a`, `b`, `c` being the coefficients of half the period, the period and its
square root. -/
def hullEma (a b c : R) (x : Nat → R) : Nat → R := ema c (fun j => 2 * ema a x j - ema b x j)

/-- The modified moving average with its slope correction: the mean of the window plus `6 / (p (p+1))` times the sum of the
values weighted with their distance from the middle of the window. -/
def sharpMean (p : Nat) (x : Nat → R) (j : Nat) : R :=
  winMean p x j + 6 / (((p : R) + 1) * (p : R)) * ∑ k ∈ range p, ((k : R) - ((p : R) - 1) / 2) * x (j + k)

/-- Weight of the value at bar `t` in a distance coefficient filter over `p` bars: the squared distances to the `p - 1` values
before it. -/
def distWeight (p : Nat) (x : Nat → R) (t : Nat) : R := ∑ l ∈ range (p - 1), (x t - x (t - (l + 1))) ^ 2

/-- The distance coefficient filter at bar `t`: mean of the last `p` values with those weights; 0 if all weights are. -/
def distFilter (p : Nat) (x : Nat → R) (t : Nat) : R :=
  if ∑ k ∈ range p, distWeight p x (t - k) = 0 then 0
  else (∑ k ∈ range p, distWeight p x (t - k) * x (t - k)) / ∑ k ∈ range p, distWeight p x (t - k)

end Verif.Spec
