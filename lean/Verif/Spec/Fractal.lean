/- Specifications: the Hurst exponent by rescaled range, Ehlers' filters and stochastic, the fractal adaptive average. -/
import Verif.Spec.Extremum
import Verif.Spec.Stats
import Verif.Core.Num

namespace Verif.Spec
open Finset
variable {R : Type} [Field R] [LinearOrder R] [CMath R]

/-- Logarithmic return from value `k` to the next; 0 if either is 0. -/
def logReturn (x : Nat → R) (k : Nat) : R := if x (k + 1) = 0 ∨ x k = 0 then 0 else CMath.log (x (k + 1) / x k)

/-- Sum of the deviations from the mean of the last `m` of the `p` values starting at `j`. -/
def cumDev (p : Nat) (r : Nat → R) (j m : Nat) : R := ∑ k ∈ range m, (r (j + (p - 1) - k) - winMean p r j)

/-- Range of those sums for `m = 1, …, p`. -/
def cumRange (p : Nat) (r : Nat → R) (j : Nat) : R :=
  winMax p (fun m => cumDev p r j (m + 1)) 0 - winMin p (fun m => cumDev p r j (m + 1)) 0

/-- Hurst exponent of the `p` returns starting at `j`, from the rescaled range; 0 if the range is 0. -/
def hurstExp (p : Nat) (x : Nat → R) (j : Nat) : R :=
  if cumRange p (logReturn x) j = 0 then 0
  else CMath.log (cumRange p (logReturn x) j / CMath.sqrt (winVar p (logReturn x) j)) / CMath.log (p : R)

/-- Ehlers' stochastic of a filtered series `f` at `t`: where `f t` lies between the least and the greatest of the last `p` values;
0 at the bottom. -/
def filtStoch (p : Nat) (f : Nat → R) (t : Nat) : R :=
  if f t = winMin p f (t + 1 - p) then 0 else (f t - winMin p f (t + 1 - p)) / (winMax p f (t + 1 - p) - winMin p f (t + 1 - p))

/-- `y` is the output of the two-pole smoothing filter with coefficients `c2`, `c3` (and `c1 = 1 - c2 - c3`) on the series `u`, both
taken as 0 before they start. -/
def Smooths (c2 c3 : R) (u y : Nat → R) : Prop :=
  ∀ t, y t = (1 - c2 - c3) * (u t + (if 1 ≤ t then u (t - 1) else 0)) / 2 + c2 * (if 1 ≤ t then y (t - 1) else 0) +
    c3 * (if 2 ≤ t then y (t - 2) else 0)

/-- `y` is the output of the two-pole high-pass filter with coefficient `a` on the series `x`; `y t` belongs to `x (t + 2)`. -/
def HighPass (a : R) (x y : Nat → R) : Prop :=
  ∀ t, y t = (1 - a / 2) ^ 2 * (x (t + 2) - 2 * x (t + 1) + x t) + 2 * (1 - a) * (if 1 ≤ t then y (t - 1) else 0) -
    (1 - a) ^ 2 * (if 2 ≤ t then y (t - 2) else 0)

/-- Coefficient of the high-pass filter with cutoff `m` bars: `(cos d + sin d - 1) / cos d` for the angle `d = 0.707 * 360° / m`, with
3.141592 for the circle constant. -/
def mesaAlpha (m : R) : R :=
  let d := 707 / 1000 * 360 / m * (3141592 / 1000000) / 180
  (CMath.cos d + CMath.sin d - 1) / CMath.cos d
/-- Decay of the smoothing filter: `exp(-1.414 * 3.141459 / 10)` (sic). -/
def mesaDecay : R := CMath.exp (-(1414 / 1000) * (3141459 / 1000000) / 10)
/-- Its two coefficients. -/
def mesaC2 : R := 2 * mesaDecay * CMath.cos (1414 / 1000 * 180 / 10 * (3141592 / 1000000) / 180)
def mesaC3 : R := -(mesaDecay * mesaDecay)

/-- Range per bar of the `n` bars starting at `j`. -/
def rangePerBar (n : Nat) (x : Nat → HL R) (j : Nat) : R := (winMax n (fun i => (x i).high) j - winMin n (fun i => (x i).low) j) / (n : R)

/-- Fractal dimension of the `2 * h` bars starting at `j`, from the ranges of its halves; 0 unless all three ranges are positive. -/
def fractalDim (h : Nat) (x : Nat → HL R) (j : Nat) : R :=
  if 0 < rangePerBar h x (j + h) ∧ 0 < rangePerBar h x j ∧ 0 < rangePerBar (2 * h) x j then
    (CMath.log (rangePerBar h x (j + h) + rangePerBar h x j) - CMath.log (rangePerBar (2 * h) x j)) / CMath.log 2
  else 0

/-- Weight of the newest bar of that window: exponential in the dimension, kept between 0.01 and 1. -/
def fractalWeight (h : Nat) (w : R) (x : Nat → HL R) (j : Nat) : R :=
  min 1 (max (1 / 100) (CMath.exp (w * (fractalDim h x j - 1))))

/-- Fractal adaptive average over windows of `2 * h` bars: the middle of the bar during the first window, later moving towards it. -/
def framaAvg (h : Nat) (w : R) (x : Nat → HL R) : Nat → R
  | 0 => ((x 0).high + (x 0).low) / 2
  | n + 1 => if n + 1 < 2 * h then ((x (n + 1)).high + (x (n + 1)).low) / 2
      else fractalWeight h w x (n + 2 - 2 * h) * (((x (n + 1)).high + (x (n + 1)).low) / 2) +
        (1 - fractalWeight h w x (n + 2 - 2 * h)) * framaAvg h w x n

end Verif.Spec
