/- Specifications of fi, mgdyn, pvt, kc, tsi, rmi, vwap, evwma and vi. -/
import Verif.Spec.Volume
import Verif.Spec.Range

namespace Verif.Spec
open Finset
variable {R : Type} [Field R] [LinearOrder R]

/-- Elder's force at bar `k + 1`: volume times change of the close. -/
def force (x : Nat → CV R) (k : Nat) : R := (x (k + 1)).volume * ((x (k + 1)).close - (x k).close)

/-- Price-volume trend at bar `n + 1`: the volume of bar 0 plus, for every later bar, its volume times the relative
change of the close. -/
def priceVolumeTrend (x : Nat → CV R) (n : Nat) : R :=
  (x 0).volume + ∑ k ∈ range (n + 1), (x (k + 1)).volume * relChange x k

/-- Change of the price into bar `k + 1`. -/
def priceChange (x : Nat → R) (k : Nat) : R := x (k + 1) - x k

/-- Two exponential smoothings, with periods `p` and then `q` (real numbers). -/
def smooth2 (p q : R) (y : Nat → R) (n : Nat) : R := ema (2 / (1 + q)) (ema (2 / (1 + p)) y) n

/-- True strength index: doubly smoothed change as a percentage of doubly smoothed absolute change; 0 if the latter is
0. -/
def trueStrength (p q : R) (x : Nat → R) (n : Nat) : R :=
  if smooth2 p q (fun k => |priceChange x k|) n = 0 then 0
  else 100 * (smooth2 p q (priceChange x) n / smooth2 p q (fun k => |priceChange x k|) n)

/-- Gain, and loss, over `p` bars (0 for a move the other way). -/
def gainOver (p : Nat) (x : Nat → R) (k : Nat) : R := max 0 (x (k + p) - x k)
def lossOver (p : Nat) (x : Nat → R) (k : Nat) : R := max 0 (x k - x (k + p))

/-- Relative momentum index: smoothed gains as a percentage of smoothed gains and losses; 0 without gains. -/
def relMomentum (period : R) (p : Nat) (x : Nat → R) (j : Nat) : R :=
  if ema (2 / (1 + period)) (gainOver p x) j = 0 then 0
  else 100 * (ema (2 / (1 + period)) (gainOver p x) j /
    (ema (2 / (1 + period)) (gainOver p x) j + ema (2 / (1 + period)) (lossOver p x) j))

/-- Volume-weighted mean of the typical prices of `p` bars from bar `j`; 0 if the weighted sum is 0. -/
def volumeMean (p : Nat) (x : Nat → HLCV R) (j : Nat) : R :=
  if winSum p (fun k => typical x k * (x k).volume) j = 0 then 0
  else winSum p (fun k => typical x k * (x k).volume) j / winSum p (fun k => (x k).volume) j

/-- Elastic volume-weighted average: starts at the close of bar `p - 1`; each later bar pulls it towards its close by
the share of its volume in `gamma` times the volume of the last `p` bars; 0 when that volume is 0. -/
def elasticMean (p : Nat) (gamma : R) (x : Nat → CV R) : Nat → R
  | 0 => (x (p - 1)).close
  | j + 1 =>
    let total := winSum p (fun k => (x k).volume) (j + 1)
    if total = 0 then 0 else
      let w := (x (j + p)).volume / (gamma * total)
      elasticMean p gamma x j + w * ((x (j + p)).close - elasticMean p gamma x j)

/-- Vortex movements into bar `k + 1`. -/
def vortexUp (x : Nat → HLC R) (k : Nat) : R := |(x (k + 1)).high - (x k).low|
def vortexDown (x : Nat → HLC R) (k : Nat) : R := |(x (k + 1)).low - (x k).high|

/-- Vortex indicator over the `p` bars after bar `j`: movement divided by true range (0 without movement). -/
def vortex (p : Nat) (v : Nat → R) (x : Nat → HLC R) (j : Nat) : R :=
  if winSum p v j = 0 then 0 else winSum p v j / winSum p (fun k => trueRange x (k + 1)) j

end Verif.Spec
