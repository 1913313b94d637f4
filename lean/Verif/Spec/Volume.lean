/- Specifications of the volume indicators. -/
import Verif.Spec.Ema
import Verif.Core.Rows
import Mathlib.Algebra.BigOperators.Group.Finset.Basic
import Mathlib.Algebra.Order.Group.Unbundled.Abs

namespace Verif.Spec
open Finset
variable {R : Type} [Field R] [LinearOrder R]

/-- Volume of bar `k+1`, counted positive if the close rose, negative if it fell. -/
def signedVolume (x : Nat → CV R) (k : Nat) : R :=
  if (x k).close < (x (k + 1)).close then (x (k + 1)).volume
  else if (x (k + 1)).close < (x k).close then -(x (k + 1)).volume else 0

/-- Relative change of the close from bar `k` to bar `k+1`. -/
def relChange (x : Nat → CV R) (k : Nat) : R := ((x (k + 1)).close - (x k).close) / (x k).close

/-- Where the close lies in the bar, from -1 (at the low) to 1 (at the high); 0 for a bar without range. -/
def closeLocation (r : HLCV R) : R :=
  if r.high = r.low then 0 else ((r.close - r.low) - (r.high - r.close)) / (r.high - r.low)

/-- Accumulation/distribution line after bar `n`. -/
def adLine (x : Nat → HLCV R) (n : Nat) : R := ∑ k ∈ range (n + 1), closeLocation (x k) * (x k).volume

/-- Williams' accumulation of bar `k+1`: close minus true low if the close rose, close minus true high if it fell. -/
def wadMove (x : Nat → HLC R) (k : Nat) : R :=
  if (x k).close < (x (k + 1)).close then (x (k + 1)).close - min (x k).close (x (k + 1)).low
  else if (x (k + 1)).close < (x k).close then (x (k + 1)).close - max (x k).close (x (k + 1)).high else 0

/-- high + low + close, and high - low, of bar `n`. -/
def hlc (x : Nat → HLCV R) (n : Nat) : R := (x n).high + (x n).low + (x n).close
def dailyRange (x : Nat → HLCV R) (n : Nat) : R := (x n).high - (x n).low

/-- Klinger's trend after bar `n`: 1 (up) or -1 (down) as in the last change of high+low+close, 0 before any. -/
def klingerTrend (x : Nat → HLCV R) : Nat → Int
  | 0 => 0
  | n + 1 => if hlc x n < hlc x (n + 1) then 1 else if hlc x (n + 1) < hlc x n then -1 else klingerTrend x n

/-- Klinger's cumulative measurement: daily ranges added up since the trend last changed, including the range of the
bar before the change.  (The range of bar 0 is counted only by such a change.) -/
def klingerCm (x : Nat → HLCV R) : Nat → R
  | 0 => 0
  | n + 1 => (if klingerTrend x (n + 1) = klingerTrend x n then klingerCm x n else dailyRange x n) + dailyRange x (n + 1)

/-- Klinger's volume force of bar `n+1`; before any change of high+low+close it counts as upward. -/
def klingerForce (x : Nat → HLCV R) (n : Nat) : R :=
  if dailyRange x (n + 1) = 0 then 0
  else (x (n + 1)).volume * |2 * (dailyRange x (n + 1) / klingerCm x (n + 1)) - 1| * 100
    * (if klingerTrend x (n + 1) = -1 then -1 else 1)

/-- Typical price of bar `k`. -/
def typical (x : Nat → HLCV R) (k : Nat) : R := ((x k).high + (x k).low + (x k).close) / 3

/-- Money flow of bar `k+1` where the typical price rose / fell (0 otherwise). -/
def flowUp (x : Nat → HLCV R) (k : Nat) : R :=
  if typical x k < typical x (k + 1) then typical x (k + 1) * (x (k + 1)).volume else 0
def flowDown (x : Nat → HLCV R) (k : Nat) : R :=
  if typical x (k + 1) < typical x k then typical x (k + 1) * (x (k + 1)).volume else 0

end Verif.Spec
