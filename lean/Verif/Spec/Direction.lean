/- Specifications of directional movement. -/
import Verif.Spec.Range
import Verif.Spec.Ema
import Mathlib.Algebra.Order.Group.Unbundled.Abs

namespace Verif.Spec
open Finset
variable {R : Type} [Field R] [LinearOrder R]

/-- How far the high of bar `k+1` lies above the previous high, and its low below the previous low (0 if it does not). -/
def upMove (x : Nat → HL R) (k : Nat) : R := max ((x (k + 1)).high - (x k).high) 0
def downMove (x : Nat → HL R) (k : Nat) : R := max ((x k).low - (x (k + 1)).low) 0

/-- Plus / minus directional movement of bar `k+1`: the larger of the two moves; of equal moves both count. -/
def plusDM (x : Nat → HL R) (k : Nat) : R := if downMove x k ≤ upMove x k then upMove x k else 0
def minusDM (x : Nat → HL R) (k : Nat) : R := if upMove x k ≤ downMove x k then downMove x k else 0

/-- Wilder's running sum of `d`: the first `p - 1` values added up, then one p-th dropped for each value added. -/
def wilderSum (p : Nat) (d : Nat → R) : Nat → R
  | 0 => ∑ k ∈ range (p - 1), d k
  | j + 1 => wilderSum p d j - wilderSum p d j / (p : R) + d (j + (p - 1))

/-- Directional index: |plus - minus| in percent of plus + minus; 0 if both vanish. -/
def dxOf (plus minus : R) : R := if plus + minus = 0 then 0 else 100 * (|plus - minus| / (plus + minus))

end Verif.Spec
