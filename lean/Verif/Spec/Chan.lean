/- Specifications: channels built from the extremes of a window. -/
import Verif.Spec.Extremum
import Verif.Spec.Flow
import Verif.Spec.Range
import Verif.Spec.Ema

namespace Verif.Spec
variable {R : Type} [Field R] [LinearOrder R]

/-- Halfway between the highest high and the lowest low of the `p` bars that end with bar `i`. -/
def midChannel (p : Nat) (x : Nat → HL R) (i : Nat) : R :=
  (winMax p (fun k => (x k).high) (i + 1 - p) + winMin p (fun k => (x k).low) (i + 1 - p)) / 2

/-- How far the last close of the `q` bars starting at `k` is above the middle of their range, and that range. -/
def offMiddle (q : Nat) (x : Nat → HLC R) (k : Nat) : R :=
  (x (k + (q - 1))).close - (winMax q (fun i => (x i).high) k + winMin q (fun i => (x i).low) k) / 2
def fullRange (q : Nat) (x : Nat → HLC R) (k : Nat) : R :=
  winMax q (fun i => (x i).high) k - winMin q (fun i => (x i).low) k

/-- Stochastic momentum index: the doubly smoothed distance from the middle, in percent of half the doubly smoothed range;
0 where that range is 0. -/
def stochMomentum (q : Nat) (r s : R) (x : Nat → HLC R) (t : Nat) : R :=
  if smooth2 r s (fullRange q x) t = 0 then 0
  else 100 * (smooth2 r s (offMiddle q x) t / (smooth2 r s (fullRange q x) t / 2))

end Verif.Spec
