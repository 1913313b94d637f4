/- Specifications: polarized fractal efficiency, choppiness, middle of the recent range. -/
import Verif.Spec.Extremum
import Verif.Spec.Range
import Verif.Spec.Ema
import Verif.Core.Num

namespace Verif.Spec
open Finset
variable {R : Type} [Field R] [LinearOrder R] [CMath R]

/-- Length of the path through the `p + 1` values starting at `j`, one unit of time apart. -/
def pathLength (p : Nat) (x : Nat → R) (j : Nat) : R := ∑ k ∈ range p, CMath.sqrt ((x (j + k + 1) - x (j + k)) ^ 2 + 1)

/-- How direct that path is, in percent: the distance between its ends (ten units of time apart whatever `p`) over its
length, negative unless the value rose. -/
def polarEff (p : Nat) (x : Nat → R) (j : Nat) : R :=
  (if x j < x (j + p) then 100 else -100) * CMath.sqrt ((x (j + p) - x j) ^ 2 + 100) / pathLength p x j

/-- Share of the true ranges of the `p` bars starting at `j` that separates the largest from the smallest. -/
def rangeShare (p : Nat) (x : Nat → HLC R) (j : Nat) : R :=
  (winMax p (trueRange x) j - winMin p (trueRange x) j) / winSum p (trueRange x) j

/-- Halfway between the greatest and the least of the last `p` values up to value `n`, or of all of them if there are fewer. -/
def midRange (p : Nat) (x : Nat → R) (n : Nat) : R :=
  (winMax (min p (n + 1)) x (n + 1 - min p (n + 1)) + winMin (min p (n + 1)) x (n + 1 - min p (n + 1))) / 2

end Verif.Spec
