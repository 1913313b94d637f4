/- Specification of projection bands, the projection oscillator and the regression volatility index. -/
import Verif.Spec.Trend
import Verif.Spec.Ema

namespace Verif.Spec
variable {R : Type} [Field R]

/-- The last `p` values of `f` up to bar `t`, each carried forward to bar `t` along a line of slope `b`. -/
def projections (p : Nat) (f : Nat → R) (b : R) (t : Nat) : Set R := {v | ∃ k, k < p ∧ v = f (t - k) + (k : R) * b}

/-- Where `v` lies between `lo` and `hi`, in percent. -/
def percentOf (lo hi v : R) : R := (v - lo) / (hi - lo) * 100

/-- Average that starts from zero and moves the fraction `w` of the way to `v j` on the bars `j` chosen by `sel`. -/
def chosenMean (w : R) (sel : Nat → Bool) (v : Nat → R) : Nat → R
  | 0 => if sel 0 then w * v 0 else 0
  | j + 1 => if sel (j + 1) then chosenMean w sel v j + w * (v (j + 1) - chosenMean w sel v j) else chosenMean w sel v j

/-- The share of upward deviations in percent, from the deviations `d` of each bar from the line through its window: squares
over the period, averaged separately over the positive and the other bars; 50 until there is a positive one. -/
def deviationShare [LinearOrder R] (p e : Nat) (d : Nat → R) (j : Nat) : R :=
  let up := chosenMean (emaCoef e) (fun j => decide (0 < d j)) (fun j => d j ^ 2 / (p : R)) j
  let down := chosenMean (emaCoef e) (fun j => !decide (0 < d j)) (fun j => d j ^ 2 / (p : R)) j
  if up = 0 then 50 else 100 * up / (up + down)

end Verif.Spec
