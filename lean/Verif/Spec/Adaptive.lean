/- Specifications of the parabolic SAR and of the adaptive averages kama and vidya. -/
import Verif.Core.Rows
import Verif.Core.Num
import Verif.Spec.Stats
import Mathlib.Order.Lattice

namespace Verif.Spec
open Finset
variable {R : Type} [Field R] [LinearOrder R]

/-- The parabolic stop-and-reverse: direction, stop, extreme point of the current trend, acceleration factor. -/
structure Sar (R : Type) where (up : Bool) (stop ep af : R)

/-- The stop before bar `i` is seen: moved towards the extreme point, but not past the last two bars. -/
def sarMoved (x : Nat → HL R) (i : Nat) (s : Sar R) : R :=
  let m := s.stop + s.af * (s.ep - s.stop)
  if s.up then (if 2 ≤ i then min (min m (x (i - 2)).low) (x (i - 1)).low else min m (x (i - 1)).low)
  else (if 2 ≤ i then max (max m (x (i - 2)).high) (x (i - 1)).high else max m (x (i - 1)).high)

/-- One bar: a bar that crosses the stop reverses the trend and the stop jumps to the extreme point; a new extreme
accelerates by `step` up to `top`. -/
def sarBar (step top : R) (x : Nat → HL R) (i : Nat) (s : Sar R) : Sar R :=
  if s.up then
    if (x i).low < sarMoved x i s then ⟨false, max s.ep (x i).high, (x i).low, step⟩
    else ⟨true, sarMoved x i s, max s.ep (x i).high, if s.ep < (x i).high then min (s.af + step) top else s.af⟩
  else
    if sarMoved x i s < (x i).high then ⟨true, min s.ep (x i).low, (x i).high, step⟩
    else ⟨false, sarMoved x i s, min s.ep (x i).low, if (x i).low < s.ep then min (s.af + step) top else s.af⟩

/-- The state after bar `i`; the first trend is the direction in which the midpoint moves from bar 0 to bar 1. -/
def sarAt (step top : R) (x : Nat → HL R) : Nat → Sar R
  | 0 => if (x 0).high + (x 0).low ≤ (x 1).high + (x 1).low then ⟨true, (x 0).low, (x 0).high, step⟩
    else ⟨false, (x 0).high, (x 0).low, step⟩
  | i + 1 => sarBar step top x (i + 1) (sarAt step top x i)

/-- Net move over `p` bars starting at `j`, as a fraction of the path length (1 if nothing moved). -/
def effRatio (p : Nat) (x : Nat → R) (j : Nat) : R :=
  if ∑ k ∈ range p, |x (j + k + 1) - x (j + k)| = 0 then 1
  else |x (j + p) - x j| / ∑ k ∈ range p, |x (j + k + 1) - x (j + k)|

/-- Kaufman's adaptive average, weights between those of periods 30 and 2, squared. -/
def kama (p : Nat) (x : Nat → R) : Nat → R
  | 0 => x (p - 1)
  | j + 1 => kama p x j + (effRatio p x j * (2 / 3 - 2 / 31) + 2 / 31) ^ 2 * (x (j + p) - kama p x j)

/-- Weight of vidya: `alpha` times the ratio of the standard deviations of the last `s` and the last `l` of the bars
`j, …, j + l - 1`. -/
def vidyaWeight [CMath R] (s l : Nat) (alpha : R) (x : Nat → R) (j : Nat) : R :=
  CMath.sqrt (winVar s x (j + (l - s))) / CMath.sqrt (winVar l x j) * alpha

def vidya [CMath R] (s l : Nat) (alpha : R) (x : Nat → R) : Nat → R
  | 0 => x (l - 2)
  | j + 1 => vidya s l alpha x j + vidyaWeight s l alpha x j * (x (j + l - 1) - vidya s l alpha x j)

end Verif.Spec
