/- Specification of exponential smoothing. -/
import Verif.Spec.Window
import Mathlib.Algebra.Field.Defs

namespace Verif.Spec
variable {R : Type} [Field R]

/-- Exponential smoothing with coefficient `a`, seeded with the first value. -/
def ema (a : R) (x : Nat → R) : Nat → R
  | 0 => x 0
  | n + 1 => ema a x n + a * (x (n + 1) - ema a x n)

/-- The usual coefficient of an `p`-period average. -/
def emaCoef (p : Nat) : R := 2 / ((p : R) + 1)

/-- The signal from index `k` on. -/
def shift {α : Type} (k : Nat) (x : Nat → α) : Nat → α := fun i => x (i + k)

/-- Wilder's smoothing: the mean of the first `p` values, then steps of 1/p towards each following value. -/
def wilder (p : Nat) (x : Nat → R) (j : Nat) : R :=
  ema (1 / (p : R)) (fun k => if k = 0 then winMean p x 0 else x (k - 1 + p)) j

end Verif.Spec
