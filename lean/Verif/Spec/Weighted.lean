/- Specification of the triangular, Hull and KST averages. -/
import Verif.Spec.Range
import Verif.Spec.Ema

namespace Verif.Spec
open Finset
variable {R : Type} [Field R]

/-- Linearly weighted mean of the `p` values from `j` on, the newest weighing most. -/
def wma (p : Nat) (x : Nat → R) (j : Nat) : R := winWSum p x j / ∑ k ∈ range p, ((k + 1 : Nat) : R)

/-- Triangular weights `1, 2, …, 2, 1` over a window of `p` values. -/
def triWeight (p k : Nat) : Nat := min (k + 1) (p - k)

/-- Triangularly weighted mean of the `p` values from `j` on. -/
def trima (p : Nat) (x : Nat → R) (j : Nat) : R :=
  (∑ k ∈ range p, (triWeight p k : R) * x (j + k)) / ∑ k ∈ range p, (triWeight p k : R)

/-- Relative change over the `p` bars that end at bar `n + p`. -/
def change (p : Nat) (x : Nat → R) (n : Nat) : R := (x (n + p) - x n) / x n

/-- KST at bar `r₄ + j`: the changes over `r₁ < r₂ < r₃ < r₄` bars, each smoothed exponentially from the first
bar at which it exists, mixed 1:2:3:4. -/
def kst (r1 r2 r3 r4 m1 m2 m3 m4 : Nat) (x : Nat → R) (j : Nat) : R :=
  (1 * ema (emaCoef m1) (change r1 x) (r4 + j - r1) + 2 * ema (emaCoef m2) (change r2 x) (r4 + j - r2)
    + 3 * ema (emaCoef m3) (change r3 x) (r4 + j - r3) + 4 * ema (emaCoef m4) (change r4 x) (r4 + j - r4)) / 10

end Verif.Spec
