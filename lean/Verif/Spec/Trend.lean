/- Specification of least squares lines. -/
import Mathlib.Algebra.BigOperators.Group.Finset.Basic
import Mathlib.Algebra.Field.Defs
import Mathlib.Order.Defs.LinearOrder

namespace Verif.Spec
open Finset
variable {R : Type} [Field R]

/-- Squared error of the line `t ↦ a + b t` on the `p` values starting at position `j`, placed at `t = 1, …, p`. -/
def sqErr (p : Nat) (x : Nat → R) (j : Nat) (a b : R) : R := ∑ k ∈ range p, (x (j + k) - (a + b * ((k + 1 : Nat) : R))) ^ 2

/-- `t ↦ a + b t` is the least squares line of the window: no line has a smaller squared error. -/
def IsBestLine [LinearOrder R] (p : Nat) (x : Nat → R) (j : Nat) (a b : R) : Prop :=
  ∀ a' b' : R, sqErr p x j a b ≤ sqErr p x j a' b'

end Verif.Spec
