/- Specifications of sliding windows: `p` consecutive values of a signal, the oldest at position `j`. -/
import Mathlib.Algebra.BigOperators.Group.Finset.Basic
import Mathlib.Algebra.Field.Defs

namespace Verif.Spec
open Finset
variable {R : Type}

/-- Sum of the `p` values starting at position `j`. -/
def winSum [AddCommMonoid R] (p : Nat) (x : Nat → R) (j : Nat) : R := ∑ k ∈ range p, x (j + k)

/-- Mean of the `p` values starting at position `j`. -/
def winMean [Field R] (p : Nat) (x : Nat → R) (j : Nat) : R := winSum p x j / (p : R)

end Verif.Spec
